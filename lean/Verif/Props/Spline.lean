import Verif.Model.SplineReal
import Verif.Lemmas.Spline
import Verif.Lemmas.EvalCase
import Verif.Props.Evaluation
import Mathlib.MeasureTheory.Integral.IntervalIntegral.FundThmCalculus
import Mathlib.Algebra.Order.Ring.Rat
import Mathlib.Data.List.GetD

/-!
# C81, C82: spline PDFs
-/

set_option linter.unusedSectionVars false
set_option autoImplicit false

namespace Verif.Props.Spline

open Verif Verif.Np Verif.Model Verif.Lemmas Verif.Lemmas.Spline Finset MeasureTheory

section Algebra

variable {K : Type*} [Field K] [LinearOrder K] [IsStrictOrderedRing K]

/-- Knots as `splrep` returns them: enough of them, non-decreasing, strictly increasing in the base interval. -/
structure SplOK (r : SplRow K) : Prop where
  size : 2 * r.k + 2 ≤ r.t.length
  mono : r.t.Pairwise (· ≤ ·)
  base : ∀ i, r.k ≤ i → i ≤ r.last → r.knot i < r.knot (i + 1)

theorem SplOK.monoTo {r : SplRow K} (h : SplOK r) : MonoTo r.knot r.t.length := by
  intro i j hij hj
  unfold SplRow.knot
  rw [List.getD_eq_getElem _ _ (by omega : i < r.t.length), List.getD_eq_getElem _ _ hj]
  rcases Nat.lt_or_eq_of_le hij with h' | h'
  · exact List.pairwise_iff_getElem.1 h.mono i j _ _ h'
  · subst h'; exact le_rfl

theorem SplOK.kl {r : SplRow K} (h : SplOK r) : r.k ≤ r.last := by have := h.size; unfold SplRow.last; omega

theorem climb_spec (t : ℕ → K) (x : K) : ∀ (f l : ℕ), l ≤ climb t x f l ∧ climb t x f l ≤ l + f ∧
    (x < t (climb t x f l + 1) ∨ climb t x f l = l + f) ∧ (t (climb t x f l) ≤ x ∨ climb t x f l = l) := by
  intro f
  induction f with
  | zero => intro l; simp [climb]
  | succ f ih =>
    intro l
    unfold climb
    split
    · next h => exact ⟨le_rfl, by omega, Or.inl h, Or.inr rfl⟩
    · next h =>
      obtain ⟨a, b, c, d⟩ := ih (l + 1)
      refine ⟨by omega, by omega, ?_, ?_⟩
      · rcases c with c | c
        · exact Or.inl c
        · right; omega
      · rcases d with d | d
        · exact Or.inl d
        · left; rw [d]; exact not_lt.1 h

theorem interval_spec {r : SplRow K} (h : SplOK r) (x : K) : r.k ≤ r.interval x ∧ r.interval x ≤ r.last ∧
    (x < r.knot (r.interval x + 1) ∨ r.interval x = r.last) ∧ (r.knot (r.interval x) ≤ x ∨ r.interval x = r.k) := by
  obtain ⟨a, b, c, d⟩ := climb_spec r.knot x (r.last - r.k) r.k
  have := h.kl
  refine ⟨a, ?_, ?_, d⟩
  · unfold SplRow.interval; omega
  · rcases c with c | c
    · exact Or.inl c
    · right; unfold SplRow.interval; omega

theorem knot_le {r : SplRow K} (h : SplOK r) {i j : ℕ} (hij : i ≤ j) (hj : j ≤ r.last + 1) : r.knot i ≤ r.knot j :=
  h.monoTo i j hij (by have := h.size; unfold SplRow.last at hj; omega)

theorem interval_eq {r : SplRow K} (h : SplOK r) (l : ℕ) (hl : r.k ≤ l) (hl' : l ≤ r.last) (x : K) (h1 : r.knot l ≤ x ∨ l = r.k) (h2 : x < r.knot (l + 1) ∨ l = r.last) :
    r.interval x = l := by
  obtain ⟨a, b, c, d⟩ := interval_spec h x
  by_contra hne
  rcases Nat.lt_or_gt_of_ne hne with hlt | hlt
  · rcases c with c | c
    · rcases h1 with h1 | h1
      · have := knot_le h (by omega : r.interval x + 1 ≤ l) (by omega)
        exact absurd (lt_of_lt_of_le c this) (not_lt.2 h1)
      · omega
    · omega
  · rcases h2 with h2 | h2
    · rcases d with d | d
      · have := knot_le h (by omega : l + 1 ≤ r.interval x) (by omega)
        exact absurd (lt_of_lt_of_le h2 this) (not_lt.2 d)
      · omega
    · omega

/-- the polynomial of an interval as a sum over all B-splines -/
theorem piece_eq {r : SplRow K} (h : SplOK r) (l : ℕ) (hl : r.k ≤ l) (hl' : l ≤ r.last) (x : K) :
    r.piece l x = ∑ m ∈ range (r.t.length - r.k - 1), r.c.getD m 0 * bspl r.knot l r.k m x := by
  unfold SplRow.piece
  rw [Lemmas.Spline.sum_range]
  have hN : r.t.length - r.k - 1 = (l - r.k) + (r.k + 1) + (r.last - l) := by have := h.size; unfold SplRow.last at *; omega
  conv_rhs => rw [hN, Finset.sum_range_add, Finset.sum_range_add]
  have h1 : ∑ m ∈ range (l - r.k), r.c.getD m 0 * bspl r.knot l r.k m x = 0 := by
    apply Finset.sum_eq_zero
    intro m hm
    have hm' : m < l - r.k := by simpa using hm
    rw [bspl_support _ _ _ _ _ (by omega)]; simp
  have h2 : ∑ m ∈ range (r.last - l), r.c.getD (l - r.k + (r.k + 1) + m) 0 * bspl r.knot l r.k (l - r.k + (r.k + 1) + m) x = 0 := by
    apply Finset.sum_eq_zero
    intro m hm
    rw [bspl_support _ _ _ _ _ (by omega)]; simp
  rw [h1, h2]; simp

/-- **C81: values between coefficients.** Inside the base interval a spline PDF lies between any bounds of its coefficients; in particular it is
non-negative when they are. -/
theorem C81_bounds (r : SplRow K) (h : SplOK r) (A B : K) (hc : ∀ i, i < r.t.length - r.k - 1 → A ≤ r.c.getD i 0 ∧ r.c.getD i 0 ≤ B)
    (x : K) (h1 : r.lo ≤ x) (h2 : x ≤ r.hi) : A ≤ splev r x ∧ splev r x ≤ B := by
  obtain ⟨a, b, c, d⟩ := interval_spec h x
  have hsz := h.size
  set l := r.interval x with hl
  have hx1 : r.knot l ≤ x := by
    rcases d with d | d
    · exact d
    · rw [d]; exact h1
  have hx2 : x ≤ r.knot (l + 1) := by
    rcases c with c | c
    · exact c.le
    · rw [c]; exact h2
  have hlast : r.last + r.k + 2 = r.t.length := by unfold SplRow.last; omega
  have hsum := bspl_sum r.knot r.t.length l h.monoTo (h.base l a b) x r.k a (by omega)
  have hnn : ∀ j ∈ range (r.k + 1), 0 ≤ bspl r.knot l r.k (l - r.k + j) x := by
    intro j hj
    have hj' : j < r.k + 1 := by simpa using hj
    exact bspl_nonneg r.knot r.t.length l h.monoTo x hx1 hx2 r.k _ (by omega)
  unfold splev SplRow.piece
  rw [← hl, Lemmas.Spline.sum_range]
  constructor
  · calc A = ∑ j ∈ range (r.k + 1), A * bspl r.knot l r.k (l - r.k + j) x := by rw [← Finset.mul_sum, hsum, mul_one]
      _ ≤ _ := by
        apply Finset.sum_le_sum
        intro j hj
        have hj' : j < r.k + 1 := by simpa using hj
        exact mul_le_mul_of_nonneg_right (hc _ (by omega)).1 (hnn j hj)
  · calc _ ≤ ∑ j ∈ range (r.k + 1), B * bspl r.knot l r.k (l - r.k + j) x := by
          apply Finset.sum_le_sum
          intro j hj
          have hj' : j < r.k + 1 := by simpa using hj
          exact mul_le_mul_of_nonneg_right (hc _ (by omega)).2 (hnn j hj)
      _ = B := by rw [← Finset.mul_sum, hsum, mul_one]

theorem prim_join {r : SplRow K} (h : SplOK r) (l : ℕ) (hl : r.k ≤ l) (hl' : l < r.last) : r.prim l (r.knot (l + 1)) = r.prim (l + 1) (r.knot (l + 1)) := by
  unfold SplRow.prim
  congr 1
  apply List.map_congr_left
  intro m _
  rw [splRes_join r.knot l r.k m (h.base l hl (by omega)) (h.base (l + 1) (by omega) (by omega))]

/-- only the part of the range inside the base interval counts: any lower limit left of it gives the same integral -/
theorem splint_left {r : SplRow K} (h : SplOK r) (a x : K) (ha : a ≤ r.lo) :
    splint r a x = if x ≤ r.lo then 0 else r.prim (r.interval (min x r.hi)) (min x r.hi) - r.prim r.k r.lo := by
  have hlh : r.lo < r.hi := by
    have h1 := h.base r.k le_rfl h.kl
    have h2 := knot_le h (by have := h.kl; omega : r.k + 1 ≤ r.last + 1) le_rfl
    exact lt_of_lt_of_le h1 h2
  have hk : r.interval r.lo = r.k := interval_eq h r.k le_rfl h.kl _ (Or.inr rfl) (Or.inl (h.base r.k le_rfl h.kl))
  have hup : ∀ a b, a ≤ r.lo → splintUp r a b = if b < r.lo then 0 else r.prim (r.interval (min b r.hi)) (min b r.hi) - r.prim r.k r.lo := by
    intro a b ha
    unfold splintUp
    simp only [max_eq_right ha, hk]
    have : min b r.hi < r.lo ↔ b < r.lo := by rw [min_lt_iff]; constructor
                                              · rintro (h | h)
                                                · exact h
                                                · exact absurd h (not_lt.2 hlh.le)
                                              · exact Or.inl
    simp only [this]
  have hat : r.prim (r.interval (min r.lo r.hi)) (min r.lo r.hi) - r.prim r.k r.lo = 0 := by rw [min_eq_left hlh.le, hk, sub_self]
  unfold splint
  rcases lt_trichotomy a x with hax | hax | hax
  · rw [if_pos hax, hup a x ha]
    rcases lt_trichotomy x r.lo with hx | hx | hx
    · rw [if_pos hx, if_pos hx.le]
    · subst hx; rw [if_neg (lt_irrefl _), if_pos le_rfl, hat]
    · rw [if_neg (not_lt.2 hx.le), if_neg (not_le.2 hx)]
  · subst hax; rw [if_neg (lt_irrefl _), if_pos rfl, if_pos ha]
  · rw [if_neg (not_lt.2 hax.le), if_neg hax.ne', if_pos (hax.le.trans ha), hup x a (hax.le.trans ha)]
    rcases lt_or_eq_of_le ha with h' | h'
    · rw [if_pos h', neg_zero]
    · rw [h', if_neg (lt_irrefl _), hat, neg_zero]

end Algebra

/-! ## the CDF is the integral of the PDF -/

theorem prim_deriv {r : SplRow ℝ} (h : SplOK r) (l : ℕ) (hl : r.k ≤ l) (hl' : l ≤ r.last) (x : ℝ) : HasDerivAt (r.prim l) (r.piece l x) x := by
  have hf : r.prim l = fun y => ∑ m ∈ range (r.t.length - r.k - 1), r.c.getD m 0 * ((r.knot (m + r.k + 1) - r.knot m) / ((r.k : ℝ) + 1) * splRes r.knot l r.k m y) := by
    funext y; unfold SplRow.prim; rw [Lemmas.Spline.sum_range]
  rw [hf, piece_eq h l hl hl']
  apply HasDerivAt.fun_sum
  intro m hm
  have hm' : m < r.t.length - r.k - 1 := by simpa using hm
  have hsz := h.size
  exact (splRes_deriv r.knot r.t.length l r.k m h.monoTo (h.base l hl hl') (by unfold SplRow.last at hl'; omega) (by omega) x).const_mul _

theorem piece_continuous {r : SplRow ℝ} (l : ℕ) : Continuous (r.piece l) := by
  have hb : ∀ (d m : ℕ), Continuous (bspl r.knot l d m) := by
    intro d
    induction d with
    | zero => intro m; exact continuous_const
    | succ d ih =>
      intro m
      exact (((continuous_id.sub continuous_const).div_const _).mul (ih m)).add (((continuous_const.sub continuous_id).div_const _).mul (ih (m + 1)))
  have hf : r.piece l = fun y => ∑ j ∈ range (r.k + 1), r.c.getD (l - r.k + j) 0 * bspl r.knot l r.k (l - r.k + j) y := by
    funext y; unfold SplRow.piece; rw [Lemmas.Spline.sum_range]
  rw [hf]
  exact continuous_finsetSum _ fun j _ => continuous_const.mul (hb _ _)

theorem integral_piece {r : SplRow ℝ} (h : SplOK r) (l : ℕ) (hl : r.k ≤ l) (hl' : l ≤ r.last) (u v : ℝ) : ∫ x in u..v, r.piece l x = r.prim l v - r.prim l u :=
  intervalIntegral.integral_eq_sub_of_hasDerivAt (fun x _ => prim_deriv h l hl hl' x) ((piece_continuous l).intervalIntegrable u v)

/-- on a part of one interval the spline is its polynomial -/
theorem splev_piece {r : SplRow ℝ} (h : SplOK r) (l : ℕ) (hl : r.k ≤ l) (hl' : l ≤ r.last) (u v : ℝ) (huv : u ≤ v) (h1 : r.knot l ≤ u ∨ l = r.k)
    (h2 : v ≤ r.knot (l + 1) ∨ l = r.last) : IntervalIntegrable (splev r) volume u v ∧ ∫ x in u..v, splev r x = r.prim l v - r.prim l u := by
  have he : ∀ᵐ x ∂(volume : Measure ℝ), x ∈ Set.uIoc u v → r.piece l x = splev r x := by
    have hne : ∀ᵐ x ∂(volume : Measure ℝ), x ≠ v := by
      rw [ae_iff]; simp
    filter_upwards [hne] with x hx hxm
    rw [Set.uIoc_of_le huv] at hxm
    unfold splev
    rw [interval_eq h l hl hl' x ?_ ?_]
    · rcases h1 with h1 | h1
      · exact Or.inl (h1.trans hxm.1.le)
      · exact Or.inr h1
    · rcases h2 with h2 | h2
      · exact Or.inl (lt_of_lt_of_le (lt_of_le_of_ne hxm.2 hx) h2)
      · exact Or.inr h2
  refine ⟨((piece_continuous (r := r) l).intervalIntegrable u v).congr_ae ?_, ?_⟩
  · exact (ae_restrict_iff' measurableSet_uIoc).2 he
  · rw [← integral_piece h l hl hl' u v]
    exact (intervalIntegral.integral_congr_ae he).symm

theorem integral_to {r : SplRow ℝ} (h : SplOK r) : ∀ (n : ℕ), r.k + n ≤ r.last → ∀ x, r.knot (r.k + n) ≤ x → (x ≤ r.knot (r.k + n + 1) ∨ r.k + n = r.last) →
    IntervalIntegrable (splev r) volume r.lo x ∧ ∫ y in r.lo..x, splev r y = r.prim (r.k + n) x - r.prim r.k r.lo := by
  intro n
  induction n with
  | zero =>
    intro hn x hx hx'
    exact splev_piece h r.k le_rfl h.kl r.lo x hx (Or.inr rfl) hx'
  | succ n ih =>
    intro hn x hx hx'
    obtain ⟨i1, e1⟩ := ih (by omega) (r.knot (r.k + (n + 1))) (knot_le h (by omega) (by omega)) (Or.inl le_rfl)
    obtain ⟨i2, e2⟩ := splev_piece h (r.k + (n + 1)) (by omega) hn (r.knot (r.k + (n + 1))) x hx (Or.inl le_rfl) hx'
    refine ⟨i1.trans i2, ?_⟩
    rw [← intervalIntegral.integral_add_adjacent_intervals i1 i2, e1, e2]
    have := prim_join h (r.k + n) (by omega) (by omega)
    rw [show r.k + n + 1 = r.k + (n + 1) by omega] at this
    rw [this]; ring

theorem integral_interval {r : SplRow ℝ} (h : SplOK r) (x : ℝ) (hx : r.lo ≤ x) :
    IntervalIntegrable (splev r) volume r.lo x ∧ ∫ y in r.lo..x, splev r y = r.prim (r.interval x) x - r.prim r.k r.lo := by
  obtain ⟨a, b, c, d⟩ := interval_spec h x
  have := integral_to h (r.interval x - r.k) (by omega) x
  rw [show r.k + (r.interval x - r.k) = r.interval x by omega] at this
  refine this ?_ ?_
  · rcases d with d | d
    · exact d
    · rw [d]; exact hx
  · rcases c with c | c
    · exact Or.inl c.le
    · exact Or.inr c

theorem lo_lt_hi {r : SplRow ℝ} (h : SplOK r) : r.lo < r.hi := by
  have h1 := h.base r.k le_rfl h.kl
  have h2 := knot_le h (by have := h.kl; omega : r.k + 1 ≤ r.last + 1) le_rfl
  exact lt_of_lt_of_le h1 h2

/-- **C81: the CDF integrates the PDF between the ends of the knots**, whatever lower limit left of them the other rows impose: it is zero up to the
first knot, the integral of the PDF from there on, and constant after the last knot. -/
theorem C81_splint_integral (r : SplRow ℝ) (h : SplOK r) (a x : ℝ) (ha : a ≤ r.lo) :
    IntervalIntegrable (splev r) volume r.lo (min x r.hi) ∧ splint r a x = if x ≤ r.lo then 0 else ∫ y in r.lo..(min x r.hi), splev r y := by
  have hlh := lo_lt_hi h
  rw [splint_left h a x ha]
  by_cases hx : x ≤ r.lo
  · rw [if_pos hx, if_pos hx]
    refine ⟨?_, rfl⟩
    rw [min_eq_left (hx.trans hlh.le)]
    -- left of the base interval the spline is the polynomial of the first interval
    exact (splev_piece h r.k le_rfl h.kl x r.lo hx (Or.inr rfl) (Or.inl (h.base r.k le_rfl h.kl).le)).1.symm
  · rw [if_neg hx, if_neg hx]
    have hm : r.lo ≤ min x r.hi := le_min (not_le.1 hx).le hlh.le
    obtain ⟨i, e⟩ := integral_interval h _ hm
    exact ⟨i, e.symm⟩

theorem xmin_le (rows : List (SplRow ℝ)) (i : ℕ) (r : SplRow ℝ) (hi : rows[i]? = some r) (h : SplOK r) : ∃ a, splXmin rows = some a ∧ a ≤ r.lo := by
  have hmem : r ∈ rows := List.mem_of_getElem? hi
  have hlo : r.lo ∈ rows.flatMap SplRow.t := by
    rw [List.mem_flatMap]
    refine ⟨r, hmem, ?_⟩
    unfold SplRow.lo SplRow.knot
    have := h.size
    rw [List.getD_eq_getElem _ _ (by omega : r.k < r.t.length)]
    exact List.getElem_mem _
  unfold splXmin
  cases hm : (rows.flatMap SplRow.t).min? with
  | none => rw [List.min?_eq_none_iff] at hm; rw [hm] at hlo; simp at hlo
  | some a => exact ⟨a, rfl, (List.min?_eq_some_iff.1 hm).2 _ hlo⟩

/-- **C81.** The CDF of every PDF of a spline ensemble, also next to PDFs with other ranges.
Missing: points outside the knots (false, `C81_outside_wrong`). -/
theorem C81_cdf_partial (rows : List (SplRow ℝ)) (i : ℕ) (r : SplRow ℝ) (hi : rows[i]? = some r) (h : SplOK r) (x : ℝ) :
    splCdf rows i x = .ok (if x ≤ r.lo then 0 else ∫ y in r.lo..(min x r.hi), splev r y) := by
  obtain ⟨a, ha, hle⟩ := xmin_le rows i r hi h
  unfold splCdf
  rw [hi, ha]
  simp only
  rw [(C81_splint_integral r h a x hle).2]

/-- **C81: monotone** when the coefficients are non-negative: the CDF never decreases and is never negative. -/
theorem C81_cdf_mono (rows : List (SplRow ℝ)) (i : ℕ) (r : SplRow ℝ) (hi : rows[i]? = some r) (h : SplOK r) (hc : ∀ v ∈ r.c, 0 ≤ v) (x y : ℝ) (hxy : x ≤ y) :
    ∃ u v, splCdf rows i x = .ok u ∧ splCdf rows i y = .ok v ∧ 0 ≤ u ∧ u ≤ v := by
  have hlh := lo_lt_hi h
  refine ⟨_, _, C81_cdf_partial rows i r hi h x, C81_cdf_partial rows i r hi h y, ?_⟩
  have hc' : ∀ i, 0 ≤ r.c.getD i 0 := by
    intro i
    by_cases hi : i < r.c.length
    · rw [List.getD_eq_getElem _ _ hi]; exact hc _ (List.getElem_mem _)
    · rw [List.getD_eq_default _ _ (by omega)]
  have hpos : ∀ y, r.lo ≤ y → y ≤ r.hi → 0 ≤ splev r y := by
    intro y h1 h2
    -- the largest coefficient is an upper bound
    have := C81_bounds r h 0 (∑ m ∈ range (r.t.length - r.k - 1), r.c.getD m 0) (fun i hi => ⟨hc' i, Finset.single_le_sum (f := fun m => r.c.getD m 0) (fun m _ => hc' m) (by simpa using hi)⟩) y h1 h2
    exact this.1
  have hnn : ∀ z, r.lo ≤ z → z ≤ r.hi → 0 ≤ ∫ y in r.lo..z, splev r y := fun z hz hz' =>
    intervalIntegral.integral_nonneg hz fun y hy => hpos y hy.1 (hy.2.trans hz')
  by_cases hx : x ≤ r.lo
  · rw [if_pos hx]
    refine ⟨le_rfl, ?_⟩
    split
    · exact le_rfl
    · next hy => exact hnn _ (le_min (not_le.1 hy).le hlh.le) (min_le_right _ _)
  · have hy : ¬ y ≤ r.lo := fun hy => hx (hxy.trans hy)
    rw [if_neg hx, if_neg hy]
    have h1 : r.lo ≤ min x r.hi := le_min (not_le.1 hx).le hlh.le
    have h2 : min x r.hi ≤ min y r.hi := min_le_min_right _ hxy
    refine ⟨hnn _ h1 (min_le_right _ _), ?_⟩
    have i1 := (integral_interval h _ h1).1
    have i2 := (integral_interval h _ (h1.trans h2)).1
    have := intervalIntegral.integral_add_adjacent_intervals i1 (i1.symm.trans i2)
    have h3 : 0 ≤ ∫ z in (min x r.hi)..(min y r.hi), splev r z :=
      intervalIntegral.integral_nonneg h2 fun z hz => hpos z (h1.trans hz.1) (hz.2.trans (min_le_right _ _))
    linarith

/-! ## evaluation -/

theorem mapM_ok {α β : Type*} (f : α → Except Err β) (g : α → β) : ∀ l : List α, (∀ a ∈ l, f a = .ok (g a)) → l.mapM f = .ok (l.map g) := by
  intro l
  induction l with
  | nil => intro _; rfl
  | cons a l ih =>
    intro h
    rw [List.mapM_cons, h a (by simp), ih (fun b hb => h b (by simp [hb]))]
    rfl

/-- **C81: evaluation.** For points of any shape (`X i` are the points for PDF `i`), in any order and with any repetitions, the PDF of a spline
ensemble is the spline of each row at its own points, in their positions. -/
theorem C81_pdf_points (rows : List (SplRow ℝ)) (X : List (List ℝ)) (hX : X.length = rows.length) :
    scipyEval (splVectorized (splPdf rows)) X = .ok (List.zipWith (fun r xs => xs.map (splev r)) rows X) := by
  have key : ∀ (X : List (List ℝ)) (pre post : List (SplRow ℝ)), rows = pre ++ post → X.length = post.length →
      (List.zip (flatRows pre.length X) X.flatten).mapM (fun p => splPdf rows p.1 p.2) = .ok (List.zipWith (fun r xs => xs.map (splev r)) post X).flatten := by
    intro X
    induction X with
    | nil => intro pre post _ _; cases post <;> rfl
    | cons xs X ih =>
      intro pre post hr hl
      cases post with
      | nil => simp at hl
      | cons r post =>
        have ih := ih (pre ++ [r]) post (by rw [hr]; simp) (by simpa using hl)
        have e : List.zip (flatRows pre.length (xs :: X)) (xs :: X).flatten = (xs.map fun v => (pre.length, v)) ++ List.zip (flatRows (pre.length + 1) X) X.flatten := by
          rw [flatRows, List.flatten_cons, List.zip_append (by simp)]
          congr 1
          clear ih hr hl
          induction xs with
          | nil => rfl
          | cons v xs ih => simpa using ih
        have hget : rows[pre.length]? = some r := by rw [hr]; simp
        rw [e, List.mapM_append, mapM_ok _ (fun p => splev r p.2)]
        · rw [show pre.length + 1 = (pre ++ [r]).length by simp, ih]
          simp only [List.zipWith_cons_cons, List.flatten_cons, List.map_map]
          rfl
        · intro p hp
          obtain ⟨v, -, rfl⟩ := List.mem_map.1 hp
          unfold splPdf; simp only [hget]
  apply scipyEval_of_core
  · intro _
    unfold splVectorized
    simp only
    rw [if_pos (by rw [flatRows_length])]
    exact key X [] rows rfl hX
  · apply List.ext_getElem
    · simp [hX]
    · intro i h1 h2; simp

/-- **C81 is violated outside the knots**: left of the first and right of the last knot the PDF continues the polynomials of the first and last
interval, although the CDF takes it to be zero there. -/
theorem C81_pdf_outside (r : SplRow ℝ) (h : SplOK r) (x : ℝ) : (x < r.lo → splev r x = r.piece r.k x) ∧ (r.hi ≤ x → splev r x = r.piece r.last x) := by
  constructor
  · intro hx
    unfold splev
    rw [interval_eq h r.k le_rfl h.kl x (Or.inr rfl) (Or.inl (hx.trans (h.base r.k le_rfl h.kl)))]
  · intro hx
    unfold splev
    rw [interval_eq h r.last h.kl le_rfl x (Or.inl ((knot_le h (by omega) le_rfl).trans hx)) (Or.inr rfl)]

/-- the PDF `4 x³` on `[0, 1]` -/
def cubic : SplRow ℚ := ⟨[0, 0, 0, 0, 1, 1, 1, 1], [0, 0, 0, 4, 0, 0, 0, 0], 3⟩

/-- **C81 is violated**: a spline PDF with non-negative coefficients and total probability 1 that is negative left of its range and grows without
bound to its right, where the CDF stays 1. -/
theorem C81_outside_wrong : splint cubic 0 1 = 1 ∧ splint cubic 0 2 = 1 ∧ splint cubic 0 (-1) = 0 ∧ splev cubic (-1) = -4 ∧ splev cubic 2 = 32 := by
  refine ⟨?_, ?_, ?_, ?_, ?_⟩ <;> decide +kernel

example : SplOK cubic := ⟨by decide, by decide +kernel, by
  intro i h1 h2
  have h1 : 3 ≤ i := h1
  have h2 : i ≤ 3 := h2
  obtain rfl : i = 3 := by omega
  decide +kernel⟩

/-! ## C82: normalisation -/

theorem splev_norm (r : SplRow ℝ) (I x : ℝ) : splev (splNorm r I) x = splev r x / I := by
  have hi : (splNorm r I).interval x = r.interval x := rfl
  unfold splev
  rw [hi]
  unfold SplRow.piece
  rw [div_eq_mul_inv, ← List.sum_map_mul_right]
  congr 1
  apply List.map_congr_left
  intro j _
  have hc : (splNorm r I).c.getD (r.interval x - r.k + j) 0 = r.c.getD (r.interval x - r.k + j) 0 / I := by
    unfold splNorm
    simp only [List.getD_eq_getElem?_getD, List.getElem?_map]
    cases r.c[r.interval x - r.k + j]? <;> simp
  have hk : (splNorm r I).k = r.k := rfl
  have hkn : (splNorm r I).knot = r.knot := rfl
  rw [hk, hc, hkn]
  ring

theorem ok_norm {r : SplRow ℝ} (h : SplOK r) (I : ℝ) : SplOK (splNorm r I) := ⟨h.size, h.mono, h.base⟩

/-- **C82, exact value of the total probability**: what the CDF of PDF `i` reaches is the integral over its own knots divided by the integral of the
continued spline over the range of all PDFs. -/
theorem C82_total_exact (rows : List (SplRow ℝ)) (xmin xmax : ℝ) (i : ℕ) (r : SplRow ℝ) (hi : rows[i]? = some r) (h : SplOK r) (x : ℝ) (hx : r.hi ≤ x) :
    splCdf (splBuild rows xmin xmax) i x = .ok ((∫ y in r.lo..r.hi, splev r y) / ∫ y in xmin..xmax, splev r y) := by
  set I := ∫ y in xmin..xmax, splev r y with hI
  have hi' : (splBuild rows xmin xmax)[i]? = some (splNorm r I) := by unfold splBuild; rw [List.getElem?_map, hi]; rfl
  rw [C81_cdf_partial _ i _ hi' (ok_norm h I) x]
  have hlh := lo_lt_hi h
  have e1 : (splNorm r I).lo = r.lo := rfl
  have e2 : (splNorm r I).hi = r.hi := rfl
  rw [e1, e2, if_neg (by linarith), min_eq_right hx]
  simp only [splev_norm]
  rw [intervalIntegral.integral_div]

/-- **C82 (partial)**: PDFs that all span the same range are normalised; the CDF is the share of the integral. Missing: PDFs with different ranges,
for which `C82_wrong` shows that it fails. -/
theorem C82_normalised_partial (rows : List (SplRow ℝ)) (xmin xmax : ℝ) (i : ℕ) (r : SplRow ℝ) (hi : rows[i]? = some r) (h : SplOK r) (hlo : r.lo = xmin) (hhi : r.hi = xmax)
    (h0 : ∫ y in xmin..xmax, splev r y ≠ 0) (x : ℝ) :
    (xmax ≤ x → splCdf (splBuild rows xmin xmax) i x = .ok 1) ∧
    (xmin ≤ x → x ≤ xmax → splCdf (splBuild rows xmin xmax) i x = .ok ((∫ y in xmin..x, splev r y) / ∫ y in xmin..xmax, splev r y)) ∧
    (x ≤ xmin → splCdf (splBuild rows xmin xmax) i x = .ok 0) := by
  subst hlo hhi
  set I := ∫ y in r.lo..r.hi, splev r y with hI
  have hi' : (splBuild rows r.lo r.hi)[i]? = some (splNorm r I) := by unfold splBuild; rw [List.getElem?_map, hi]; rfl
  have hlh := lo_lt_hi h
  have e1 : (splNorm r I).lo = r.lo := rfl
  have e2 : (splNorm r I).hi = r.hi := rfl
  refine ⟨?_, ?_, ?_⟩
  · intro hx
    rw [C82_total_exact rows r.lo r.hi i r hi h x hx, div_self h0]
  · intro h1 h2
    rw [C81_cdf_partial _ i _ hi' (ok_norm h I) x, e1, e2, min_eq_left h2]
    simp only [splev_norm]
    rw [intervalIntegral.integral_div]
    rcases lt_or_eq_of_le h1 with h1 | h1
    · rw [if_neg (not_le.2 h1)]
    · subst h1; rw [if_pos le_rfl]; simp
  · intro hx
    rw [C81_cdf_partial _ i _ hi' (ok_norm h I) x, e1, if_pos hx]

/-- the constant spline 1 on `[0, b]` -/
def flat (b : ℝ) : SplRow ℝ := ⟨[0, 0, 0, 0, b, b, b, b], [1, 1, 1, 1, 0, 0, 0, 0], 3⟩

theorem flat_ok (b : ℝ) (hb : 0 < b) : SplOK (flat b) := by
  refine ⟨by simp [flat], by simp [flat, hb.le], ?_⟩
  intro i h1 h2
  have h1 : 3 ≤ i := h1
  have h2 : i ≤ 3 := h2
  obtain rfl : i = 3 := by omega
  simpa [flat, SplRow.knot] using hb

theorem flat_one (b : ℝ) (hb : 0 < b) (x : ℝ) : splev (flat b) x = 1 := by
  have h := flat_ok b hb
  obtain ⟨a, c, -, -⟩ := interval_spec h x
  have hl : (flat b).interval x = 3 := by
    have : (flat b).k = 3 := rfl
    have : (flat b).last = 3 := rfl
    omega
  unfold splev
  rw [hl]
  unfold SplRow.piece
  rw [Lemmas.Spline.sum_range]
  have hsum := bspl_sum (flat b).knot 8 3 h.monoTo (h.base 3 le_rfl le_rfl) x 3 le_rfl (by norm_num)
  rw [← hsum]
  apply Finset.sum_congr rfl
  intro j hj
  have hj' : j < 4 := by simpa [flat] using hj
  have : (flat b).c.getD (3 - (flat b).k + j) 0 = 1 := by
    have : (flat b).k = 3 := rfl
    rw [this]
    interval_cases j <;> rfl
  rw [this, one_mul]
  rfl

/-- **C82 is violated**: two uniform PDFs, on `[0, 1]` and `[0, 2]`. The second is normalised; the CDF of the first stops at 1/2. -/
theorem C82_wrong (x : ℝ) (hx : 2 ≤ x) : splCdf (splBuild [flat 1, flat 2] 0 2) 0 x = .ok (1 / 2) ∧ splCdf (splBuild [flat 1, flat 2] 0 2) 1 x = .ok 1 := by
  have key : ∀ (i : ℕ) (b : ℝ), 0 < b → b ≤ 2 → ([flat 1, flat 2] : List (SplRow ℝ))[i]? = some (flat b) → splCdf (splBuild [flat 1, flat 2] 0 2) i x = .ok (b / 2) := by
    intro i b hb hb2 hi
    have hhi : (flat b).hi = b := rfl
    have hlo : (flat b).lo = 0 := rfl
    rw [C82_total_exact _ 0 2 i (flat b) hi (flat_ok b hb) x (by rw [hhi]; linarith), hhi, hlo]
    simp only [flat_one b hb]
    simp
  refine ⟨?_, ?_⟩
  · exact key 0 1 one_pos (by norm_num) rfl
  · rw [key 1 2 two_pos le_rfl rfl]; norm_num

/-- a case of the partial theorem -/
example (x : ℝ) (hx : 2 ≤ x) : splCdf (splBuild [flat 2, flat 2] 0 2) 0 x = .ok 1 := by
  refine (C82_normalised_partial [flat 2, flat 2] 0 2 0 (flat 2) rfl (flat_ok 2 two_pos) rfl rfl ?_ x).1 hx
  simp only [flat_one 2 two_pos]; simp

end Verif.Props.Spline
