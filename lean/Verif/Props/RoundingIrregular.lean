import Verif.Props.RoundingInterp
import Mathlib.Algebra.Order.Archimedean.Basic

/-!
# C121: PDFs with their own grids in floating-point numbers

The masses are differences of rounded products, so that their relative error grows with the distance of a cell from zero, in units of its width.
-/

set_option linter.unusedSectionVars false
set_option autoImplicit false

namespace Verif.Props.RoundingIrregular

open Verif Verif.Np Verif.Model Verif.Spec Verif.Lemmas.Rounding Verif.Lemmas.RoundDigits Verif.Props.InterpPdf Verif.Props.RoundingInterp
open Verif.Props.Rounding (C120_double rel_forall₂_nonneg scale_rel sum_eq_list rel_refl_list)

variable {K : Type} [Field K] [LinearOrder K] [IsStrictOrderedRing K] {fl : K → K} {u : K}

/-- every cell of the grid is at most `κ` times its own width away from zero -/
def Wide (κ : ℕ) (xs : List K) : Prop := xs.IsChain fun a b => |a| ≤ (κ : K) * (b - a) ∧ |b| ≤ (κ : K) * (b - a)

/-- every increasing grid has such a `κ` -/
theorem wide_exists [Archimedean K] (xs : List K) (hs : xs.Pairwise (· < ·)) : ∃ κ : ℕ, Wide κ xs := by
  induction xs with
  | nil => exact ⟨0, .nil⟩
  | cons a xs ih =>
    obtain ⟨κ, hκ⟩ := ih (List.pairwise_cons.1 hs).2
    match xs, hs, hκ with
    | [], _, _ => exact ⟨0, .singleton _⟩
    | b :: xs, hs, hκ =>
      have hab : 0 < b - a := sub_pos.2 ((List.pairwise_cons.1 hs).1 b (by simp))
      obtain ⟨n, hn⟩ := exists_nat_ge (|a| / (b - a))
      obtain ⟨m, hm⟩ := exists_nat_ge (|b| / (b - a))
      rw [div_le_iff₀ hab] at hn hm
      have le : ∀ {i j : ℕ} {w : K}, i ≤ j → 0 ≤ w → (i : K) * w ≤ j * w := fun h hw => mul_le_mul_of_nonneg_right (by exact_mod_cast h) hw
      refine ⟨max κ (max n m), .cons_cons ⟨hn.trans (le (by omega) hab.le), hm.trans (le (by omega) hab.le)⟩ ?_⟩
      refine List.IsChain.imp_of_mem_imp (fun c d _ _ h => ?_) hκ
      have hcd : 0 ≤ (κ : K) * (d - c) := (abs_nonneg c).trans h.1
      rcases Nat.eq_zero_or_pos κ with h0 | h0
      · subst h0
        simp only [Nat.cast_zero, zero_mul, abs_nonpos_iff] at h
        obtain ⟨rfl, rfl⟩ := h
        simp
      · have hw : 0 ≤ d - c := by
          by_contra hn
          have : (0 : K) < κ := by exact_mod_cast h0
          nlinarith [mul_neg_of_pos_of_neg this (not_le.1 hn)]
        exact ⟨h.1.trans (le (by omega) hw), h.2.trans (le (by omega) hw)⟩

theorem pow_small (h : Rounding fl u) {κ : ℕ} (hk : 4 * (κ : K) * u ≤ 1) : (1 - u) ^ (4 * κ) * (1 + 2 * κ * u) ≤ 1 ∧ (1 - u) ^ (4 * κ) ≤ 1 - 2 * κ * u := by
  have hu := h.nonneg
  have hκ : (0 : K) ≤ κ := Nat.cast_nonneg κ
  have hku : 0 ≤ (κ : K) * u := mul_nonneg hκ hu
  have h1 : (1 - u) ^ (4 * κ) * (1 + (4 * κ : ℕ) * u) ≤ 1 := by
    have hb := one_add_mul_le_pow (a := u) (by linarith) (4 * κ)
    have hp := (pow_pos' h (4 * κ)).le
    refine (mul_le_mul_of_nonneg_left hb hp).trans ?_
    rw [← mul_pow]
    refine pow_le_one₀ (mul_nonneg (one_sub_pos h).le (by linarith)) ?_
    nlinarith [mul_nonneg hu hu]
  push_cast at h1
  have hp := (pow_pos' h (4 * κ)).le
  refine ⟨(mul_le_mul_of_nonneg_left (by nlinarith) hp).trans h1, ?_⟩
  have h2 : 1 ≤ (1 - 2 * κ * u) * (1 + 4 * κ * u) := by nlinarith [mul_nonneg hku (by linarith : (0 : K) ≤ 1 - 4 * κ * u)]
  have h3 : (0 : K) < 1 + 4 * κ * u := by nlinarith
  exact le_of_mul_le_mul_right (h1.trans h2) h3

theorem rect_rel (h : Rounding fl u) {κ : ℕ} (hk : 4 * (κ : K) * u ≤ 1) {a b v : K} (ha : |a| ≤ κ * (b - a)) (hb : |b| ≤ κ * (b - a)) (hab : a < b) (hv : 0 ≤ v) :
    Rel u (4 * κ + 1) (b * v - a * v) (fl (fl (b * v) - fl (a * v))) := by
  have hu := h.nonneg
  obtain ⟨p1, p2⟩ := pow_small h hk
  have hr : 0 ≤ b * v - a * v := by nlinarith
  refine rel_step h ?_
  have e1 := abs_le.1 (h.err (b * v))
  have e2 := abs_le.1 (h.err (a * v))
  rw [abs_mul, abs_of_nonneg hv] at e1 e2
  have e3 : u * (|b| * v) ≤ κ * u * (b * v - a * v) := by
    have := mul_le_mul_of_nonneg_left (mul_le_mul_of_nonneg_right hb hv) hu
    calc u * (|b| * v) ≤ _ := this
      _ = _ := by ring
  have e4 : u * (|a| * v) ≤ κ * u * (b * v - a * v) := by
    have := mul_le_mul_of_nonneg_left (mul_le_mul_of_nonneg_right ha hv) hu
    calc u * (|a| * v) ≤ _ := this
      _ = _ := by ring
  set r := b * v - a * v with hrd
  have hd1 : (1 - 2 * κ * u) * r ≤ fl (b * v) - fl (a * v) := by nlinarith
  have hd2 : fl (b * v) - fl (a * v) ≤ (1 + 2 * κ * u) * r := by nlinarith
  refine ⟨(mul_le_mul_of_nonneg_right p2 hr).trans hd1, ?_, hr⟩
  refine (mul_le_mul_of_nonneg_left hd2 (pow_pos' h _).le).trans ?_
  rw [← mul_assoc]
  exact (mul_le_mul_of_nonneg_right p1 hr).trans (one_mul r).le

theorem rects_rel (h : Rounding fl u) {κ : ℕ} (hk : 4 * (κ : K) * u ≤ 1) (xs : List K) : ∀ ys : List K, xs.Pairwise (· < ·) → Wide κ xs → (∀ v ∈ ys, 0 ≤ v) →
    List.Forall₂ (Rel u (4 * κ + 1)) (rightRects xs ys) (flRightRects fl xs ys) := by
  induction xs with
  | nil => intro ys _ _ _; simp [rightRects, flRightRects]
  | cons a xs ih =>
    intro ys hs hw hy
    match xs, ys, ih, hw with
    | [], ys, _, _ => simp [rightRects, flRightRects]
    | b :: xs, [], _, _ => simp [rightRects, flRightRects]
    | b :: xs, [_], _, _ => simp [rightRects, flRightRects]
    | b :: xs, p :: v :: ys, ih, .cons_cons ⟨ha, hb⟩ hw =>
      have hs' := List.pairwise_cons.1 hs
      exact .cons (rect_rel h hk ha hb (hs'.1 b (by simp)) (hy v (by simp))) (ih _ hs'.2 hw fun w hw => hy w (List.mem_cons_of_mem _ hw))

/-- the exact masses for ordinates that are off by `k` roundings -/
theorem rects_cong {k : ℕ} (xs : List K) : ∀ ys zs : List K, xs.Pairwise (· < ·) → List.Forall₂ (Rel u k) ys zs →
    List.Forall₂ (Rel u k) (rightRects xs ys) (rightRects xs zs) := by
  induction xs with
  | nil => intro ys zs _ _; simp [rightRects]
  | cons a xs ih =>
    intro ys zs hs hr
    match xs, ys, zs, ih, hr with
    | [], ys, zs, _, _ => simp [rightRects]
    | b :: xs, [], [], _, _ => simp [rightRects]
    | b :: xs, [_], [_], _, _ => simp [rightRects]
    | b :: xs, p :: v :: ys, q :: w :: zs, ih, .cons _ (.cons hv ht) =>
      have hs' := List.pairwise_cons.1 hs
      have hab : 0 ≤ b - a := (sub_pos.2 (hs'.1 b (by simp))).le
      refine .cons ?_ (ih _ _ hs'.2 (.cons hv ht))
      rw [← sub_mul, ← sub_mul]
      refine ⟨?_, ?_, mul_nonneg hab hv.nonneg⟩
      · rw [mul_left_comm]; exact mul_le_mul_of_nonneg_left hv.left hab
      · rw [mul_left_comm]; exact mul_le_mul_of_nonneg_left hv.right hab

theorem rects_length (xs : List K) : ∀ ys : List K, (rightRects xs ys).length ≤ ys.length - 1 ∧ (flRightRects fl xs ys).length ≤ ys.length - 1 := by
  induction xs with
  | nil => intro ys; simp [rightRects, flRightRects]
  | cons a xs ih =>
    intro ys
    match xs, ys, ih with
    | [], ys, _ => simp [rightRects, flRightRects]
    | b :: xs, [], _ => simp [rightRects, flRightRects]
    | b :: xs, [_], _ => simp [rightRects, flRightRects]
    | b :: xs, p :: v :: ys, ih =>
      have := ih (v :: ys)
      simp only [rightRects, flRightRects, List.length_cons] at this ⊢
      omega

theorem rects_div (xs : List K) (S : K) : ∀ ys : List K, rightRects xs (ys.map (· / S)) = (rightRects xs ys).map (· / S) := by
  induction xs with
  | nil => intro ys; simp [rightRects]
  | cons a xs ih =>
    intro ys
    match xs, ys, ih with
    | [], ys, _ => simp [rightRects]
    | b :: xs, [], _ => simp [rightRects]
    | b :: xs, [_], _ => simp [rightRects]
    | b :: xs, p :: v :: ys, ih =>
      have := ih (v :: ys)
      simp only [List.map_cons] at this
      simp only [rightRects, List.map_cons, this, List.cons.injEq, and_true]
      ring

theorem sum_div' (r : List K) (c : K) : (r.map (· / c)).sum = Np.sum r / c := by
  change _ = r.sum / c
  induction r with
  | nil => simp
  | cons a r ih => rw [List.map_cons, List.sum_cons, List.sum_cons, ih, add_div]

/-- a row with its own grid: the sum of the masses is positive, no cell is further from zero than `κ` times its width,
and the unit roundoff is small compared with `1 / κ` -/
structure IrregularInput (u : K) (κ : ℕ) (xs ys : List K) : Prop where
  grid : XGrid xs ys.length
  nonneg : ∀ v ∈ ys, 0 ≤ v
  wide : Wide κ xs
  small : 4 * (κ : K) * u ≤ 1
  mass : 0 < Np.sum (rightRects xs ys)

/-- **C121: stored ordinates with their own grids.** In whichever order the masses are added, the sum `t` is positive (nothing is divided by
zero), and every stored ordinate equals the exact one up to `4 κ + n + 1` roundings, `n` the number of grid points; so does the sum of the
exact masses of the stored row, and 1. The cumulated values start at 0 and never decrease. -/
theorem C121_irregular_stored (h : Rounding fl u) {κ : ℕ} {xs ys : List K} (hi : IrregularInput u κ xs ys) (t : K)
    (ht : FlSum fl (flRightRects fl xs ys) t) :
    0 < t ∧ ∃ p, irrNormRow xs ys = some p ∧ List.Forall₂ (Rel u (4 * κ + ys.length + 1)) p (flScale fl t ys) ∧
      Rel u (4 * κ + ys.length + 1) 1 (Np.sum (rightRects xs (flScale fl t ys))) ∧
      (flIrrCumul fl xs (flScale fl t ys)).Pairwise (· ≤ ·) ∧ (flIrrCumul fl xs (flScale fl t ys))[0]? = some 0 := by
  have hs := hi.grid.strict
  have hrr := rects_rel h hi.small xs ys hs hi.wide hi.nonneg
  have hsum : Rel u (4 * κ + ys.length) (Np.sum (rightRects xs ys)) t := by
    refine rel_mono h ?_ (rel_trans h (rel_list_sum _ _ hrr) (flSum_rel h ht fun r hr => (rightRects_mono h xs ys hs hi.nonneg r hr).1))
    have := (rects_length (fl := fl) xs ys).2
    have := hi.grid.two
    omega
  have hsr : List.Forall₂ (Rel u (4 * κ + ys.length + 1)) (ys.map (· / Np.sum (rightRects xs ys))) (flScale fl t ys) := by
    have := forall₂_div h hsum (rel_refl_list (u := u) hi.nonneg)
    rwa [zero_add] at this
  refine ⟨rel_pos h hsum hi.mass, _, by simp only [irrNormRow]; rw [if_neg hi.mass.ne'], hsr, ?_, ?_⟩
  · have := rel_list_sum _ _ (rects_cong xs _ _ hs hsr)
    rw [rects_div] at this
    have e : ((rightRects xs ys).map (· / Np.sum (rightRects xs ys))).sum = 1 := by
      rw [sum_div', div_self hi.mass.ne']
    rw [e] at this
    exact this
  · have := C121_irregular_partial h xs (flScale fl t ys) hs (rel_forall₂_nonneg h hsr)
    exact ⟨this.1, this.2.1⟩

/-- the cumulated values, and the last of them -/
theorem cumul_rel (h : Rounding fl u) {κ : ℕ} {xs ys : List K} (hi : IrregularInput u κ xs ys) (t : K)
    (ht : FlSum fl (flRightRects fl xs ys) t) :
    ∃ p, irrNormRow xs ys = some p ∧ List.Forall₂ (Rel u (8 * κ + 2 * ys.length + 2)) (irrCumul xs p) (flIrrCumul fl xs (flScale fl t ys)) ∧
      (irrCumul xs p).getLast? = some 1 := by
  obtain ⟨_, p, hp, hsr, _, hm, _⟩ := C121_irregular_stored h hi t ht
  have hs := hi.grid.strict
  have hq := rel_forall₂_nonneg h hsr
  have h1 := rects_cong xs _ _ hs hsr
  have h2 := rects_rel h hi.small xs _ hs hi.wide hq
  have h3 : List.Forall₂ (Rel u (4 * κ + ys.length + 1 + (4 * κ + 1))) (rightRects xs p) (flRightRects fl xs (flScale fl t ys)) := by
    refine List.forall₂_iff_get.2 ⟨h1.length_eq.trans h2.length_eq, fun i hi hj => ?_⟩
    have hk : i < (rightRects xs (flScale fl t ys)).length := h1.length_eq ▸ hi
    exact rel_trans h ((List.forall₂_iff_get.1 h1).2 i hi hk) ((List.forall₂_iff_get.1 h2).2 i hk hj)
  have h4 := flCumsum_rel h _ _ h3
  have hl : (rightRects xs p).length ≤ ys.length - 1 := by
    have := (rects_length (fl := fl) xs p).1
    have e := hsr.length_eq
    rw [flScale, List.length_map] at e
    rwa [e] at this
  have h2' := hi.grid.two
  refine ⟨p, hp, .cons (rel_mono h (by omega) rel_zero) (rel_forall₂_mono h (by omega) h4), ?_⟩
  simp only [irrNormRow] at hp
  rw [if_neg hi.mass.ne', Option.some.injEq] at hp
  have hne : rightRects xs p ≠ [] := by
    intro h0
    rw [← hp, rects_div, List.map_eq_nil_iff] at h0
    have := hi.mass
    rw [h0] at this
    exact lt_irrefl (0 : K) this
  rw [irrCumul, List.getLast?_cons, cumsum, Verif.Lemmas.InterpPdf.cumsumFrom_last 0 _ hne, zero_add, ← hp, rects_div]
  change some (Option.some ((rightRects xs ys).map (· / Np.sum (rightRects xs ys))).sum |>.getD 0) = _
  rw [sum_div', div_self hi.mass.ne']
  rfl

/-- **C121: the CDF with its own grid** in floating-point numbers equals, at every point, the exact CDF up to `8 κ + 2 n + 8` roundings. -/
theorem C121_irregular_cdf (h : Rounding fl u) {κ : ℕ} {xs ys : List K} (hi : IrregularInput u κ xs ys) (t : K)
    (ht : FlSum fl (flRightRects fl xs ys) t) :
    ∃ p, irrNormRow xs ys = some p ∧ ∀ x, ∃ v w, irrCdf xs p x = some v ∧
      flInterp fl 0 1 (xs.zip (flIrrCumul fl xs (flScale fl t ys))) x = some w ∧ Rel u (8 * κ + 2 * ys.length + 8) v w := by
  obtain ⟨_, _, _, _, _, hm, _⟩ := C121_irregular_stored h hi t ht
  obtain ⟨p, hp, h5, _⟩ := cumul_rel h hi t ht
  refine ⟨p, hp, fun x => ?_⟩
  obtain ⟨v, _, hv, _⟩ := (C17_cdf_partial xs ys p hi.grid hp hi.nonneg).2.2 x x le_rfl
  obtain ⟨w, hw, hrel⟩ := flInterp_rel h (le_refl 0) zero_le_one h5 hm x v hv
  exact ⟨v, w, hv, hw, hrel⟩

/-- **C121: the PDF with its own grid** in floating-point numbers differs, at every point, from the exact PDF by at most
`k u / (1 - k u)` times the height `Y` of the curve, with `k = 4 κ + n + 7`. -/
theorem C121_irregular_pdf (h : Rounding fl u) {κ : ℕ} {xs ys : List K} (hi : IrregularInput u κ xs ys) (t : K)
    (ht : FlSum fl (flRightRects fl xs ys) t) (hu : ((4 * κ + ys.length + 7 : ℕ) : K) * u < 1) :
    ∃ p, irrNormRow xs ys = some p ∧ ∀ Y, (∀ v ∈ p, v ≤ Y) → ∀ x, ∃ v w, interpPdf xs p x = some v ∧
      flInterpPdf fl xs (flScale fl t ys) x = some w ∧
      |w - v| ≤ ((4 * κ + ys.length + 7 : ℕ) : K) * u / (1 - ((4 * κ + ys.length + 7 : ℕ) : K) * u) * Y := by
  obtain ⟨_, p, hp, hsr, _⟩ := C121_irregular_stored h hi t ht
  refine ⟨p, hp, fun Y hY x => pdf_abs h hsr ?_ hu Y hY x⟩
  have h2 := hi.grid.two
  have := hi.grid.size
  have e := hsr.length_eq
  rw [flScale, List.length_map] at e
  obtain ⟨a, b, t, e⟩ := two_list (l := p) (by omega)
  obtain ⟨a', b', t', e'⟩ := two_list (l := xs) (by omega)
  rw [e, e']; simp

/-! ## doubles -/

/-- grid `-1.2, -0.3, 5.2` -/
def exGrid : List ℚ := [-5404319552844595 / 4503599627370496, -5404319552844595 / 18014398509481984, 5854679515581645 / 1125899906842624]

/-- the sum of the masses for the ordinates `3, 1, 4` -/
def exSum : ℚ := 3222888483337011 / 140737488355328

theorem exFlSum : FlSum double (flRightRects double exGrid [3, 1, 4]) exSum := by
  have h1 : flRightRects double exGrid [3, 1, 4] = [2026619832316723 / 2251799813685248] ++ [22] := by decide +kernel
  have h2 : exSum = double (2026619832316723 / 2251799813685248 + 22) := by decide +kernel
  rw [h1, h2]
  exact .add (.one _) (.one _)

theorem exInput : IrregularInput (1 / 2 ^ 53) 2 exGrid [3, 1, 4] where
  grid := ⟨by decide +kernel, rfl, by decide⟩
  nonneg := by decide +kernel
  wide := .cons_cons (by decide +kernel) (.cons_cons (by decide +kernel) (.singleton _))
  small := by decide +kernel
  mass := by decide +kernel

/-- the stored curve of the CDF of this row -/
def exCdf (x : ℚ) : Option ℚ := flInterp double 0 1 (exGrid.zip (flIrrCumul double exGrid (flScale double exSum [3, 1, 4]))) x

/-- **C121 is violated for doubles on irregular grids: the CDF exceeds 1 and decreases.** `interp_irregular` with the grid `-1.2, -0.3, 5.2`
and ordinates `3, 1, 4`: the CDF at 5.2 is `1 + 2⁻⁵²`, at the next double it is 1. -/
theorem C121_irregular_cdf_decreases : IrregularInput (1 / 2 ^ 53) 2 exGrid [3, 1, 4] ∧
    FlSum double (flRightRects double exGrid [3, 1, 4]) exSum ∧
    ∃ x x' v v' : ℚ, x ∈ exGrid ∧ x < x' ∧ IsFloat double x ∧ IsFloat double x' ∧ (∀ e ∈ exGrid, IsFloat double e) ∧
      exCdf x = some v ∧ exCdf x' = some v' ∧ v' < v ∧ 1 < v := by
  refine ⟨exInput, exFlSum, 5854679515581645 / 1125899906842624, 2927339757790823 / 562949953421312, 4503599627370497 / 4503599627370496, 1, ?_⟩
  unfold IsFloat
  decide +kernel

/-- The error bound for doubles: with at most a million grid points and cells that are at most a million times their width away from zero, the
CDF has a relative error below `2 · 10⁻⁹`. -/
theorem C121_irregular_double [FloorRing K] {κ : ℕ} {xs ys : List K} (hi : IrregularInput (1 / 2 ^ 53 : K) κ xs ys) (t : K)
    (ht : FlSum double (flRightRects double xs ys) t) (hn : ys.length ≤ 1000000) (hκ : κ ≤ 1000000) :
    ∃ p, irrNormRow xs ys = some p ∧ ∀ x, ∃ v w, irrCdf xs p x = some v ∧
      flInterp double 0 1 (xs.zip (flIrrCumul double xs (flScale double t ys))) x = some w ∧ |w - v| ≤ 2 / 10 ^ 9 * v := by
  obtain ⟨p, hp, hall⟩ := C121_irregular_cdf C120_double hi t ht
  refine ⟨p, hp, fun x => ?_⟩
  obtain ⟨v, w, hv, hw, hr⟩ := hall x
  refine ⟨v, w, hv, hw, ?_⟩
  have hr2 := rel_mono (C120_double (K := K)) (l := 10000008) (by omega) hr
  have := rel_abs C120_double hr2 (by norm_num)
  exact this.trans (mul_le_mul_of_nonneg_right (by norm_num) hr.nonneg)

/-- the hypotheses hold for the row above -/
example : ∃ p, irrNormRow exGrid [3, 1, 4] = some p ∧ ∀ x, ∃ v w, irrCdf exGrid p x = some v ∧ exCdf x = some w ∧ |w - v| ≤ 2 / 10 ^ 9 * v :=
  C121_irregular_double exInput exSum exFlSum (by decide) (by decide)

end Verif.Props.RoundingIrregular
