import Verif.Props.RoundingInterp
import Mathlib.Tactic.IntervalCases

/-!
# C122: mixtures in floating-point numbers; C123: looking up bins in floating-point numbers
-/

set_option linter.unusedSectionVars false
set_option autoImplicit false

namespace Verif.Props.RoundingEval

open Verif Verif.Np Verif.Model Verif.Spec Verif.Lemmas.Rounding Verif.Lemmas.RoundDigits
open Verif.Props.Rounding (C120_double rel_forall₂_nonneg scale_rel)

variable {K : Type} [Field K] [LinearOrder K] [IsStrictOrderedRing K] {fl : K → K} {u : K}

/-! ## C122: mixtures -/

/-- the weights that the user gives and a value of `weights.sum()` -/
structure MixInput (fl : K → K) (w : List K) (s : K) : Prop where
  nonneg : ∀ v ∈ w, 0 ≤ v ∧ IsFloat fl v
  mass : 0 < w.sum
  sum : FlSum fl w s

/-- **C122: the stored weights** are representable, lie between 0 and 1, each is within `n` roundings of the exact share, and so is
their exact sum from 1. -/
theorem C122_weights (h : Rounding fl u) {w : List K} {s : K} (hi : MixInput fl w s) :
    0 < s ∧ (∀ v ∈ flScale fl s w, 0 ≤ v ∧ v ≤ 1 ∧ IsFloat fl v) ∧ List.Forall₂ (Rel u w.length) (w.map (· / w.sum)) (flScale fl s w) ∧
    Rel u w.length 1 (flScale fl s w).sum := by
  have hne := flSum_ne_nil hi.sum
  have hl : 1 ≤ w.length := List.length_pos_iff.2 hne
  have hs := flSum_rel h hi.sum fun v hv => (hi.nonneg v hv).1
  have hg := flSum_ge h hi.sum hi.nonneg
  have hpos := rel_pos h hs hi.mass
  have hr := scale_rel h hs w fun v hv => (hi.nonneg v hv).1
  rw [Nat.sub_add_cancel hl] at hr
  refine ⟨hpos, ?_, hr, ?_⟩
  · intro v hv
    refine ⟨rel_forall₂_nonneg h hr v hv, ?_, ?_⟩ <;> obtain ⟨a, ha, rfl⟩ := List.mem_map.1 hv
    · have := h.mono (a / s) 1 ((div_le_one hpos).2 (hg.2.2 a ha))
      rwa [h.one] at this
    · exact h.idem _
  · have := rel_list_sum _ _ hr
    have e : (w.map (· / w.sum)).sum = 1 := by
      have : ∀ (l : List K) (c : K), (l.map (· / c)).sum = l.sum / c := by
        intro l c
        induction l with
        | nil => simp
        | cons a l ih => simp [ih, add_div]
      rw [this, div_self hi.mass.ne']
    rwa [e] at this

/-- **C122: the value of the mixture** (PDF or CDF) in floating-point numbers is within `2 n` roundings of the weighted mean of the
component values that scipy returned, in whatever order numpy adds. -/
theorem C122_value (h : Rounding fl u) {w : List K} {s : K} (hi : MixInput fl w s) (vals : List K) (hv : ∀ c ∈ vals, 0 ≤ c)
    (hl : vals.length = w.length) (v : K) (hs : FlSum fl (flMixTerms fl (flScale fl s w) vals) v) :
    Rel u (2 * w.length) (mixEval (w.map (· / w.sum)) (vals.map fun c _ => c) (0 : K)) v := by
  obtain ⟨_, _, hr, _⟩ := C122_weights h hi
  have hn : 1 ≤ w.length := List.length_pos_iff.2 (flSum_ne_nil hi.sum)
  have ht : ∀ (vals p q : List K), (∀ c ∈ vals, 0 ≤ c) → List.Forall₂ (Rel u w.length) p q →
      List.Forall₂ (Rel u (w.length + 1)) (List.zipWith (fun a c => a * c (0 : K)) p (vals.map fun c _ => c)) (flMixTerms fl q vals) := by
    intro vals p q hc hpq
    induction hpq generalizing vals with
    | nil => simp [flMixTerms]
    | cons hab _ ih =>
      cases vals with
      | nil => simp [flMixTerms]
      | cons c vals =>
        simp only [List.map_cons, List.zipWith_cons_cons, flMixTerms]
        refine .cons ?_ (ih vals fun d hd => hc d (by simp [hd]))
        have := rel_step h (rel_mul h hab (rel_refl (u := u) (hc c (by simp))))
        rwa [add_zero] at this
  have h1 := ht vals _ _ hv hr
  have h2 := flSum_rel h hs (rel_forall₂_nonneg h h1)
  have hlen : (flMixTerms fl (flScale fl s w) vals).length = w.length := by simp [flMixTerms, flScale, hl]
  rw [hlen] at h2
  have h3 := rel_trans h (rel_list_sum _ _ h1) h2
  rwa [show w.length + 1 + (w.length - 1) = 2 * w.length by omega] at h3

/-- **C122 (partial): a CDF of a mixture is at most 1 up to `2 n` roundings.** Not proved, and false (`C122_cdf_above_one`): it is at most 1. -/
theorem C122_cdf_bound_partial (h : Rounding fl u) {w : List K} {s : K} (hi : MixInput fl w s) (vals : List K) (hv : ∀ c ∈ vals, 0 ≤ c ∧ c ≤ 1)
    (hl : vals.length = w.length) (v : K) (hs : FlSum fl (flMixTerms fl (flScale fl s w) vals) v) : 0 ≤ v ∧ (1 - u) ^ (2 * w.length) * v ≤ 1 := by
  have hr := C122_value h hi vals (fun c hc => (hv c hc).1) hl v hs
  refine ⟨Rel.nonneg' h hr, hr.right.trans ?_⟩
  have key : ∀ (p vals : List K), (∀ a ∈ p, 0 ≤ a) → (∀ c ∈ vals, c ≤ 1) → mixEval p (vals.map fun c _ => c) (0 : K) ≤ p.sum := by
    intro p
    induction p with
    | nil => intro vals _ _; simp [mixEval, Np.sum]
    | cons a p ih =>
      intro vals hp hc
      cases vals with
      | nil => simp [mixEval, Np.sum]; exact add_nonneg (hp a (by simp)) (List.sum_nonneg fun b hb => hp b (by simp [hb]))
      | cons c vals =>
        have := ih vals (fun b hb => hp b (by simp [hb])) fun d hd => hc d (by simp [hd])
        simp only [mixEval, Np.sum, List.map_cons, List.zipWith_cons_cons, List.foldr_cons, List.sum_cons] at this ⊢
        have h2 := mul_le_mul_of_nonneg_left (hc c (by simp)) (hp a (by simp))
        linarith
  refine (key _ vals ?_ fun c hc => (hv c hc).2).trans ?_
  · intro a ha
    obtain ⟨b, hb, rfl⟩ := List.mem_map.1 ha
    exact div_nonneg (hi.nonneg b hb).1 hi.mass.le
  · have : ∀ (l : List K) (c : K), (l.map (· / c)).sum = l.sum / c := by
      intro l c
      induction l with
      | nil => simp
      | cons a l ih => simp [ih, add_div]
    rw [this, div_self hi.mass.ne']

/-- weights 1.6 and 2.5 -/
def exW : List ℚ := [3602879701896397 / 2251799813685248, 5 / 2]

/-- 1.6 + 2.5 in doubles -/
def exS : ℚ := 2308094809027379 / 562949953421312

theorem exMix : MixInput double exW exS where
  nonneg := by unfold IsFloat; decide +kernel
  mass := by decide +kernel
  sum := by
    have e : exS = double (3602879701896397 / 2251799813685248 + 5 / 2) := by decide +kernel
    rw [e]
    exact .add (a := [_]) (b := [_]) (.one _) (.one _)

/-- **C122 is violated for doubles: a CDF above 1.** Weights 1.6 and 2.5: far to the right, where both components have the CDF 1, the mixture
has the CDF `1 + 2⁻⁵²`. -/
theorem C122_cdf_above_one : MixInput double exW exS ∧
    ∃ v : ℚ, FlSum double (flMixTerms double (flScale double exS exW) [1, 1]) v ∧ 1 < v := by
  refine ⟨exMix, double ((flMixTerms double (flScale double exS exW) [1, 1])[0]! + (flMixTerms double (flScale double exS exW) [1, 1])[1]!), ?_, ?_⟩
  · exact .add (a := [_]) (b := [_]) (.one _) (.one _)
  · decide +kernel

/-! ## C123: bins -/

theorem flWidths_cons (b0 b1 : K) (e : List K) : flWidths fl (b0 :: b1 :: e) = fl (b1 - b0) :: flWidths fl (b1 :: e) := rfl

/-- the arithmetic path is taken: all widths are close to the first one -/
def Arithmetic (fl : K → K) (bins : List K) : Prop := ∀ w ∈ flWidths fl bins, ∀ w0, (flWidths fl bins)[0]? = some w0 → flIsclose fl w w0 = true

theorem index_arith [FloorRing K] (b0 b1 : K) (e : List K) (x : K) (ha : Arithmetic fl (b0 :: b1 :: e)) :
    flGetBinIndex fl (b0 :: b1 :: e) x = .ok
      (((max 0 (min (if 0 ≤ ⌊fl (fl (x - b0) / fl (b1 - b0))⌋ ∧ ⌊fl (fl (x - b0) / fl (b1 - b0))⌋ < (e.length : ℤ) + 1 then
          ⌊fl (fl (x - b0) / fl (b1 - b0))⌋ else 0) (e.length : ℤ))).toNat,
        decide (0 ≤ ⌊fl (fl (x - b0) / fl (b1 - b0))⌋ ∧ ⌊fl (fl (x - b0) / fl (b1 - b0))⌋ < (e.length : ℤ) + 1))) := by
  have hall : ((flWidths fl (b0 :: b1 :: e)).all fun w => flIsclose fl w (fl (b1 - b0))) = true := by
    rw [List.all_eq_true]
    intro w hw
    exact ha w hw _ (by rw [flWidths_cons]; rfl)
  unfold flGetBinIndex
  rw [flWidths_cons] at hall ⊢
  simp only [hall, if_true, List.length_cons]
  have e1 : ((e.length + 1 + 1 : ℕ) : ℤ) - 1 = (e.length : ℤ) + 1 := by push_cast; ring
  rw [e1]
  simp only [Bool.and_eq_true, decide_eq_true_eq, Bool.decide_and, add_sub_cancel_right]

theorem fl_neg (h : Rounding fl u) {y : K} (hy : y < 0) : fl y < 0 := by
  have he := (abs_le.1 (h.err y)).2
  rw [abs_of_neg hy] at he
  have := h.lt_one
  nlinarith

/-- the rounded quotient is not below `i` -/
theorem quotient_ge (h : Rounding fl u) (hu : u ≤ 1 / 10) {w d : K} (hw : 0 < w) (i : ℕ) (hlow : (i : K) * w + 3 * u * (i + 1) * w ≤ d) :
    (i : K) ≤ fl (fl d / w) := by
  have hu0 := h.nonneg
  have hi0 : (0 : K) ≤ i := Nat.cast_nonneg i
  have hpos : 0 ≤ d := by
    have : 0 ≤ (i : K) * w + 3 * u * (i + 1) * w := by positivity
    linarith
  have hq := rel_step h (rel_div h (rel_fl h hpos) (rel_refl (u := u) hw.le))
  have hsq : 1 - 2 * u ≤ (1 - u) ^ (1 + 0 + 1) := by
    have : (1 - u) ^ (1 + 0 + 1) = 1 - 2 * u + u * u := by ring
    rw [this]; nlinarith
  refine le_trans ?_ hq.left
  refine le_trans ?_ (mul_le_mul_of_nonneg_right hsq (div_nonneg hpos hw.le))
  rw [← mul_div_assoc, le_div_iff₀ hw]
  have h3 := mul_le_mul_of_nonneg_left hlow (show 0 ≤ 1 - 2 * u by linarith)
  refine le_trans ?_ h3
  have h4 : (1 - 2 * u) * ((i : K) * w + 3 * u * (i + 1) * w) = i * w + (u * w) * (i * (1 - 6 * u) + 3 - 6 * u) := by ring
  rw [h4]
  have h5 : 0 ≤ (i : K) * (1 - 6 * u) := mul_nonneg hi0 (by linarith)
  have h6 : 0 ≤ (u * w) * (i * (1 - 6 * u) + 3 - 6 * u) := mul_nonneg (mul_nonneg hu0 hw.le) (by linarith)
  linarith

/-- **C123: the lookup of a bin in floating-point numbers, evenly spaced edges.** If the edges are `b0 + j w` up to `τ`, where `w` is the
rounded width of the first bin, then a point that lies in bin `i` and keeps a distance `τ + 3 u (i + 1) w` from its two edges is
found in bin `i`; a point left of the first edge is outside, and so is a point that far to the right of the last edge. -/
theorem C123_index_partial [FloorRing K] (h : Rounding fl u) (hu : u ≤ 1 / 10) (b0 b1 : K) (e : List K) (hlt : b0 < b1)
    (ha : Arithmetic fl (b0 :: b1 :: e)) (τ : K)
    (hτ : ∀ (j : ℕ) y, (b0 :: b1 :: e)[j]? = some y → |y - (b0 + j * fl (b1 - b0))| ≤ τ) (x : K) :
    (∀ (i : ℕ) y z, (b0 :: b1 :: e)[i]? = some y → (b0 :: b1 :: e)[i + 1]? = some z → y + (τ + 3 * u * (i + 1) * fl (b1 - b0)) ≤ x →
      x < z - (τ + 3 * u * (i + 1) * fl (b1 - b0)) → flGetBinIndex fl (b0 :: b1 :: e) x = .ok (i, true)) ∧
    (x < b0 → ∃ i, flGetBinIndex fl (b0 :: b1 :: e) x = .ok (i, false)) ∧
    ((b1 :: e).getLast (by simp) + (τ + 3 * u * (e.length + 2) * fl (b1 - b0)) ≤ x →
      ∃ i, flGetBinIndex fl (b0 :: b1 :: e) x = .ok (i, false)) := by
  have hw : 0 < fl (b1 - b0) := rel_pos h (rel_fl h (sub_pos.2 hlt).le) (sub_pos.2 hlt)
  rw [index_arith b0 b1 e x ha]
  generalize fl (b1 - b0) = w at hw hτ
  have hu0 := h.nonneg
  refine ⟨?_, ?_, ?_⟩
  · intro i y z hy hz hxy hxz
    have hi2 : i + 1 < e.length + 2 := by
      have := (List.getElem?_eq_some_iff.1 hz).1
      simpa using this
    have h1 := (abs_le.1 (hτ i y hy)).1
    have h2 := (abs_le.1 (hτ (i + 1) z hz)).2
    have hτ0 : 0 ≤ τ := (abs_nonneg _).trans (hτ i y hy)
    push_cast at h2
    have hi0 : (0 : K) ≤ i := Nat.cast_nonneg i
    have hlow : (i : K) * w + 3 * u * (i + 1) * w ≤ x - b0 := by linarith
    have hupp : x - b0 < ((i : K) + 1) * w - 3 * u * (i + 1) * w := by linarith
    have hpos : 0 ≤ x - b0 := by
      have : 0 ≤ (i : K) * w + 3 * u * (i + 1) * w := by positivity
      linarith
    have hq := rel_step h (rel_div h (rel_fl h hpos) (rel_refl (u := u) hw.le))
    have hr := hq.right
    set q := fl (fl (x - b0) / w) with hqdef
    have hsq : 1 - 2 * u ≤ (1 - u) ^ (1 + 0 + 1) := by
      have : (1 - u) ^ (1 + 0 + 1) = 1 - 2 * u + u * u := by ring
      rw [this]; nlinarith
    have hl' : (i : K) ≤ q := quotient_ge h hu hw i hlow
    have hr' : q < (i : K) + 1 := by
      have hq0 : 0 ≤ q := hi0.trans hl'
      have h3 : (1 - 2 * u) * q ≤ (x - b0) / w := le_trans (mul_le_mul_of_nonneg_right hsq hq0) hr
      rw [le_div_iff₀ hw] at h3
      have h4 : (1 - 2 * u) * q * w < ((i : K) + 1) * w - 3 * u * (i + 1) * w := lt_of_le_of_lt h3 hupp
      have h5 : (1 - 2 * u) * q * w < (((i : K) + 1) * (1 - 3 * u)) * w := by
        have e : (((i : K) + 1) * (1 - 3 * u)) * w = ((i : K) + 1) * w - 3 * u * (i + 1) * w := by ring
        rw [e]; exact h4
      have h6 := lt_of_mul_lt_mul_right h5 hw.le
      have h7 : ((i : K) + 1) * (1 - 3 * u) ≤ (1 - 2 * u) * ((i : K) + 1) := by nlinarith
      have h8 : (1 - 2 * u) * q < (1 - 2 * u) * ((i : K) + 1) := lt_of_lt_of_le h6 h7
      exact lt_of_mul_lt_mul_left h8 (by linarith)
    have hfloor : ⌊q⌋ = (i : ℤ) := by
      rw [Int.floor_eq_iff]
      exact ⟨by exact_mod_cast hl', by exact_mod_cast hr'⟩
    rw [hfloor]
    have hc : (0 : ℤ) ≤ (i : ℤ) ∧ (i : ℤ) < (e.length : ℤ) + 1 := by omega
    rw [if_pos hc, decide_eq_true hc]
    have : (max 0 (min (i : ℤ) (e.length : ℤ))).toNat = i := by omega
    rw [this]
  · intro hx
    have h1 : fl (x - b0) < 0 := fl_neg h (by linarith)
    have h2 : fl (fl (x - b0) / w) < 0 := fl_neg h (div_neg_of_neg_of_pos h1 hw)
    have h3 : ⌊fl (fl (x - b0) / w)⌋ < 0 := by
      rw [Int.floor_lt]
      exact_mod_cast h2
    have hc : ¬ ((0 : ℤ) ≤ ⌊fl (fl (x - b0) / w)⌋ ∧ ⌊fl (fl (x - b0) / w)⌋ < (e.length : ℤ) + 1) := by omega
    rw [if_neg hc, decide_eq_false hc]
    exact ⟨_, rfl⟩
  · intro hx
    have hl : (b0 :: b1 :: e)[e.length + 1]? = some ((b1 :: e).getLast (by simp)) := by
      rw [List.getElem?_cons_succ, List.getLast_eq_getElem, List.getElem?_eq_getElem (by simp)]
      simp
    have h1 := (abs_le.1 (hτ _ _ hl)).1
    push_cast at h1
    have h2 := quotient_ge h hu hw (e.length + 1) (d := x - b0) (by
      push_cast
      have e1 : ((e.length : K) + 1 + 1) = e.length + 2 := by ring
      rw [e1]
      linarith)
    have h3 : ((e.length + 1 : ℕ) : ℤ) ≤ ⌊fl (fl (x - b0) / w)⌋ := by
      rw [Int.le_floor]
      exact_mod_cast h2
    have hc : ¬ ((0 : ℤ) ≤ ⌊fl (fl (x - b0) / w)⌋ ∧ ⌊fl (fl (x - b0) / w)⌋ < (e.length : ℤ) + 1) := by
      push_cast at h3
      omega
    rw [if_neg hc, decide_eq_false hc]
    exact ⟨_, rfl⟩

/-- **C123: the density of a histogram in floating-point numbers.** Away from the edges, the stored height of the bin that contains the
point; 0 left of the first edge and right of the last one. -/
theorem C123_pdf_partial [FloorRing K] (h : Rounding fl u) (hu : u ≤ 1 / 10) (b0 b1 : K) (e vals : List K) (hlt : b0 < b1)
    (hlen : vals.length = e.length + 1)
    (ha : Arithmetic fl (b0 :: b1 :: e)) (τ : K)
    (hτ : ∀ (j : ℕ) y, (b0 :: b1 :: e)[j]? = some y → |y - (b0 + j * fl (b1 - b0))| ≤ τ) (x : K) :
    (∀ (i : ℕ) y z v, (b0 :: b1 :: e)[i]? = some y → (b0 :: b1 :: e)[i + 1]? = some z → vals[i]? = some v →
      y + (τ + 3 * u * (i + 1) * fl (b1 - b0)) ≤ x → x < z - (τ + 3 * u * (i + 1) * fl (b1 - b0)) →
      flEvalHist fl (b0 :: b1 :: e) vals x = .ok v) ∧
    (x < b0 ∨ (b1 :: e).getLast (by simp) + (τ + 3 * u * (e.length + 2) * fl (b1 - b0)) ≤ x →
      flEvalHist fl (b0 :: b1 :: e) vals x = .ok 0) := by
  obtain ⟨h1, h2, h3⟩ := C123_index_partial h hu b0 b1 e hlt ha τ hτ x
  constructor
  · intro i y z v hy hz hv hxy hxz
    unfold flEvalHist
    rw [h1 i y z hy hz hxy hxz]
    simp [hv]
  · intro hx
    obtain ⟨i, hi⟩ : ∃ i, flGetBinIndex fl (b0 :: b1 :: e) x = .ok (i, false) := hx.elim h2 h3
    have hib : i < vals.length := by
      have := index_arith b0 b1 e x ha
      rw [hi] at this
      simp only [Except.ok.injEq, Prod.mk.injEq] at this
      rw [this.1]
      omega
    unfold flEvalHist
    rw [hi]
    simp [List.getElem?_eq_getElem hib]

theorem search_path [FloorRing K] (bins : List K) (x : K) (b0 w0 : K) (h0 : bins[0]? = some b0) (hw0 : (flWidths fl bins)[0]? = some w0)
    (hf : ∃ w ∈ flWidths fl bins, flIsclose fl w w0 = false) (v0 : K) (hv0 : (binWidths bins)[0]? = some v0)
    (he : ∃ w ∈ binWidths bins, isclose w v0 = false) : flGetBinIndex fl bins x = getBinIndex bins x := by
  match bins, h0 with
  | b :: t, h0 =>
    unfold flGetBinIndex getBinIndex
    match h1 : flWidths fl (b :: t), h2 : binWidths (b :: t) with
    | [], _ => rw [h1] at hw0; simp at hw0
    | _ :: _, [] => rw [h2] at hv0; simp at hv0
    | w :: ws, v :: vs =>
      rw [h1] at hw0 hf
      rw [h2] at hv0 he
      simp only [List.getElem?_cons_zero, Option.some.injEq] at hw0 hv0
      subst hw0
      subst hv0
      have e1 : ((w :: ws).all fun z => flIsclose fl z w) = false := by
        rw [List.all_eq_false]
        obtain ⟨z, hz, hzf⟩ := hf
        exact ⟨z, hz, by simp [hzf]⟩
      have e2 : allcloseScalar (v :: vs) v = false := by
        unfold allcloseScalar
        rw [List.all_eq_false]
        obtain ⟨z, hz, hzf⟩ := he
        exact ⟨z, hz, by simp [hzf]⟩
      simp only [e1, e2, Bool.false_eq_true, if_false]

/-- widths that differ by more than twice the tolerance are told apart in floating-point numbers as well -/
theorem flIsclose_false (h : Rounding fl u) (hu : u ≤ 1 / 10000000) {w v : K} (hd : 2 * (1 / 100000000 + 1 / 100000 * |v|) < |w - v|) :
    flIsclose fl (fl w) (fl v) = false := by
  unfold flIsclose
  rw [decide_eq_false_iff_not, not_le]
  have hu0 := h.nonneg
  have up : ∀ (x y : K), |x| ≤ y → |fl x| ≤ y + u * y := fun x y hxy => by
    have e1 := h.err x
    have e2 : |fl x| ≤ |x| + |fl x - x| := by
      have := abs_add_le x (fl x - x)
      rwa [add_sub_cancel] at this
    have := mul_le_mul_of_nonneg_left hxy hu0
    linarith
  set V := |v| with hV
  set D := |w - v| with hD
  have hV0 : 0 ≤ V := abs_nonneg _
  have hD0 : 0 ≤ D := abs_nonneg _
  have huV : u * V ≤ 1 / 10000000 * V := mul_le_mul_of_nonneg_right hu hV0
  have huD : u * D ≤ 1 / 10000000 * D := mul_le_mul_of_nonneg_right hu hD0
  have step : ∀ (x y : K), |x| ≤ y → 0 ≤ y → |fl x| ≤ 11 / 10 * y := fun x y hxy hy => by
    have := mul_le_mul_of_nonneg_right hu hy
    have := up x y hxy
    linarith
  -- the tolerance
  have t1 : |fl (1 / 100000000)| ≤ 11 / 10 * (1 / 100000000) := step _ _ (by rw [abs_of_pos (by norm_num)]) (by norm_num)
  have t2 : |fl (1 / 100000)| ≤ 11 / 10 * (1 / 100000) := step _ _ (by rw [abs_of_pos (by norm_num)]) (by norm_num)
  have t3 : |fl v| ≤ 11 / 10 * V := step _ _ le_rfl hV0
  have t4 : |fl (1 / 100000) * (|fl v|)| ≤ 11 / 10 * (1 / 100000) * (11 / 10 * V) := by
    rw [abs_mul, abs_abs]
    exact mul_le_mul t2 t3 (abs_nonneg _) (by norm_num)
  have t5 := step _ _ t4 (by linarith)
  have t6 : |fl (1 / 100000000) + fl (fl (1 / 100000) * |fl v|)| ≤ 11 / 10 * (1 / 100000000) + 11 / 10 * (11 / 10 * (1 / 100000) * (11 / 10 * V)) :=
    (abs_add_le _ _).trans (by linarith)
  have t7 := (le_abs_self _).trans (step _ _ t6 (by linarith))
  -- the difference
  have hw : |w| ≤ D + V := by
    have := abs_add_le (w - v) v
    rwa [sub_add_cancel] at this
  have d1 : |fl w - w| ≤ 1 / 10000000 * (D + V) := (h.err w).trans (by
    have := mul_le_mul_of_nonneg_left hw hu0
    linarith)
  have d2 : |fl v - v| ≤ 1 / 10000000 * V := (h.err v).trans (by linarith)
  have d3 : D - 1 / 10000000 * (D + V) - 1 / 10000000 * V ≤ |fl w - fl v| := by
    have e : w - v = (fl w - fl v) - (fl w - w) + (fl v - v) := by ring
    have := abs_add_le ((fl w - fl v) - (fl w - w)) (fl v - v)
    have := abs_sub (fl w - fl v) (fl w - w)
    rw [← e] at *
    linarith
  have d4 : |fl w - fl v| - |fl (fl w - fl v)| ≤ 1 / 10000000 * |fl w - fl v| := by
    have e1 := h.err (fl w - fl v)
    have e2 := mul_le_mul_of_nonneg_right hu (abs_nonneg (fl w - fl v))
    have e3 := abs_sub_abs_le_abs_sub (fl w - fl v) (fl (fl w - fl v))
    rw [abs_sub_comm] at e1
    linarith
  linarith

/-- **C123: unevenly spaced edges** are searched with comparisons only, nothing is rounded, and the bin is the one found in exact numbers.
Unevenly spaced: some width differs from the first one by more than twice the tolerance 1e-8 + 1e-5 w. -/
theorem C123_search [FloorRing K] (h : Rounding fl u) (hu : u ≤ 1 / 10000000) (bins : List K) (x w0 : K) (h0 : (binWidths bins)[0]? = some w0)
    (hw : ∃ w ∈ binWidths bins, 2 * (1 / 100000000 + 1 / 100000 * |w0|) < |w - w0|) : flGetBinIndex fl bins x = getBinIndex bins x := by
  obtain ⟨w, hm, hd⟩ := hw
  obtain ⟨b0, t, rfl⟩ : ∃ b0 t, bins = b0 :: t := by
    cases bins with
    | nil => simp [binWidths, Np.diff] at hm
    | cons b t => exact ⟨b, t, rfl⟩
  refine search_path _ x b0 (fl w0) rfl (by simp [flWidths, h0]) ⟨fl w, List.mem_map_of_mem hm, flIsclose_false h hu hd⟩ w0 h0 ⟨w, hm, ?_⟩
  unfold isclose
  rw [decide_eq_false_iff_not, not_le]
  have : 0 ≤ |w0| := abs_nonneg _
  linarith

/-- edges 0, 1, 3, in doubles -/
example (x : ℚ) : flGetBinIndex double [0, 1, 3] x = getBinIndex [0, 1, 3] x :=
  C123_search (C120_double (K := ℚ)) (by norm_num) _ x 1 (by decide +kernel) ⟨2, by decide +kernel, by norm_num⟩

/-- `np.linspace(1, 2, 11)` -/
def exEdges : List ℚ :=
  [1, 2476979795053773 / 2251799813685248, 5404319552844595 / 4503599627370496, 5854679515581645 / 4503599627370496, 3152519739159347 / 2251799813685248,
    3 / 2, 3602879701896397 / 2251799813685248, 1914029841632461 / 1125899906842624, 8106479329266893 / 4503599627370496, 4278419646001971 / 2251799813685248, 2]

/-- **C123 is violated at the edges for doubles.** With the edges `np.linspace(1, 2, 11)` the edge 1.2 itself, which starts bin 2, is
found in bin 1 (as are 1.3, …), and the last edge, which is outside of the half-open bins, in the last bin. -/
theorem C123_edge_wrong : exEdges.Pairwise (· < ·) ∧ (∀ e ∈ exEdges, IsFloat double e) ∧ Arithmetic double exEdges ∧
    exEdges[2]? = some (5404319552844595 / 4503599627370496) ∧
    flGetBinIndex double exEdges (5404319552844595 / 4503599627370496) = .ok (1, true) ∧
    flGetBinIndex double exEdges 2 = .ok (9, true) := by
  refine ⟨by decide +kernel, by unfold IsFloat; decide +kernel, ?_, by decide +kernel, by decide +kernel, by decide +kernel⟩
  intro w hw w0 hw0
  have e : (flWidths double exEdges)[0]? = some (450359962737050 / 4503599627370496) := by decide +kernel
  rw [e] at hw0
  cases hw0
  revert w
  decide +kernel

theorem exEdges_tol (j : ℕ) (y : ℚ) (hy : exEdges[j]? = some y) : |y - (1 + j * (450359962737050 / 4503599627370496))| ≤ 1 / 10 ^ 14 := by
  have hj : j < 11 := (List.getElem?_eq_some_iff.1 hy).1
  have key : ∀ j : ℕ, j < 11 → ∀ y, exEdges[j]? = some y → |y - (1 + (j : ℚ) * (450359962737050 / 4503599627370496))| ≤ 1 / 10 ^ 14 := by
    intro j hj
    interval_cases j <;> (intro y hy; cases hy; decide +kernel)
  exact key j hj y hy

/-- the middle of bin 2 of `np.linspace(1, 2, 11)` -/
example : flGetBinIndex (double : ℚ → ℚ) exEdges (5 / 4) = .ok (2, true) := by
  have hw : double ((2476979795053773 / 2251799813685248 : ℚ) - 1) = 450359962737050 / 4503599627370496 := by decide +kernel
  have ht := exEdges_tol
  refine (C123_index_partial (C120_double (K := ℚ)) (by norm_num) 1 (2476979795053773 / 2251799813685248) _ (by norm_num) C123_edge_wrong.2.2.1 (1 / 10 ^ 14)
    (by rw [hw]; exact ht) (5 / 4)).1 2 _ _ rfl rfl ?_ ?_ <;> rw [hw] <;> norm_num

end Verif.Props.RoundingEval
