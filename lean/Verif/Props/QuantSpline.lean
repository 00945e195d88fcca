import Verif.Model.QuantSpline
import Verif.Props.Quant
import Verif.Lemmas.Integral
import Mathlib.Analysis.Calculus.Deriv.MeanValue

/-!
# C102: probability between the quantiles in the spline reconstructions

`f` is the density of one PDF: the hypothesis `hf` says that the reconstruction answers `f x` at every `x`.
-/

set_option linter.unusedSectionVars false
set_option autoImplicit false

namespace Verif.Props.QuantSpline

open Verif Verif.Np Verif.Model Verif.Props.Quant Verif.Lemmas.Integral MeasureTheory Set

/-- what is used of an interpolating spline: continuously differentiable, through the given points -/
structure Interpolant (S : ℝ → ℝ) (pts : List (ℝ × ℝ)) : Prop where
  diff : Differentiable ℝ S
  cont : Continuous (deriv S)
  through : ∀ p ∈ pts, S p.1 = p.2

/-- the density inside and outside the locations -/
theorem values (S : List (ℝ × ℝ) → ℝ → ℝ) (quants locs : List ℝ) (hne : locs ≠ []) (a b : ℝ) (ha : locs.head? = some a) (hb : locs.getLast? = some b)
    (x : ℝ) : splineDerivPdf S quants locs x = some (if x < a ∨ b < x then 0 else deriv (S (locs.zip quants)) x) := by
  match locs, hne with
  | l0 :: t, _ =>
    simp only [List.head?_cons, Option.some.injEq] at ha
    subst ha
    rw [List.getLast?_eq_some_getLast (by simp), Option.some.injEq] at hb
    simp only [splineDerivPdf, hb]
    by_cases h1 : x < l0
    · simp [h1]
    · by_cases h2 : b < x
      · simp [h1, h2]
      · simp [h1, h2]

theorem ends {locs : List ℝ} (hl : locs.Pairwise (· < ·)) {a b : ℝ} (ha : locs.head? = some a) (hb : locs.getLast? = some b) :
    ∀ x ∈ locs, a ≤ x ∧ x ≤ b := by
  intro x hx
  obtain ⟨i, hi, rfl⟩ := List.getElem_of_mem hx
  rw [List.head?_eq_getElem?] at ha
  rw [List.getLast?_eq_getElem?] at hb
  obtain ⟨h1, rfl⟩ := List.getElem?_eq_some_iff.1 ha
  obtain ⟨h2, rfl⟩ := List.getElem?_eq_some_iff.1 hb
  have hw := List.pairwise_iff_getElem.1 hl
  constructor
  · rcases Nat.eq_zero_or_pos i with rfl | h
    · exact le_rfl
    · exact (hw 0 i h1 hi h).le
  · rcases Nat.lt_or_ge i (locs.length - 1) with h | h
    · exact (hw i _ hi h2 h).le
    · have : i = locs.length - 1 := by omega
      subst this; exact le_rfl

/-- between two points of the range the density integrates to the increase of the spline -/
theorem increase (S : List (ℝ × ℝ) → ℝ → ℝ) (quants locs : List ℝ) (hS : Interpolant (S (locs.zip quants)) (locs.zip quants)) (hne : locs ≠ []) (a b : ℝ)
    (ha : locs.head? = some a) (hb : locs.getLast? = some b) (f : ℝ → ℝ) (hf : ∀ x, splineDerivPdf S quants locs x = some (f x)) (u v : ℝ) (hu : a ≤ u) (huv : u ≤ v) (hv : v ≤ b) :
    IntervalIntegrable f volume u v ∧ (∫ t in u..v, f t) = S (locs.zip quants) v - S (locs.zip quants) u := by
  have hp := piece f (deriv (S (locs.zip quants))) u v huv (fun t ht => by
    have := hf t
    rw [values S quants locs hne a b ha hb, if_neg (by simp only [not_or, not_lt]; exact ⟨hu.trans ht.1.le, ht.2.le.trans hv⟩)] at this
    exact (Option.some.inj this).symm) hS.cont
  refine ⟨hp.1, ?_⟩
  rw [hp.2]
  exact intervalIntegral.integral_deriv_eq_sub (fun x _ => hS.diff x) (hS.cont.intervalIntegrable _ _)

/-- **C102, spline derivative: the probability between two locations** is the difference of their quantiles, whatever spline goes through the points. -/
theorem C102_between (S : List (ℝ × ℝ) → ℝ → ℝ) (quants locs : List ℝ) (hl : locs.Pairwise (· < ·)) (hlen : quants.length = locs.length)
    (hS : Interpolant (S (locs.zip quants)) (locs.zip quants)) (f : ℝ → ℝ) (hf : ∀ x, splineDerivPdf S quants locs x = some (f x))
    (i j : ℕ) (hij : i ≤ j) (u v p q : ℝ) (hu : locs[i]? = some u) (hv : locs[j]? = some v) (hp : quants[i]? = some p) (hq : quants[j]? = some q) :
    (∫ t in u..v, f t) = q - p := by
  obtain ⟨hi, rfl⟩ := List.getElem?_eq_some_iff.1 hu
  obtain ⟨hj, rfl⟩ := List.getElem?_eq_some_iff.1 hv
  obtain ⟨hi', rfl⟩ := List.getElem?_eq_some_iff.1 hp
  obtain ⟨hj', rfl⟩ := List.getElem?_eq_some_iff.1 hq
  have hne : locs ≠ [] := by rintro rfl; simp at hi
  obtain ⟨a, ha⟩ : ∃ a, locs.head? = some a := ⟨_, List.head?_eq_some_head hne⟩
  obtain ⟨b, hb⟩ : ∃ b, locs.getLast? = some b := ⟨_, List.getLast?_eq_some_getLast hne⟩
  have he := ends hl ha hb
  have hle : locs[i] ≤ locs[j] := by
    rcases hij.eq_or_lt with rfl | h
    · exact le_rfl
    · exact (List.pairwise_iff_getElem.1 hl i j hi hj h).le
  rw [(increase S quants locs hS hne a b ha hb f hf _ _ (he _ (List.getElem_mem _)).1 hle (he _ (List.getElem_mem _)).2).2]
  have hm : ∀ k (h1 : k < locs.length) (h2 : k < quants.length), S (locs.zip quants) locs[k] = quants[k] := by
    intro k h1 h2
    exact hS.through (locs[k], quants[k]) (by
      rw [← List.getElem_zip (h := by simp [h1, h2])]
      exact List.getElem_mem _)
  rw [hm j hj hj', hm i hi hi']

/-- **C102, spline derivative: total probability.** For quantiles that go from 0 to 1 (as after padding) the density has total probability one, and the
probability up to a location is the value of `cdf` there (`splq` is the interpolant that the CDF uses).
Missing: a density that is never negative (`C102_negative`), and the average of two splines (`C102_dual_uniform`). -/
theorem C102_total_partial (S splq : List (ℝ × ℝ) → ℝ → ℝ) (quants locs : List ℝ) (hl : locs.Pairwise (· < ·)) (hlen : quants.length = locs.length)
    (hS : Interpolant (S (locs.zip quants)) (locs.zip quants)) (hspl : ∀ p ∈ locs.zip quants, splq (locs.zip quants) p.1 = p.2)
    (h0 : quants.head? = some 0) (h1 : quants.getLast? = some 1) (f : ℝ → ℝ) (hf : ∀ x, splineDerivPdf S quants locs x = some (f x)) :
    Integrable f ∧ (∫ t, f t) = 1 ∧ ∀ l ∈ locs, quantCdf splq quants locs l = some (∫ t in Iic l, f t) := by
  have hq : quants ≠ [] := by rintro rfl; simp at h0
  have hne : locs ≠ [] := by rintro rfl; exact hq (List.length_eq_zero_iff.1 (by simpa using hlen))
  obtain ⟨a, ha⟩ : ∃ a, locs.head? = some a := ⟨_, List.head?_eq_some_head hne⟩
  obtain ⟨b, hb⟩ : ∃ b, locs.getLast? = some b := ⟨_, List.getLast?_eq_some_getLast hne⟩
  have he := ends hl ha hb
  have hab : a ≤ b := (he b (List.mem_of_getLast? hb)).1
  have hz : ∀ t, t < a ∨ b < t → f t = 0 := by
    intro t ht
    have := hf t
    rw [values S quants locs hne a b ha hb, if_pos ht] at this
    exact (Option.some.inj this).symm
  obtain ⟨s1, s2, s3, s4⟩ := supported f a b hab hz (increase S quants locs hS hne a b ha hb f hf a b le_rfl hab le_rfl).1
  rw [List.head?_eq_getElem?] at h0 ha
  rw [List.getLast?_eq_getElem?] at h1 hb
  refine ⟨s1, ?_, ?_⟩
  · rw [s2, C102_between S quants locs hl hlen hS f hf 0 (locs.length - 1) (by omega) a b 0 1 ha hb h0 (by rw [← hlen]; exact h1), sub_zero]
  · intro l hl'
    obtain ⟨i, hi, rfl⟩ := List.getElem_of_mem hl'
    rw [s4 _ (he _ hl').1, C102_between S quants locs hl hlen hS f hf 0 i (by omega) a _ 0 _ ha (List.getElem?_eq_getElem hi) h0
      (List.getElem?_eq_getElem (hlen ▸ hi)), sub_zero]
    exact (C19_knots_partial splq quants locs hspl hlen hl hne).1 i _ _ (List.getElem?_eq_getElem hi) (List.getElem?_eq_getElem (hlen ▸ hi))

/-- **C102, spline derivative: when the density is never negative**: exactly when the spline never decreases between the first and the last location. -/
theorem C102_sign (S : List (ℝ × ℝ) → ℝ → ℝ) (quants locs : List ℝ) (hl : locs.Pairwise (· < ·)) (hS : Interpolant (S (locs.zip quants)) (locs.zip quants))
    (a b : ℝ) (hab : a < b) (ha : locs.head? = some a) (hb : locs.getLast? = some b) (f : ℝ → ℝ) (hf : ∀ x, splineDerivPdf S quants locs x = some (f x)) :
    (∀ x, 0 ≤ f x) ↔ MonotoneOn (S (locs.zip quants)) (Icc a b) := by
  have hne : locs ≠ [] := by rintro rfl; simp at ha
  have hv : ∀ x, f x = if x < a ∨ b < x then 0 else deriv (S (locs.zip quants)) x := by
    intro x
    have := hf x
    rw [values S quants locs hne a b ha hb] at this
    exact (Option.some.inj this).symm
  constructor
  · intro h
    apply monotoneOn_of_deriv_nonneg (convex_Icc a b) hS.diff.continuous.continuousOn hS.diff.differentiableOn
    intro x hx
    rw [interior_Icc] at hx
    have := h x
    rwa [hv, if_neg (by simp only [not_or, not_lt]; exact ⟨hx.1.le, hx.2.le⟩)] at this
  · intro h x
    rw [hv]
    split_ifs with hx
    · exact le_rfl
    · simp only [not_or, not_lt] at hx
      -- the derivative within the interval is non-negative, and equals the derivative
      have hw : derivWithin (S (locs.zip quants)) (Icc a b) x = deriv (S (locs.zip quants)) x :=
        (hS.diff x).derivWithin ((uniqueDiffOn_Icc hab) x hx)
      rw [← hw]
      exact h.derivWithin_nonneg

/-! ### four quantiles: the cubic -/

/-- the cubic through four points -/
theorem cubic_interpolant (p0 p1 p2 p3 : ℝ × ℝ) (h01 : p0.1 < p1.1) (h12 : p1.1 < p2.1) (h23 : p2.1 < p3.1) :
    Interpolant (cubicSpline4 [p0, p1, p2, p3]) [p0, p1, p2, p3] := by
  have hd : ContDiff ℝ 1 (cubicSpline4 [p0, p1, p2, p3]) := by
    unfold cubicSpline4
    fun_prop
  refine ⟨hd.differentiable (by norm_num), hd.continuous_deriv (by norm_num), ?_⟩
  have a1 : p0.1 - p1.1 ≠ 0 := by linarith
  have a2 : p0.1 - p2.1 ≠ 0 := by linarith
  have a3 : p0.1 - p3.1 ≠ 0 := by linarith
  have a4 : p1.1 - p2.1 ≠ 0 := by linarith
  have a5 : p1.1 - p3.1 ≠ 0 := by linarith
  have a6 : p2.1 - p3.1 ≠ 0 := by linarith
  have b1 : p1.1 - p0.1 ≠ 0 := by linarith
  have b2 : p2.1 - p0.1 ≠ 0 := by linarith
  have b3 : p3.1 - p0.1 ≠ 0 := by linarith
  have b4 : p2.1 - p1.1 ≠ 0 := by linarith
  have b5 : p3.1 - p1.1 ≠ 0 := by linarith
  have b6 : p3.1 - p2.1 ≠ 0 := by linarith
  intro p hp
  simp only [List.mem_cons, List.not_mem_nil, or_false] at hp
  rcases hp with rfl | rfl | rfl | rfl <;> simp only [cubicSpline4, sub_self, zero_div, mul_zero, zero_mul, zero_add, add_zero] <;>
    simp only [div_self, ne_eq, a1, a2, a3, a4, a5, a6, b1, b2, b3, b4, b5, b6, not_false_eq_true, mul_one]

/-- the four quantiles 0, 9/10, 19/20, 1 at 0, 1, 2, 3 -/
theorem cubic_instance : Interpolant (cubicSpline4 (([0, 1, 2, 3] : List ℝ).zip [0, 9/10, 19/20, 1])) (([0, 1, 2, 3] : List ℝ).zip [0, 9/10, 19/20, 1]) :=
  cubic_interpolant (0, 0) (1, 9/10) (2, 19/20) (3, 1) (by norm_num) (by norm_num) (by norm_num)

/-- **C102 fails for the sign**: four valid quantiles, whose cubic decreases between two of them, so that the density is negative somewhere. -/
theorem C102_negative : ∃ (quants locs : List ℝ), QuantData quants [locs] ∧ quants.head? = some 0 ∧ quants.getLast? = some 1 ∧
    Interpolant (cubicSpline4 (locs.zip quants)) (locs.zip quants) ∧ ∃ x v, splineDerivPdf cubicSpline4 quants locs x = some v ∧ v < 0 := by
  refine ⟨[0, 9/10, 19/20, 1], [0, 1, 2, 3], ⟨by norm_num, by simp, ?_, ?_⟩, by simp, by simp, cubic_instance, ?_⟩
  · intro q hq
    simp only [List.mem_cons, List.not_mem_nil, or_false] at hq
    rcases hq with rfl | rfl | rfl | rfl <;> norm_num
  · intro r hr
    simp only [List.mem_cons, List.not_mem_nil, or_false] at hr
    subst hr
    exact ⟨rfl, by norm_num⟩
  by_contra hc
  push Not at hc
  have hf : ∀ x, splineDerivPdf cubicSpline4 [0, 9/10, 19/20, 1] [0, 1, 2, 3] x = some ((splineDerivPdf cubicSpline4 [0, 9/10, 19/20, 1] [0, 1, 2, 3] x).getD 0) := by
    intro x
    rw [values cubicSpline4 _ _ (by simp) 0 3 (by simp) (by simp)]
    rfl
  have hm := (C102_sign cubicSpline4 [0, 9/10, 19/20, 1] [0, 1, 2, 3] (by norm_num) cubic_instance 0 3 (by norm_num) (by simp) (by simp) _ hf).1
    (fun x => hc x _ (hf x)) (show (3/2 : ℝ) ∈ Icc (0:ℝ) 3 by norm_num) (show (2 : ℝ) ∈ Icc (0:ℝ) 3 by norm_num) (by norm_num)
  norm_num [cubicSpline4] at hm

/-! ### the average of two splines -/

/-- evenly spaced numbers from `a`, the first being number `s` -/
def evenly (a h : ℝ) (s n : ℕ) : List ℝ := (List.range' s n).map fun (i : ℕ) => a + (i : ℝ) * h

theorem evenly_succ (a h : ℝ) (s n : ℕ) : evenly a h s (n + 1) = (a + (s : ℝ) * h) :: evenly a h (s + 1) n := by
  simp [evenly, List.range'_succ]

theorem diff_evenly (a h : ℝ) (n s : ℕ) : diff (evenly a h s (n + 1)) = List.replicate n h := by
  induction n generalizing s with
  | zero => simp [evenly, diff]
  | succ n ih =>
    have := ih (s + 1)
    rw [evenly_succ, evenly_succ]
    rw [evenly_succ] at this
    rw [diff, this, List.replicate_succ]
    congr 1
    push_cast
    ring

/-- the nodes alternate between zero and twice the slope -/
theorem dualGo_alternate (c : ℝ) (hc : 0 ≤ c) (m : ℕ) :
    0 :: dualGo 0 (List.replicate (2 * m + 1) c) = (List.replicate (m + 1) [0, c]).flatten := by
  induction m with
  | zero => simp [dualGo, hc]
  | succ m ih =>
    rw [show 2 * (m + 1) + 1 = (2 * m + 1) + 1 + 1 by ring, List.replicate_succ, List.replicate_succ, List.replicate_succ (n := m + 1), List.flatten_cons, ← ih]
    simp [dualGo, hc]

theorem evens_odds (a h c : ℝ) (m s : ℕ) :
    evens ((evenly a h s (2 * m)).zip (List.replicate m [0, c]).flatten) = (List.range m).map (fun (i : ℕ) => (a + ((s + 2 * i : ℕ) : ℝ) * h, (0 : ℝ))) ∧
    odds ((evenly a h s (2 * m)).zip (List.replicate m [0, c]).flatten) = (List.range m).map fun (i : ℕ) => (a + ((s + 1 + 2 * i : ℕ) : ℝ) * h, c) := by
  induction m generalizing s with
  | zero => simp [evenly, evens, odds]
  | succ m ih =>
    obtain ⟨h1, h2⟩ := ih (s + 1 + 1)
    rw [show 2 * (m + 1) = 2 * m + 1 + 1 by ring, evenly_succ, evenly_succ, List.replicate_succ, List.flatten_cons]
    simp only [List.cons_append, List.nil_append, List.zip_cons_cons, evens, odds, h1, h2, List.range_succ_eq_map, List.map_cons, List.map_map]
    constructor
    · congr 1
      apply List.map_congr_left
      intro i _
      simp only [Function.comp, Nat.succ_eq_add_one]
      congr 3
      push_cast; ring
    · congr 1
      apply List.map_congr_left
      intro i _
      simp only [Function.comp, Nat.succ_eq_add_one]
      congr 3
      push_cast; ring

/-- **C102 fails for the average of two splines**: for `2 m` evenly spaced quantiles of a uniform distribution the total probability is
`(2 m - 2) / (2 m - 1)`, whatever interpolation is used, as long as it gives a constant for constant values. -/
theorem C102_dual_uniform (spl : List (ℝ × ℝ) → ℝ → ℝ) (m : ℕ) (hm : 2 ≤ m) (hspl : ∀ (knots : List (ℝ × ℝ)) (c : ℝ), knots.length = m →
      (knots.map Prod.fst).Pairwise (· < ·) → (∀ p ∈ knots, p.2 = c) → ∀ x, spl knots x = c) (a h : ℝ) (hh : 0 < h) :
    ∃ f : ℝ → ℝ, (∀ x, dualPdf spl (evenly 0 (1 / (2 * m - 1)) 0 (2 * m)) (evenly a h 0 (2 * m)) x = some (f x)) ∧ Integrable f ∧
      (∫ t, f t) = (2 * m - 2) / (2 * m - 1) ∧ (∫ t, f t) < 1 := by
  obtain ⟨n, rfl⟩ : ∃ n, m = n + 1 := ⟨m - 1, by omega⟩
  have hn : 1 ≤ n := by omega
  have hn' : (1 : ℝ) ≤ (n : ℝ) := by exact_mod_cast hn
  have hM : (2 * ((n + 1 : ℕ) : ℝ) - 1) = 2 * n + 1 := by push_cast; ring
  rw [hM]
  have hpos : (0 : ℝ) < 2 * n + 1 := by linarith
  set c : ℝ := 2 * (1 / (2 * (n : ℝ) + 1)) / h with hcd
  have hc : 0 ≤ c := by rw [hcd]; positivity
  have hnodes : dualNodes (evenly 0 (1 / (2 * (n : ℝ) + 1)) 0 (2 * (n + 1))) (evenly a h 0 (2 * (n + 1))) = (List.replicate (n + 1) [0, c]).flatten := by
    unfold dualNodes
    rw [show 2 * (n + 1) = (2 * n + 1) + 1 by ring, diff_evenly, diff_evenly, List.zipWith_replicate', dualGo_alternate c hc]
  obtain ⟨he, ho⟩ := evens_odds a h c (n + 1) 0
  have hval : ∀ (s : ℕ) (v x : ℝ), fillZero spl ((List.range (n + 1)).map fun (i : ℕ) => (a + ((s + 2 * i : ℕ) : ℝ) * h, v)) x =
      some (if x < a + (s : ℝ) * h then 0 else if a + ((s + 2 * n : ℕ) : ℝ) * h < x then 0 else v) := by
    intro s v x
    have hs := hspl ((List.range (n + 1)).map fun (i : ℕ) => (a + ((s + 2 * i : ℕ) : ℝ) * h, v)) v (by simp) (by
      rw [List.map_map, List.pairwise_map]
      refine List.pairwise_lt_range.imp ?_
      intro i j hij
      have : (i : ℝ) < j := by exact_mod_cast hij
      simp only [Function.comp]
      push_cast
      nlinarith) (by intro p hp; simp only [List.mem_map] at hp; obtain ⟨i, -, rfl⟩ := hp; rfl) x
    have hlast : ((List.range (n + 1)).map fun (i : ℕ) => (a + ((s + 2 * i : ℕ) : ℝ) * h, v)).getLast? = some (a + ((s + 2 * n : ℕ) : ℝ) * h, v) := by
      rw [List.range_succ, List.map_append]; simp
    have hhead : ((List.range (n + 1)).map fun (i : ℕ) => (a + ((s + 2 * i : ℕ) : ℝ) * h, v)).head? = some (a + (s : ℝ) * h, v) := by
      rw [List.range_succ_eq_map]; simp
    generalize ((List.range (n + 1)).map fun (i : ℕ) => (a + ((s + 2 * i : ℕ) : ℝ) * h, v)) = kn at hs hlast hhead
    match kn, hhead with
    | p :: t, hhead =>
      simp only [List.head?_cons, Option.some.injEq] at hhead
      subst hhead
      rw [List.getLast?_eq_some_getLast (by simp), Option.some.injEq] at hlast
      simp only [fillZero, hlast, hs]
  have hf : ∀ x, dualPdf spl (evenly 0 (1 / (2 * (n : ℝ) + 1)) 0 (2 * (n + 1))) (evenly a h 0 (2 * (n + 1))) x =
      some (if x < a + h then 0 else if a + ((1 + 2 * n : ℕ) : ℝ) * h < x then 0 else c / 2) := by
    intro x
    have h2 := hval 1 c x
    have h1 := hval 0 0 x
    simp only [zero_add] at he ho h1
    simp only [dualPdf, hnodes, he, ho, h1, h2]
    simp only [Option.bind_eq_bind, Option.bind_some, Nat.cast_one, one_mul, ite_self, zero_add]
    congr 1
    split_ifs <;> simp
  refine ⟨_, hf, ?_⟩
  have hle : a + h ≤ a + ((1 + 2 * n : ℕ) : ℝ) * h := by push_cast; nlinarith
  have hp := piece (fun x => if x < a + h then 0 else if a + ((1 + 2 * n : ℕ) : ℝ) * h < x then 0 else c / 2) (fun _ => c / 2) _ _ hle (fun t ht => by
    rw [if_neg (not_lt.2 ht.1.le), if_neg (not_lt.2 ht.2.le)]) continuous_const
  obtain ⟨s1, s2, -, -⟩ := supported _ _ _ hle (fun t ht => by
    rcases ht with h | h
    · rw [if_pos h]
    · rw [if_neg (not_lt.2 (hle.trans h.le)), if_pos h]) hp.1
  have hI : (∫ t, (if t < a + h then 0 else if a + ((1 + 2 * n : ℕ) : ℝ) * h < t then 0 else c / 2)) = (2 * ((n + 1 : ℕ) : ℝ) - 2) / (2 * n + 1) := by
    rw [s2, hp.2, intervalIntegral.integral_const, smul_eq_mul, hcd]
    push_cast
    have := hh.ne'
    field_simp
    ring
  refine ⟨s1, hI, ?_⟩
  rw [hI, div_lt_one hpos]
  push_cast
  linarith

/-! ### instances -/

/-- the cubic through four points with one value is constant -/
theorem cubic_constant (knots : List (ℝ × ℝ)) (c : ℝ) (h4 : knots.length = 4) (hs : (knots.map Prod.fst).Pairwise (· < ·)) (hc : ∀ p ∈ knots, p.2 = c) (x : ℝ) :
    cubicSpline4 knots x = c := by
  match knots, h4 with
  | [p0, p1, p2, p3], _ =>
    simp only [List.map_cons, List.map_nil, List.pairwise_cons, List.mem_cons, List.not_mem_nil, or_false, forall_eq_or_imp, forall_eq] at hs
    simp only [List.mem_cons, List.not_mem_nil, or_false, forall_eq_or_imp, forall_eq] at hc
    obtain ⟨⟨h1, h2, h3⟩, ⟨h4, h5⟩, h6, -⟩ := hs
    obtain ⟨c0, c1, c2, c3⟩ := hc
    have a1 : p0.1 - p1.1 ≠ 0 := by linarith
    have a2 : p0.1 - p2.1 ≠ 0 := by linarith
    have a3 : p0.1 - p3.1 ≠ 0 := by linarith
    have a4 : p1.1 - p2.1 ≠ 0 := by linarith
    have a5 : p1.1 - p3.1 ≠ 0 := by linarith
    have a6 : p2.1 - p3.1 ≠ 0 := by linarith
    simp only [cubicSpline4, c0, c1, c2, c3]
    rw [← neg_sub p0.1 p1.1, ← neg_sub p0.1 p2.1, ← neg_sub p0.1 p3.1, ← neg_sub p1.1 p2.1, ← neg_sub p1.1 p3.1, ← neg_sub p2.1 p3.1]
    generalize p0.1 = u at *
    generalize p1.1 = v at *
    generalize p2.1 = w at *
    generalize p3.1 = z at *
    field_simp
    ring

/-- eight quantiles of the uniform distribution on [0, 7]: total probability 6/7 -/
example := C102_dual_uniform cubicSpline4 4 (by norm_num) cubic_constant 0 1 one_pos

example := C102_total_partial cubicSpline4 cubicSpline4 [0, 9/10, 19/20, 1] [0, 1, 2, 3] (by norm_num) (by simp) cubic_instance cubic_instance.through (by simp) (by simp)

end Verif.Props.QuantSpline
