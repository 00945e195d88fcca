import Verif.Props.CubicSpline

/-!
# C140, C102: the cubic spline is twice continuously differentiable; the spline reconstructions with it
-/

set_option linter.unusedSectionVars false
set_option autoImplicit false

namespace Verif.Props.CubicSpline

open Verif Verif.Np Verif.Model Verif.Spec Verif.Lemmas.CubicSpline MeasureTheory

/-- two differentiable functions that meet in value and slope -/
theorem glue {g h g' h' : ℝ → ℝ} {m : ℝ} (hg : ∀ x, HasDerivAt g (g' x) x) (hh : ∀ x, HasDerivAt h (h' x) x) (e : g m = h m) (e' : g' m = h' m) (t : ℝ) :
    HasDerivAt (fun x => if x ≤ m then g x else h x) (if t ≤ m then g' t else h' t) t := by
  rcases lt_trichotomy t m with ht | ht | ht
  · rw [if_pos ht.le]
    refine (hg t).congr_of_eventuallyEq ?_
    filter_upwards [Iio_mem_nhds ht] with x hx
    exact if_pos (le_of_lt hx)
  · subst ht
    rw [if_pos le_rfl]
    have d1 : HasDerivWithinAt (fun x => if x ≤ t then g x else h x) (g' t) (Set.Iic t) t :=
      (hg t).hasDerivWithinAt.congr (fun x hx => if_pos hx) (if_pos le_rfl)
    have hr : ∀ x, t ≤ x → (if x ≤ t then g x else h x) = h x := fun x hx => by
      rcases hx.lt_or_eq with hx | rfl
      · rw [if_neg (not_le.2 hx)]
      · rw [if_pos le_rfl, e]
    have d2 : HasDerivWithinAt (fun x => if x ≤ t then g x else h x) (g' t) (Set.Ici t) t := by
      rw [e']
      exact (hh t).hasDerivWithinAt.congr (fun x hx => hr x hx) (hr t le_rfl)
    have := d1.union d2
    rwa [Set.Iic_union_Ici, hasDerivWithinAt_univ] at this
  · rw [if_neg (not_le.2 ht)]
    refine (hh t).congr_of_eventuallyEq ?_
    filter_upwards [Ioi_mem_nhds ht] with x hx
    exact if_neg (not_le.2 hx)

theorem hasDerivAt_val (m v d e f t : ℝ) : HasDerivAt (fun x => cubVal m v d e f x) (cubSlope m d e f t) t := by
  have h1 : HasDerivAt (fun x : ℝ => x - m) 1 t := (hasDerivAt_id t).sub_const m
  have := (((h1.const_mul d).const_add v).add ((h1.mul h1).const_mul e)).add ((((h1.mul h1).mul h1)).const_mul f)
  refine this.congr_deriv ?_
  simp only [cubSlope, Pi.mul_apply]
  ring

theorem hasDerivAt_slope (m d e f t : ℝ) : HasDerivAt (fun x => cubSlope m d e f x) (2 * cubBend m e f t) t := by
  have h1 : HasDerivAt (fun x : ℝ => x - m) 1 t := (hasDerivAt_id t).sub_const m
  have := ((h1.const_mul (2 * e)).const_add d).add ((h1.mul h1).const_mul (3 * f))
  refine this.congr_deriv ?_
  simp only [cubBend]
  ring

theorem continuous_bend (m e f : ℝ) : Continuous fun x => cubBend m e f x := by unfold cubBend; fun_prop

theorem smooth_go : ∀ (pts : List (ℝ × ℝ)) (m v d e : ℝ), (m :: pts.map Prod.fst).Pairwise (· < ·) → pts ≠ [] →
    (∀ t, HasDerivAt (fun x => cubGo m v d e pts x) (slopeGo m v d e pts t) t) ∧ (∀ t, HasDerivAt (fun x => slopeGo m v d e pts x) (2 * bendGo m v d e pts t) t) ∧
      Continuous (fun x => bendGo m v d e pts x)
  | [], m, v, d, e, _, h => absurd rfl h
  | [p], m, v, d, e, _, _ => ⟨fun t => hasDerivAt_val _ _ _ _ _ t, fun t => hasDerivAt_slope _ _ _ _ t, continuous_bend _ _ _⟩
  | [p, p'], m, v, d, e, _, _ => ⟨fun t => hasDerivAt_val _ _ _ _ _ t, fun t => hasDerivAt_slope _ _ _ _ t, continuous_bend _ _ _⟩
  | p :: p' :: p'' :: l, m, v, d, e, hs, _ => by
    have h1 : m < p.1 := (List.pairwise_cons.1 hs).1 _ (by simp)
    have h3 : (p.1 :: (p' :: p'' :: l).map Prod.fst).Pairwise (· < ·) := (List.pairwise_cons.1 hs).2
    obtain ⟨i1, i2, i3⟩ := smooth_go (p' :: p'' :: l) p.1 p.2 (cubSlope m d e (cubThird m v d e p.1 p.2) p.1) (cubBend m e (cubThird m v d e p.1 p.2) p.1) h3 (by simp)
    obtain ⟨k1, k2, k3⟩ := go_left p.1 p.2 (cubSlope m d e (cubThird m v d e p.1 p.2) p.1) (cubBend m e (cubThird m v d e p.1 p.2) p.1) p' (p'' :: l) h3
    have t1 := third_through (v := v) (d := d) (e := e) (y := p.2) h1
    refine ⟨fun t => ?_, fun t => ?_, ?_⟩
    · exact glue (hasDerivAt_val _ _ _ _ _) i1 (by rw [k1, t1]) (by rw [k2]) t
    · have := glue (hasDerivAt_slope m d e (cubThird m v d e p.1 p.2)) i2 (m := p.1) (by rw [k2]) (by rw [k3]) t
      simp only [slopeGo, bendGo]
      convert this using 1
      split_ifs <;> rfl
    · exact Continuous.if_le (continuous_bend _ _ _) i3 continuous_id continuous_const (by rintro x rfl; exact k3.symm)

/-- **C140: the curve is twice continuously differentiable** on the whole line (beyond the points it is continued by the end cubics). -/
theorem C140_smooth (pts : List (ℝ × ℝ)) (hs : (pts.map Prod.fst).Pairwise (· < ·)) (hn : 4 ≤ pts.length) :
    ∃ s' s'' : ℝ → ℝ, (∀ t, HasDerivAt (cubSpline pts) (s' t) t) ∧ (∀ t, HasDerivAt s' (s'' t) t) ∧ Continuous s'' := by
  match pts, hn with
  | [p0, p1, p2, p3], _ =>
    exact ⟨_, _, fun t => hasDerivAt_val _ _ _ _ _ t, fun t => hasDerivAt_slope _ _ _ _ t, (continuous_bend _ _ _).const_mul 2⟩
  | p0 :: p1 :: p2 :: p3 :: p4 :: t, _ =>
    obtain ⟨h01, h12, hs2⟩ := sorted3 hs
    set α := cubStart p0 p1 p2 (p3 :: p4 :: t) with hα
    obtain ⟨i1, i2, i3⟩ := smooth_go (p3 :: p4 :: t) p2.1 p2.2 (firstSlope p0 p1 p2 α) (firstBend p0 p1 p2 α) hs2 (by simp)
    obtain ⟨k1, k2, k3⟩ := go_left p2.1 p2.2 (firstSlope p0 p1 p2 α) (firstBend p0 p1 p2 α) p3 (p4 :: t) hs2
    refine ⟨_, _, fun u => glue (m := p2.1) (hasDerivAt_val p2.1 p2.2 (firstSlope p0 p1 p2 α) (firstBend p0 p1 p2 α) α) i1 (by rw [k1]; simp [cubVal]) (by rw [k2]; simp [cubSlope]) u,
      fun u => glue (hasDerivAt_slope p2.1 (firstSlope p0 p1 p2 α) (firstBend p0 p1 p2 α) α) i2 (by rw [k2]; simp [cubSlope]) (by rw [k3]; simp [cubBend]) u, ?_⟩
    refine Continuous.if_le ((continuous_bend _ _ _).const_mul 2) (i3.const_mul 2) continuous_id continuous_const (by rintro x rfl; rw [k3]; simp [cubBend])

/-- the curve is what the theorems about the spline reconstruction ask for -/
theorem interpolant (pts : List (ℝ × ℝ)) (hs : (pts.map Prod.fst).Pairwise (· < ·)) (hn : 4 ≤ pts.length) : QuantSpline.Interpolant (cubSpline pts) pts := by
  obtain ⟨s', s'', h1, h2, -⟩ := C140_smooth pts hs hn
  refine ⟨fun x => (h1 x).differentiableAt, ?_, through pts hs⟩
  have e : deriv (cubSpline pts) = s' := funext fun x => (h1 x).deriv
  rw [e]
  exact continuous_iff_continuousAt.2 fun x => (h2 x).continuousAt

/-- **C102, spline derivative: probability between two locations, for the reconstruction itself** (the cubic spline of C140, at least four quantiles). -/
theorem C102_cubic_between (quants locs : List ℝ) (hl : locs.Pairwise (· < ·)) (hlen : quants.length = locs.length) (hn : 4 ≤ locs.length)
    (i j : ℕ) (hij : i ≤ j) (u v p q : ℝ) (hu : locs[i]? = some u) (hv : locs[j]? = some v) (hp : quants[i]? = some p) (hq : quants[j]? = some q) :
    ∃ f : ℝ → ℝ, (∀ x, splineDerivPdf cubSpline quants locs x = some (f x)) ∧ (∫ t in u..v, f t) = q - p := by
  have e1 := QuadSpline.map_fst_zip' locs quants hlen.symm
  have hI := interpolant (locs.zip quants) (by rw [e1]; exact hl) (by simp; omega)
  have hne : locs ≠ [] := by rintro rfl; simp at hn
  have hv' := QuantSpline.values cubSpline quants locs hne _ _ (List.head?_eq_some_head hne) (List.getLast?_eq_some_getLast hne)
  exact ⟨_, hv', QuantSpline.C102_between cubSpline quants locs hl hlen hI _ hv' i j hij u v p q hu hv hp hq⟩

/-- **C102, spline derivative: total probability, for the reconstruction itself.** At least four quantiles that go from 0 to 1: the density has total probability one, and
the probability up to a location is the value of `cdf` there (the CDF being the quadratic spline of C139).
Missing: a density that is never negative (`C102_negative`). -/
theorem C102_cubic_total_partial (quants locs : List ℝ) (hl : locs.Pairwise (· < ·)) (hlen : quants.length = locs.length) (hn : 4 ≤ locs.length)
    (h0 : quants.head? = some 0) (h1 : quants.getLast? = some 1) :
    ∃ f : ℝ → ℝ, (∀ x, splineDerivPdf cubSpline quants locs x = some (f x)) ∧ Integrable f ∧ (∫ t, f t) = 1 ∧
      ∀ l ∈ locs, quantCdf quadSpline quants locs l = some (∫ t in Set.Iic l, f t) := by
  have e1 := QuadSpline.map_fst_zip' locs quants hlen.symm
  have hI := interpolant (locs.zip quants) (by rw [e1]; exact hl) (by simp; omega)
  have hne : locs ≠ [] := by rintro rfl; simp at hn
  have hv' := QuantSpline.values cubSpline quants locs hne _ _ (List.head?_eq_some_head hne) (List.getLast?_eq_some_getLast hne)
  exact ⟨_, hv', QuantSpline.C102_total_partial cubSpline quadSpline quants locs hl hlen hI (QuadSpline.through _ (by rw [e1]; exact hl)) h0 h1 _ hv'⟩

/-- **C102 fails for the average of two splines, for the cubic splines themselves**: for `2 m` evenly spaced quantiles of a uniform distribution, `m ≥ 4`, the total
probability is `(2 m - 2) / (2 m - 1)`. -/
theorem C102_cubic_dual_uniform (m : ℕ) (hm : 4 ≤ m) (a h : ℝ) (hh : 0 < h) :
    ∃ f : ℝ → ℝ, (∀ x, dualPdf cubSpline (QuantSpline.evenly 0 (1 / (2 * m - 1)) 0 (2 * m)) (QuantSpline.evenly a h 0 (2 * m)) x = some (f x)) ∧ Integrable f ∧
      (∫ t, f t) = (2 * m - 2) / (2 * m - 1) ∧ (∫ t, f t) < 1 :=
  QuantSpline.C102_dual_uniform cubSpline m (by omega) (fun knots c hl _ hc x => const knots c (by rintro rfl; simp at hl; omega) hc x) a h hh

/-! ### Concrete cases -/

/-- five points -/
def five : List (ℚ × ℚ) := [(0, 0), (1, 1), (2, 0), (3, 1), (5, 0)]

example : (five.map Prod.fst).Pairwise (· < ·) := by decide +kernel

example : CubicSpline five (cubSpline five) := C140_exists five (by decide +kernel) (by decide)

/-- six points of `x³` -/
example : cubSpline ([(0, 0), (1, 1), (2, 8), (4, 64), (5, 125), (7, 343)] : List (ℚ × ℚ)) 3 = 27 := by
  have := C140_reproduces [(0, 0), (1, 1), (2, 8), (4, 64), (5, 125), (7, 343)] (by decide +kernel) (by simp) 0 0 0 1 (by intro p hp; simp at hp; rcases hp with rfl | rfl | rfl | rfl | rfl | rfl <;> norm_num) (0 : ℚ) 7
    rfl rfl 3 (by norm_num) (by norm_num)
  rw [this]; norm_num

/-- the curve through five points between them -/
example : cubSpline five 4 = 36 / 17 := by decide +kernel

/-- five quantiles -/
example := C102_cubic_total_partial [0, 1/4, 1/2, 3/4, 1] [0, 1, 3, 4, 6] (by norm_num) (by simp) (by simp) (by simp) (by simp)

example := C102_cubic_between [0, 1/4, 1/2, 3/4, 1] [0, 1, 3, 4, 6] (by norm_num) (by simp) (by simp) 1 3 (by norm_num) 1 4 (1/4) (3/4) (by simp) (by simp) (by simp) (by simp)

example := C102_cubic_dual_uniform 5 (by norm_num) 0 1 one_pos

example := C140_linear [0, 1, 2, 3, 5] [0, 1, 0, 1, 0] [1, 2, 3, 2, 1] (7 : ℚ) 4 rfl rfl

example := C140_units (2 : ℚ) 1 3 0 (by norm_num) five (by decide +kernel) (by decide) 0 5 rfl rfl 4 (by norm_num) (by norm_num)

example := C140_mirror five (by decide +kernel) (by decide) 5 1 0 0 5 rfl rfl 4 (by norm_num) (by norm_num)

end Verif.Props.CubicSpline
