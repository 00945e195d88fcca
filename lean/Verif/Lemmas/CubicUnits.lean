import Verif.Lemmas.CubicSpline

/-!
# Cubic splines in other units of the abscissae, everywhere on the line
-/

set_option linter.unusedSectionVars false
set_option autoImplicit false

namespace Verif.Lemmas.CubicSpline

open Verif.Model Verif.Lemmas.QuadSpline

variable {K : Type} [Field K] [LinearOrder K] [IsStrictOrderedRing K]

/-- abscissae in other units -/
def scaleX (s t : K) (pts : List (K × K)) : List (K × K) := pts.map fun p => (s * p.1 + t, p.2)

theorem third_scale (s t m v d e x y : K) (hs : s ≠ 0) :
    cubThird (s * m + t) v (d / s) (e / s ^ 2) (s * x + t) y = cubThird m v d e x y / s ^ 3 := by
  unfold cubThird
  have e1 : s * x + t - (s * m + t) = s * (x - m) := by ring
  rw [e1]
  by_cases h : x - m = 0
  · simp [h]
  · field_simp

theorem val_scale (s t m v d e f x : K) (hs : s ≠ 0) : cubVal (s * m + t) v (d / s) (e / s ^ 2) (f / s ^ 3) (s * x + t) = cubVal m v d e f x := by
  unfold cubVal
  have e1 : s * x + t - (s * m + t) = s * (x - m) := by ring
  rw [e1]
  field_simp

theorem slope_scale (s t m d e f x : K) (hs : s ≠ 0) : cubSlope (s * m + t) (d / s) (e / s ^ 2) (f / s ^ 3) (s * x + t) = cubSlope m d e f x / s := by
  unfold cubSlope
  have e1 : s * x + t - (s * m + t) = s * (x - m) := by ring
  rw [e1]
  field_simp

theorem bend_scale (s t m e f x : K) (hs : s ≠ 0) : cubBend (s * m + t) (e / s ^ 2) (f / s ^ 3) (s * x + t) = cubBend m e f x / s ^ 2 := by
  unfold cubBend
  have e1 : s * x + t - (s * m + t) = s * (x - m) := by ring
  rw [e1]
  field_simp

theorem miss_scale (s t : K) (hs : s ≠ 0) : ∀ (pts : List (K × K)) (m v d e : K),
    cubMiss (s * m + t) v (d / s) (e / s ^ 2) (scaleX s t pts) = cubMiss m v d e pts
  | [], m, v, d, e => by simp [scaleX, cubMiss]
  | [p], m, v, d, e => by simp [scaleX, cubMiss]
  | [p, p'], m, v, d, e => by
    simp only [scaleX, List.map_cons, List.map_nil, cubMiss]
    rw [third_scale _ _ _ _ _ _ _ _ hs, val_scale _ _ _ _ _ _ _ _ hs]
  | p :: p' :: p'' :: l, m, v, d, e => by
    have ih := miss_scale s t hs (p' :: p'' :: l) p.1 p.2 (cubSlope m d e (cubThird m v d e p.1 p.2) p.1) (cubBend m e (cubThird m v d e p.1 p.2) p.1)
    simp only [scaleX, List.map_cons, cubMiss] at ih ⊢
    rw [third_scale _ _ _ _ _ _ _ _ hs, slope_scale _ _ _ _ _ _ _ hs, bend_scale _ _ _ _ _ _ hs]
    exact ih

theorem go_scale (s t x : K) (hs : 0 < s) : ∀ (pts : List (K × K)) (m v d e : K),
    cubGo (s * m + t) v (d / s) (e / s ^ 2) (scaleX s t pts) (s * x + t) = cubGo m v d e pts x
  | [], m, v, d, e => by simp [scaleX, cubGo]
  | [p], m, v, d, e => by
    simp only [scaleX, List.map_cons, List.map_nil, cubGo]
    rw [third_scale _ _ _ _ _ _ _ _ hs.ne', val_scale _ _ _ _ _ _ _ _ hs.ne']
  | [p, p'], m, v, d, e => by
    simp only [scaleX, List.map_cons, List.map_nil, cubGo]
    rw [third_scale _ _ _ _ _ _ _ _ hs.ne', val_scale _ _ _ _ _ _ _ _ hs.ne']
  | p :: p' :: p'' :: l, m, v, d, e => by
    have ih := go_scale s t x hs (p' :: p'' :: l) p.1 p.2 (cubSlope m d e (cubThird m v d e p.1 p.2) p.1) (cubBend m e (cubThird m v d e p.1 p.2) p.1)
    have hle : s * x + t ≤ s * p.1 + t ↔ x ≤ p.1 := by rw [add_le_add_iff_right, mul_le_mul_iff_right₀ hs]
    simp only [scaleX, List.map_cons, cubGo] at ih ⊢
    rw [third_scale _ _ _ _ _ _ _ _ hs.ne', slope_scale _ _ _ _ _ _ _ hs.ne', bend_scale _ _ _ _ _ _ hs.ne', val_scale _ _ _ _ _ _ _ _ hs.ne']
    simp only [hle, ih]

theorem bend3_scale (s t : K) (p0 p1 p2 : K × K) : bend3 (s * p0.1 + t, p0.2) (s * p1.1 + t, p1.2) (s * p2.1 + t, p2.2) = bend3 p0 p1 p2 / s ^ 2 := by
  unfold bend3
  have e1 : ∀ x m : K, s * x + t - (s * m + t) = s * (x - m) := fun x m => by ring
  simp only [e1]
  simp only [div_mul_eq_div_div_swap _ s]
  rw [← sub_div]
  ring

theorem slope3_scale (s t : K) (hs : s ≠ 0) (p0 p1 p2 : K × K) : slope3 (s * p0.1 + t, p0.2) (s * p1.1 + t, p1.2) (s * p2.1 + t, p2.2) = slope3 p0 p1 p2 / s := by
  unfold slope3
  rw [bend3_scale s t]
  have e1 : ∀ x m : K, s * x + t - (s * m + t) = s * (x - m) := fun x m => by ring
  simp only [e1]
  rw [div_mul_eq_div_div_swap, add_div]
  congr 1
  field_simp

theorem firstBend_scale (s t : K) (hs : s ≠ 0) (p0 p1 p2 : K × K) (α : K) :
    firstBend (s * p0.1 + t, p0.2) (s * p1.1 + t, p1.2) (s * p2.1 + t, p2.2) (α / s ^ 3) = firstBend p0 p1 p2 α / s ^ 2 := by
  unfold firstBend
  rw [bend3_scale s t]
  field_simp
  ring

theorem firstSlope_scale (s t : K) (hs : s ≠ 0) (p0 p1 p2 : K × K) (α : K) :
    firstSlope (s * p0.1 + t, p0.2) (s * p1.1 + t, p1.2) (s * p2.1 + t, p2.2) (α / s ^ 3) = firstSlope p0 p1 p2 α / s := by
  unfold firstSlope
  rw [slope3_scale s t hs]
  field_simp
  ring

theorem startMiss_scale (s t : K) (hs : s ≠ 0) (p0 p1 p2 : K × K) (α : K) (pts : List (K × K)) :
    cubStartMiss (s * p0.1 + t, p0.2) (s * p1.1 + t, p1.2) (s * p2.1 + t, p2.2) (α / s ^ 3) (scaleX s t pts) = cubStartMiss p0 p1 p2 α pts := by
  match pts with
  | [] => simp [scaleX, cubStartMiss]
  | [p3] =>
    simp only [scaleX, List.map_cons, List.map_nil, cubStartMiss]
    rw [firstSlope_scale s t hs, firstBend_scale s t hs, val_scale _ _ _ _ _ _ _ _ hs]
  | p3 :: p4 :: l =>
    have h := miss_scale s t hs (p3 :: p4 :: l) p2.1 p2.2 (firstSlope p0 p1 p2 α) (firstBend p0 p1 p2 α)
    simp only [scaleX, List.map_cons, cubStartMiss] at h ⊢
    rw [firstSlope_scale s t hs, firstBend_scale s t hs]
    exact h

theorem from_scale (s t : K) (hs : 0 < s) (p0 p1 p2 : K × K) (α x : K) (pts : List (K × K)) :
    cubFrom (s * p0.1 + t, p0.2) (s * p1.1 + t, p1.2) (s * p2.1 + t, p2.2) (α / s ^ 3) (scaleX s t pts) (s * x + t) = cubFrom p0 p1 p2 α pts x := by
  have hle : s * x + t ≤ s * p2.1 + t ↔ x ≤ p2.1 := by rw [add_le_add_iff_right, mul_le_mul_iff_right₀ hs]
  match pts with
  | [] =>
    simp only [scaleX, List.map_nil, cubFrom]
    rw [firstSlope_scale s t hs.ne', firstBend_scale s t hs.ne', val_scale _ _ _ _ _ _ _ _ hs.ne']
  | [p3] =>
    simp only [scaleX, List.map_cons, List.map_nil, cubFrom]
    rw [firstSlope_scale s t hs.ne', firstBend_scale s t hs.ne', val_scale _ _ _ _ _ _ _ _ hs.ne']
  | p3 :: p4 :: l =>
    have h := go_scale s t x hs (p3 :: p4 :: l) p2.1 p2.2 (firstSlope p0 p1 p2 α) (firstBend p0 p1 p2 α)
    simp only [scaleX, List.map_cons, cubFrom] at h ⊢
    rw [firstSlope_scale s t hs.ne', firstBend_scale s t hs.ne', val_scale _ _ _ _ _ _ _ _ hs.ne', h]
    simp only [hle]

theorem start_scale (s t : K) (hs : s ≠ 0) (p0 p1 p2 : K × K) (pts : List (K × K)) :
    cubStart (s * p0.1 + t, p0.2) (s * p1.1 + t, p1.2) (s * p2.1 + t, p2.2) (scaleX s t pts) = cubStart p0 p1 p2 pts / s ^ 3 := by
  have h0 := startMiss_scale s t hs p0 p1 p2 0 pts
  have h1 := startMiss_scale s t hs p0 p1 p2 (s ^ 3) pts
  rw [zero_div] at h0
  rw [div_self (pow_ne_zero 3 hs)] at h1
  unfold cubStart
  rw [h0, h1, startMiss_affine p0 p1 p2 (s ^ 3), startMiss_affine p0 p1 p2 1]
  generalize cubStartMiss p0 p1 p2 0 pts = A
  generalize cubStartMiss (p0.1, 0) (p1.1, 0) (p2.1, 0) 1 (zeros pts) = B
  have e1 : A - (A + s ^ 3 * B) = (A - (A + 1 * B)) * s ^ 3 := by ring
  rw [e1, div_mul_eq_div_div]

/-- In other units of the abscissae the curve is the same curve, also outside the points. -/
theorem spline_scale (s t : K) (hs : 0 < s) (pts : List (K × K)) (x : K) : cubSpline (scaleX s t pts) (s * x + t) = cubSpline pts x := by
  match pts with
  | [] => simp [scaleX, cubSpline]
  | [p] => simp [scaleX, cubSpline]
  | [p, p'] =>
    have e1 : ∀ x m : K, s * x + t - (s * m + t) = s * (x - m) := fun x m => by ring
    simp only [scaleX, List.map_cons, List.map_nil, cubSpline, e1]
    rw [div_mul_eq_div_div_swap]
    have := hs.ne'
    field_simp
  | p0 :: p1 :: p2 :: l =>
    have h := from_scale s t hs p0 p1 p2 (cubStart p0 p1 p2 l) x l
    have h2 := start_scale s t hs.ne' p0 p1 p2 l
    simp only [scaleX, List.map_cons, cubSpline] at h h2 ⊢
    rw [h2, h]

end Verif.Lemmas.CubicSpline
