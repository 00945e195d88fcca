import Verif.Model.CubicSpline
import Verif.Spec.CubicSpline
import Verif.Lemmas.QuadSpline

/-!
# Lemmas about cubic splines: linearity, and the miss of the last point is a strictly monotone function of the first coefficient
-/

set_option linter.unusedSectionVars false
set_option autoImplicit false

namespace Verif.Lemmas.CubicSpline

open Verif Verif.Model Verif.Spec
open Verif.Lemmas.QuadSpline (fstOf sndOf comb zeros comb_zero)

variable {K : Type} [Field K] [LinearOrder K] [IsStrictOrderedRing K]

theorem third_lin (k m v v' d d' e e' x y y' : K) :
    cubThird m (v + k * v') (d + k * d') (e + k * e') x (y + k * y') = cubThird m v d e x y + k * cubThird m v' d' e' x y' := by
  unfold cubThird; ring

theorem val_lin (k m v v' d d' e e' f f' t : K) :
    cubVal m (v + k * v') (d + k * d') (e + k * e') (f + k * f') t = cubVal m v d e f t + k * cubVal m v' d' e' f' t := by
  unfold cubVal; ring

theorem slope_lin (k m d d' e e' f f' t : K) : cubSlope m (d + k * d') (e + k * e') (f + k * f') t = cubSlope m d e f t + k * cubSlope m d' e' f' t := by
  unfold cubSlope; ring

theorem bend_lin (k m e e' f f' t : K) : cubBend m (e + k * e') (f + k * f') t = cubBend m e f t + k * cubBend m e' f' t := by
  unfold cubBend; ring

theorem miss_lin (k : K) : ∀ (L : List (K × K × K)) (m v v' d d' e e' : K),
    cubMiss m (v + k * v') (d + k * d') (e + k * e') (comb k L) = cubMiss m v d e (fstOf L) + k * cubMiss m v' d' e' (sndOf L)
  | [], m, v, v', d, d', e, e' => by simp [comb, fstOf, sndOf, cubMiss]
  | [p], m, v, v', d, d', e, e' => by simp [comb, fstOf, sndOf, cubMiss]
  | [p, p'], m, v, v', d, d', e, e' => by
    simp only [comb, fstOf, sndOf, List.map_cons, List.map_nil, cubMiss, third_lin, val_lin]; ring
  | p :: p' :: p'' :: t, m, v, v', d, d', e, e' => by
    have ih := miss_lin k (p' :: p'' :: t) p.1
    simp only [comb, fstOf, sndOf, List.map_cons] at ih
    simp only [comb, fstOf, sndOf, List.map_cons, cubMiss, third_lin, bend_lin, slope_lin]
    exact ih _ _ _ _ _ _

theorem go_lin (k x : K) : ∀ (L : List (K × K × K)) (m v v' d d' e e' : K),
    cubGo m (v + k * v') (d + k * d') (e + k * e') (comb k L) x = cubGo m v d e (fstOf L) x + k * cubGo m v' d' e' (sndOf L) x
  | [], m, v, v', d, d', e, e' => by simp [comb, fstOf, sndOf, cubGo]
  | [p], m, v, v', d, d', e, e' => by simp only [comb, fstOf, sndOf, List.map_cons, List.map_nil, cubGo, third_lin, val_lin]
  | [p, p'], m, v, v', d, d', e, e' => by simp only [comb, fstOf, sndOf, List.map_cons, List.map_nil, cubGo, third_lin, val_lin]
  | p :: p' :: p'' :: t, m, v, v', d, d', e, e' => by
    have ih := go_lin k x (p' :: p'' :: t) p.1
    simp only [comb, fstOf, sndOf, List.map_cons] at ih
    simp only [comb, fstOf, sndOf, List.map_cons, cubGo, third_lin, val_lin, slope_lin, bend_lin]
    split_ifs
    · rfl
    · exact ih _ _ _ _ _ _

theorem bend3_lin (k x0 x1 x2 y0 y1 y2 z0 z1 z2 : K) : bend3 (x0, y0 + k * z0) (x1, y1 + k * z1) (x2, y2 + k * z2) =
    bend3 (x0, y0) (x1, y1) (x2, y2) + k * bend3 (x0, z0) (x1, z1) (x2, z2) := by
  unfold bend3; ring

theorem slope3_lin (k x0 x1 x2 y0 y1 y2 z0 z1 z2 : K) : slope3 (x0, y0 + k * z0) (x1, y1 + k * z1) (x2, y2 + k * z2) =
    slope3 (x0, y0) (x1, y1) (x2, y2) + k * slope3 (x0, z0) (x1, z1) (x2, z2) := by
  unfold slope3; rw [bend3_lin]; ring

theorem firstBend_lin (k x0 x1 x2 y0 y1 y2 z0 z1 z2 α β : K) : firstBend (x0, y0 + k * z0) (x1, y1 + k * z1) (x2, y2 + k * z2) (α + k * β) =
    firstBend (x0, y0) (x1, y1) (x2, y2) α + k * firstBend (x0, z0) (x1, z1) (x2, z2) β := by
  unfold firstBend; rw [bend3_lin]; ring

theorem firstSlope_lin (k x0 x1 x2 y0 y1 y2 z0 z1 z2 α β : K) : firstSlope (x0, y0 + k * z0) (x1, y1 + k * z1) (x2, y2 + k * z2) (α + k * β) =
    firstSlope (x0, y0) (x1, y1) (x2, y2) α + k * firstSlope (x0, z0) (x1, z1) (x2, z2) β := by
  unfold firstSlope; rw [slope3_lin]; ring

theorem startMiss_lin (k : K) (x0 x1 x2 y0 y1 y2 z0 z1 z2 α β : K) (L : List (K × K × K)) :
    cubStartMiss (x0, y0 + k * z0) (x1, y1 + k * z1) (x2, y2 + k * z2) (α + k * β) (comb k L) =
      cubStartMiss (x0, y0) (x1, y1) (x2, y2) α (fstOf L) + k * cubStartMiss (x0, z0) (x1, z1) (x2, z2) β (sndOf L) := by
  match L with
  | [] => simp [comb, fstOf, sndOf, cubStartMiss]
  | [p] => simp only [comb, fstOf, sndOf, List.map_cons, List.map_nil, cubStartMiss, firstSlope_lin, firstBend_lin, val_lin]; ring
  | p :: p' :: t =>
    have := miss_lin k (p :: p' :: t) x2 y2 z2 (firstSlope (x0, y0) (x1, y1) (x2, y2) α) (firstSlope (x0, z0) (x1, z1) (x2, z2) β)
      (firstBend (x0, y0) (x1, y1) (x2, y2) α) (firstBend (x0, z0) (x1, z1) (x2, z2) β)
    simp only [comb, fstOf, sndOf, List.map_cons, cubStartMiss, firstSlope_lin, firstBend_lin] at this ⊢
    exact this

theorem from_lin (k : K) (x0 x1 x2 y0 y1 y2 z0 z1 z2 α β x : K) (L : List (K × K × K)) :
    cubFrom (x0, y0 + k * z0) (x1, y1 + k * z1) (x2, y2 + k * z2) (α + k * β) (comb k L) x =
      cubFrom (x0, y0) (x1, y1) (x2, y2) α (fstOf L) x + k * cubFrom (x0, z0) (x1, z1) (x2, z2) β (sndOf L) x := by
  match L with
  | [] => simp only [comb, fstOf, sndOf, List.map_nil, cubFrom, firstSlope_lin, firstBend_lin, val_lin]
  | [p] => simp only [comb, fstOf, sndOf, List.map_cons, List.map_nil, cubFrom, firstSlope_lin, firstBend_lin, val_lin]
  | p :: p' :: t =>
    have := go_lin k x (p :: p' :: t) x2 y2 z2 (firstSlope (x0, y0) (x1, y1) (x2, y2) α) (firstSlope (x0, z0) (x1, z1) (x2, z2) β)
      (firstBend (x0, y0) (x1, y1) (x2, y2) α) (firstBend (x0, z0) (x1, z1) (x2, z2) β)
    simp only [comb, fstOf, sndOf, List.map_cons] at this
    simp only [comb, fstOf, sndOf, List.map_cons, cubFrom, firstSlope_lin, firstBend_lin, val_lin]
    split_ifs
    · rfl
    · exact this

/-- with all ordinates zero the miss is odd -/
theorem miss_neg (m v d e : K) (pts : List (K × K)) : cubMiss m (-v) (-d) (-e) (zeros pts) = -cubMiss m v d e (zeros pts) := by
  have h := miss_lin (-1) (pts.map fun p => (p.1, 0, 0)) m 0 v 0 d 0 e
  have h0 : cubMiss m 0 0 0 (zeros pts) = 0 := by
    have := miss_lin (-1) (pts.map fun p => (p.1, 0, 0)) m 0 0 0 0 0 0
    simp only [comb, fstOf, sndOf, List.map_map, Function.comp_def, mul_zero, add_zero] at this
    simp only [zeros]
    linarith
  simp only [comb, fstOf, sndOf, List.map_map, Function.comp_def, zero_add, neg_mul, one_mul, neg_zero] at h
  simp only [zeros] at h0 ⊢
  rw [h, h0, zero_add]

/-- a cubic that vanishes at `m`, rises and is curved upwards there, and vanishes again at `x`, falls and is curved downwards at `x`, and is negative to the right of `x` -/
theorem fall {m d e x : K} (hd : 0 < d) (he : 0 < e) (hx : m < x) :
    cubSlope m d e (cubThird m 0 d e x 0) x < 0 ∧ cubBend m e (cubThird m 0 d e x 0) x < 0 ∧ ∀ t, x < t → cubVal m 0 d e (cubThird m 0 d e x 0) t < 0 := by
  have h : 0 < x - m := sub_pos.2 hx
  unfold cubSlope cubBend cubVal cubThird
  have key : ∀ t, x < t → x - m < t - m := fun t ht => by linarith
  generalize x - m = a at *
  have ha : a ≠ 0 := h.ne'
  have e1 : d + 2 * e * a + 3 * ((0 - 0 - d * a - e * (a * a)) / (a * a * a)) * (a * a) = -(2 * d + e * a) := by
    field_simp; ring
  have e2 : e + 3 * ((0 - 0 - d * a - e * (a * a)) / (a * a * a)) * a = -((3 * d + 2 * e * a) / a) := by
    field_simp; ring
  refine ⟨by rw [e1, neg_lt_zero]; positivity, by rw [e2, neg_lt_zero]; positivity, fun t ht => ?_⟩
  have hτ := key t ht
  generalize t - m = b at *
  have hb : 0 < b := h.trans hτ
  have p1 : 0 < b - a := sub_pos.2 hτ
  have e3 : 0 + d * b + e * (b * b) + (0 - 0 - d * a - e * (a * a)) / (a * a * a) * (b * b * b) = -(b * (d * ((b - a) * (b + a)) + e * b * a * (b - a)) / (a * a)) := by
    field_simp; ring
  rw [e3, neg_lt_zero]
  positivity

/-- the miss with all ordinates zero does not vanish -/
theorem miss_ne : ∀ (pts : List (K × K)) (m d e : K), 2 ≤ pts.length → (m :: pts.map Prod.fst).Pairwise (· < ·) → 0 < d → 0 < e →
    cubMiss m 0 d e (zeros pts) ≠ 0
  | [], _, _, _, hl, _, _, _ => by simp at hl
  | [_], _, _, _, hl, _, _, _ => by simp at hl
  | [p, p'], m, d, e, _, hs, hd, he => by
    simp only [List.map_cons, List.map_nil, List.pairwise_cons, List.mem_cons, forall_eq_or_imp] at hs
    simp only [zeros, List.map_cons, List.map_nil, cubMiss, sub_zero]
    exact ((fall hd he hs.1.1).2.2 _ hs.2.1.1).ne
  | p :: p' :: p'' :: t, m, d, e, _, hs, hd, he => by
    rw [List.map_cons] at hs
    have h1 : m < p.1 := (List.pairwise_cons.1 hs).1 _ (by simp)
    obtain ⟨f1, f2, -⟩ := fall hd he h1
    have ih := miss_ne (p' :: p'' :: t) p.1 _ _ (by simp) (List.pairwise_cons.1 hs).2 (neg_pos.2 f1) (neg_pos.2 f2)
    rw [show (0 : K) = -0 by simp, miss_neg] at ih
    simpa [zeros, cubMiss] using ih

theorem startMiss_affine (p0 p1 p2 : K × K) (α : K) (pts : List (K × K)) :
    cubStartMiss p0 p1 p2 α pts = cubStartMiss p0 p1 p2 0 pts + α * cubStartMiss (p0.1, 0) (p1.1, 0) (p2.1, 0) 1 (zeros pts) := by
  have h := startMiss_lin α p0.1 p1.1 p2.1 p0.2 p1.2 p2.2 0 0 0 0 1 (pts.map fun p => (p.1, p.2, 0))
  rw [comb_zero] at h
  simpa [fstOf, sndOf, zeros, Function.comp_def] using h

theorem startMiss_diff (p0 p1 p2 : K × K) (pts : List (K × K)) :
    cubStartMiss p0 p1 p2 0 pts - cubStartMiss p0 p1 p2 1 pts = -cubStartMiss (p0.1, 0) (p1.1, 0) (p2.1, 0) 1 (zeros pts) := by
  rw [startMiss_affine p0 p1 p2 1]; ring

theorem startMiss_ne (p0 p1 p2 : K × K) (pts : List (K × K)) (hne : pts ≠ []) (hs : (p0.1 :: p1.1 :: p2.1 :: pts.map Prod.fst).Pairwise (· < ·)) :
    cubStartMiss (p0.1, 0) (p1.1, 0) (p2.1, 0) 1 (zeros pts) ≠ 0 := by
  have h01 : p0.1 < p2.1 := (List.pairwise_cons.1 hs).1 _ (by simp)
  have h12 : p1.1 < p2.1 := (List.pairwise_cons.1 (List.pairwise_cons.1 hs).2).1 _ (by simp)
  have hs2 := (List.pairwise_cons.1 (List.pairwise_cons.1 hs).2).2
  have b0 : bend3 (p0.1, 0) (p1.1, 0) (p2.1, (0 : K)) = 0 := by simp [bend3]
  have s0 : slope3 (p0.1, 0) (p1.1, 0) (p2.1, (0 : K)) = 0 := by simp [slope3, b0]
  have hd : 0 < firstSlope (p0.1, 0) (p1.1, 0) (p2.1, (0 : K)) 1 := by
    unfold firstSlope; rw [s0]
    have := mul_pos (sub_pos.2 h01) (sub_pos.2 h12)
    linarith
  have he : 0 < firstBend (p0.1, 0) (p1.1, 0) (p2.1, (0 : K)) 1 := by
    unfold firstBend; rw [b0]
    have := sub_pos.2 h01
    have := sub_pos.2 h12
    linarith
  match pts, hne with
  | [p3], _ =>
    have h3 : 0 < p3.1 - p2.1 := sub_pos.2 ((List.pairwise_cons.1 hs2).1 _ (by simp))
    simp only [zeros, List.map_cons, List.map_nil, cubStartMiss, cubVal, sub_zero]
    have : 0 < 0 + firstSlope (p0.1, 0) (p1.1, 0) (p2.1, (0 : K)) 1 * (p3.1 - p2.1) + firstBend (p0.1, 0) (p1.1, 0) (p2.1, (0 : K)) 1 * ((p3.1 - p2.1) * (p3.1 - p2.1)) +
        1 * ((p3.1 - p2.1) * (p3.1 - p2.1) * (p3.1 - p2.1)) := by positivity
    exact this.ne'
  | p3 :: p4 :: t, _ => exact miss_ne (p3 :: p4 :: t) p2.1 _ _ (by simp) hs2 hd he

/-- the third coefficient of the first cubic is the one for which the last point is met, and no other does it -/
theorem start_iff (p0 p1 p2 : K × K) (α : K) (pts : List (K × K)) (hne : pts ≠ []) (hs : (p0.1 :: p1.1 :: p2.1 :: pts.map Prod.fst).Pairwise (· < ·)) :
    cubStartMiss p0 p1 p2 α pts = 0 ↔ α = cubStart p0 p1 p2 pts := by
  have h := startMiss_ne p0 p1 p2 pts hne hs
  unfold cubStart
  rw [startMiss_diff, startMiss_affine p0 p1 p2 α]
  constructor
  · intro h'
    field_simp
    linarith
  · rintro rfl
    field_simp
    ring

theorem start_lin (k : K) (x0 x1 x2 y0 y1 y2 z0 z1 z2 : K) (L : List (K × K × K)) :
    cubStart (x0, y0 + k * z0) (x1, y1 + k * z1) (x2, y2 + k * z2) (comb k L) =
      cubStart (x0, y0) (x1, y1) (x2, y2) (fstOf L) + k * cubStart (x0, z0) (x1, z1) (x2, z2) (sndOf L) := by
  have e : zeros (comb k L) = zeros (fstOf L) := by simp [zeros, comb, fstOf]
  have e' : zeros (sndOf L) = zeros (fstOf L) := by simp [zeros, sndOf, fstOf]
  have h := startMiss_lin k x0 x1 x2 y0 y1 y2 z0 z1 z2 0 0 L
  simp only [mul_zero, add_zero] at h
  unfold cubStart
  rw [startMiss_diff, startMiss_diff, startMiss_diff, e, e', h, add_div, mul_div_assoc]

/-- the curve is linear in the ordinates -/
theorem spline_lin (k x : K) (L : List (K × K × K)) : cubSpline (comb k L) x = cubSpline (fstOf L) x + k * cubSpline (sndOf L) x := by
  match L with
  | [] => simp [comb, fstOf, sndOf, cubSpline]
  | [p] => simp [comb, fstOf, sndOf, cubSpline]
  | [p, p'] => simp only [comb, fstOf, sndOf, List.map_cons, List.map_nil, cubSpline]; ring
  | p0 :: p1 :: p2 :: L =>
    simp only [comb, fstOf, sndOf, List.map_cons, cubSpline]
    have h1 := start_lin k p0.1 p1.1 p2.1 p0.2.1 p1.2.1 p2.2.1 p0.2.2 p1.2.2 p2.2.2 L
    have h2 := from_lin k p0.1 p1.1 p2.1 p0.2.1 p1.2.1 p2.2.1 p0.2.2 p1.2.2 p2.2.2 (cubStart (p0.1, p0.2.1) (p1.1, p1.2.1) (p2.1, p2.2.1) (fstOf L))
      (cubStart (p0.1, p0.2.2) (p1.1, p1.2.2) (p2.1, p2.2.2) (sndOf L)) x L
    rw [← h1] at h2
    exact h2

/-! ### Break points -/

/-- the break points after the start of the chain, by recursion -/
def tailBreaks : List K → List K
  | x :: x' :: x'' :: t => x :: tailBreaks (x' :: x'' :: t)
  | [_, x'] => [x']
  | [x] => [x]
  | [] => []

theorem tailBreaks_eq : ∀ (l : List K) (x x' : K), tailBreaks (x :: x' :: l) = ((x :: x' :: l).dropLast).dropLast ++ ((x :: x' :: l).getLast?).toList
  | [], x, x' => by simp [tailBreaks]
  | a :: l, x, x' => by
    have ih := tailBreaks_eq l x' a
    simp only [List.dropLast_cons_cons, List.getLast?_cons_cons] at ih ⊢
    rw [tailBreaks, ih]
    cases l with
    | nil => simp
    | cons b l => simp

theorem cubicBreaks_four (x0 x1 x2 x3 : K) : cubicBreaks [x0, x1, x2, x3] = [x0, x3] := by simp [cubicBreaks]

theorem cubicBreaks_five (x0 x1 x2 x3 x4 : K) (t : List K) : cubicBreaks (x0 :: x1 :: x2 :: x3 :: x4 :: t) = x0 :: x2 :: tailBreaks (x3 :: x4 :: t) := by
  rw [tailBreaks_eq]
  simp [cubicBreaks]

/-- slope of the chain of cubics -/
def slopeGo (m v d e : K) : List (K × K) → K → K
  | p :: p' :: p'' :: t, x =>
    let f := cubThird m v d e p.1 p.2
    if x ≤ p.1 then cubSlope m d e f x else slopeGo p.1 p.2 (cubSlope m d e f p.1) (cubBend m e f p.1) (p' :: p'' :: t) x
  | p :: _, x => cubSlope m d e (cubThird m v d e p.1 p.2) x
  | [], _ => d

/-- half the second derivative of the chain of cubics -/
def bendGo (m v d e : K) : List (K × K) → K → K
  | p :: p' :: p'' :: t, x =>
    let f := cubThird m v d e p.1 p.2
    if x ≤ p.1 then cubBend m e f x else bendGo p.1 p.2 (cubSlope m d e f p.1) (cubBend m e f p.1) (p' :: p'' :: t) x
  | p :: _, x => cubBend m e (cubThird m v d e p.1 p.2) x
  | [], _ => e

theorem third_through {m v d e x y : K} (h : m < x) : cubVal m v d e (cubThird m v d e x y) x = y := by
  have : x - m ≠ 0 := (sub_pos.2 h).ne'
  unfold cubVal cubThird
  field_simp
  ring

theorem go_left (m v d e : K) (p : K × K) (pts : List (K × K)) (hs : (m :: (p :: pts).map Prod.fst).Pairwise (· < ·)) :
    cubGo m v d e (p :: pts) m = v ∧ slopeGo m v d e (p :: pts) m = d ∧ bendGo m v d e (p :: pts) m = e := by
  match pts with
  | [] => simp [cubGo, slopeGo, bendGo, cubVal, cubSlope, cubBend]
  | [p'] => simp [cubGo, slopeGo, bendGo, cubVal, cubSlope, cubBend]
  | p' :: p'' :: t =>
    have : m ≤ p.1 := ((List.pairwise_cons.1 hs).1 _ (by simp)).le
    simp [cubGo, slopeGo, bendGo, this, cubVal, cubSlope, cubBend]

/-- a cubic in terms of its value, slope and curvature at the left end of a piece -/
theorem piece_of_cubic {s s' s'' : K → K} {a b m v d e f : K} (hab : a ≤ b)
    (h : ∀ t, a ≤ t → t ≤ b → s t = cubVal m v d e f t ∧ s' t = cubSlope m d e f t ∧ s'' t = 2 * cubBend m e f t) : CubicPiece s s' s'' a b := by
  refine ⟨f, fun t h1 h2 => ?_⟩
  rw [(h t h1 h2).1, (h t h1 h2).2.1, (h t h1 h2).2.2, (h a le_rfl hab).1, (h a le_rfl hab).2.1, (h a le_rfl hab).2.2]
  unfold cubVal cubSlope cubBend
  refine ⟨by ring, by ring, by ring⟩

/-- the chain of cubics is a cubic between neighbouring break points -/
theorem chain_go (s s' s'' : K → K) : ∀ (pts : List (K × K)) (m v d e : K), (m :: pts.map Prod.fst).Pairwise (· < ·) →
    (∀ t, m ≤ t → s t = cubGo m v d e pts t ∧ s' t = slopeGo m v d e pts t ∧ s'' t = 2 * bendGo m v d e pts t) → (m :: tailBreaks (pts.map Prod.fst)).IsChain (CubicPiece s s' s'')
  | [], m, v, d, e, _, _ => by simp [tailBreaks]
  | [p], m, v, d, e, hs, h => by
    simp only [List.map_cons, List.map_nil, tailBreaks, List.isChain_cons_cons, List.IsChain.singleton, and_true]
    have h1 : m < p.1 := (List.pairwise_cons.1 hs).1 _ (by simp)
    exact piece_of_cubic h1.le (fun t ht _ => h t ht)
  | [p, p'], m, v, d, e, hs, h => by
    simp only [List.map_cons, List.map_nil, tailBreaks, List.isChain_cons_cons, List.IsChain.singleton, and_true]
    have h1 : m < p'.1 := (List.pairwise_cons.1 hs).1 _ (by simp)
    exact piece_of_cubic h1.le (fun t ht _ => h t ht)
  | p :: p' :: p'' :: t, m, v, d, e, hs, h => by
    have h1 : m < p.1 := (List.pairwise_cons.1 hs).1 _ (by simp)
    have h3 : (p.1 :: (p' :: p'' :: t).map Prod.fst).Pairwise (· < ·) := (List.pairwise_cons.1 hs).2
    simp only [List.map_cons, tailBreaks, List.isChain_cons_cons]
    constructor
    · refine piece_of_cubic (m := m) (v := v) (d := d) (e := e) (f := cubThird m v d e p.1 p.2) h1.le (fun u h4 h5 => ?_)
      have := h u h4
      simpa only [cubGo, slopeGo, bendGo, if_pos h5] using this
    · refine chain_go s s' s'' (p' :: p'' :: t) p.1 p.2 (cubSlope m d e (cubThird m v d e p.1 p.2) p.1) (cubBend m e (cubThird m v d e p.1 p.2) p.1) h3 (fun u hu => ?_)
      obtain ⟨g1, g2, g3⟩ := h u (h1.le.trans hu)
      rw [g1, g2, g3]
      rcases hu.lt_or_eq with hu | rfl
      · simp only [cubGo, slopeGo, bendGo, if_neg (not_le.2 hu), and_self]
      · obtain ⟨k1, k2, k3⟩ := go_left p.1 p.2 (cubSlope m d e (cubThird m v d e p.1 p.2) p.1) (cubBend m e (cubThird m v d e p.1 p.2) p.1) p' (p'' :: t) h3
        rw [k1, k2, k3]
        simp only [cubGo, slopeGo, bendGo, le_refl, if_true, and_self, and_true]
        exact third_through h1

/-- the chain of cubics goes through the points, the last one included if it is not missed -/
theorem go_through : ∀ (pts : List (K × K)) (m v d e : K), (m :: pts.map Prod.fst).Pairwise (· < ·) → cubMiss m v d e pts = 0 → ∀ p ∈ pts, cubGo m v d e pts p.1 = p.2
  | [], _, _, _, _, _, _ => by simp
  | [p], m, v, d, e, hs, _ => by
    simp only [List.mem_singleton, forall_eq, cubGo]
    exact third_through ((List.pairwise_cons.1 hs).1 _ (by simp))
  | [p, p'], m, v, d, e, hs, h => by
    simp only [List.mem_cons, List.not_mem_nil, or_false, forall_eq_or_imp, forall_eq, cubGo]
    simp only [cubMiss] at h
    exact ⟨third_through ((List.pairwise_cons.1 hs).1 _ (by simp)), sub_eq_zero.1 h⟩
  | p :: p' :: p'' :: t, m, v, d, e, hs, h => by
    have h1 : m < p.1 := (List.pairwise_cons.1 hs).1 _ (by simp)
    have h3 : (p.1 :: (p' :: p'' :: t).map Prod.fst).Pairwise (· < ·) := (List.pairwise_cons.1 hs).2
    intro q hq
    simp only [cubMiss] at h
    rcases List.mem_cons.1 hq with rfl | hq
    · simp only [cubGo, le_refl, if_true]
      exact third_through h1
    · have ih := go_through (p' :: p'' :: t) _ _ _ _ h3 h q hq
      have hlt := (List.pairwise_cons.1 h3).1 q.1 (List.mem_map.2 ⟨q, hq, rfl⟩)
      simp only [cubGo, if_neg (not_le.2 hlt)]
      exact ih

/-- on a piece the curve is the cubic fixed by its left end and one more point -/
theorem piece_cubic {s s' s'' : K → K} {a b x y : K} (h : CubicPiece s s' s'' a b) (hx : a < x) (hxb : x ≤ b) (hy : s x = y) :
    ∀ t, a ≤ t → t ≤ b → s t = cubVal a (s a) (s' a) (s'' a / 2) (cubThird a (s a) (s' a) (s'' a / 2) x y) t ∧
      s' t = cubSlope a (s' a) (s'' a / 2) (cubThird a (s a) (s' a) (s'' a / 2) x y) t ∧
      s'' t / 2 = cubBend a (s'' a / 2) (cubThird a (s a) (s' a) (s'' a / 2) x y) t := by
  obtain ⟨f, h⟩ := h
  have hf : cubThird a (s a) (s' a) (s'' a / 2) x y = f := by
    rw [← hy, (h x hx.le hxb).1]
    have : x - a ≠ 0 := (sub_pos.2 hx).ne'
    unfold cubThird
    field_simp
    ring
  intro t h1 h2
  rw [hf, (h t h1 h2).1, (h t h1 h2).2.1, (h t h1 h2).2.2]
  unfold cubVal cubSlope cubBend
  refine ⟨by ring, by ring, by ring⟩

/-- any such curve is the chain of cubics with its own slope and curvature at the start, and does not miss the last point -/
theorem of_chain (s s' s'' : K → K) : ∀ (pts : List (K × K)) (m : K), 2 ≤ pts.length → (m :: pts.map Prod.fst).Pairwise (· < ·) →
    (m :: tailBreaks (pts.map Prod.fst)).IsChain (CubicPiece s s' s'') → (∀ p ∈ pts, s p.1 = p.2) →
    cubMiss m (s m) (s' m) (s'' m / 2) pts = 0 ∧ ∀ t, m ≤ t → (∀ b ∈ (pts.map Prod.fst).getLast?, t ≤ b) → s t = cubGo m (s m) (s' m) (s'' m / 2) pts t
  | [], _, hl, _, _, _ => by simp at hl
  | [_], _, hl, _, _, _ => by simp at hl
  | [p, p'], m, _, hs, hc, hp => by
    simp only [List.map_cons, List.map_nil, tailBreaks, List.isChain_cons_cons, List.IsChain.singleton, and_true] at hc
    have h1 : m < p.1 := (List.pairwise_cons.1 hs).1 _ (by simp)
    have h2 : p.1 < p'.1 := (List.pairwise_cons.1 (List.pairwise_cons.1 hs).2).1 _ (by simp)
    have hq := piece_cubic hc h1 h2.le (hp p (by simp))
    constructor
    · simp only [cubMiss]
      rw [← (hq p'.1 (h1.trans h2).le le_rfl).1, hp p' (by simp), sub_self]
    · intro t ht hb
      simp only [List.map_cons, List.map_nil, List.getLast?_cons_cons, List.getLast?_singleton, Option.mem_def, Option.some.injEq, forall_eq'] at hb
      simp only [cubGo]
      exact (hq t ht hb).1
  | p :: p' :: p'' :: t, m, _, hs, hc, hp => by
    have h1 : m < p.1 := (List.pairwise_cons.1 hs).1 _ (by simp)
    have h3 : (p.1 :: (p' :: p'' :: t).map Prod.fst).Pairwise (· < ·) := (List.pairwise_cons.1 hs).2
    simp only [List.map_cons, tailBreaks, List.isChain_cons_cons] at hc
    obtain ⟨hc, hc'⟩ := hc
    have hq := piece_cubic hc h1 le_rfl (hp p (by simp))
    obtain ⟨q1, q2, q3⟩ := hq p.1 h1.le le_rfl
    obtain ⟨i1, i2⟩ := of_chain s s' s'' (p' :: p'' :: t) p.1 (by simp) h3 hc' (fun q hq => hp q (List.mem_cons_of_mem _ hq))
    rw [q2, q3, hp p (by simp)] at i1 i2
    constructor
    · simp only [cubMiss]
      exact i1
    · intro u hu hb
      simp only [cubGo]
      split_ifs with hle
      · exact (hq u hu hle).1
      · exact i2 u (not_le.1 hle).le (fun b hb' => hb b (by simpa using hb'))

/-- a cubic through three points: slope and curvature at the third are fixed by the points and the third coefficient -/
theorem first_fixed (p0 p1 p2 : K × K) (h01 : p0.1 < p1.1) (h12 : p1.1 < p2.1) (d e α : K)
    (h0 : cubVal p2.1 p2.2 d e α p0.1 = p0.2) (h1 : cubVal p2.1 p2.2 d e α p1.1 = p1.2) : d = firstSlope p0 p1 p2 α ∧ e = firstBend p0 p1 p2 α := by
  have a1 : p1.1 - p0.1 ≠ 0 := (sub_pos.2 h01).ne'
  have a2 : p2.1 - p1.1 ≠ 0 := (sub_pos.2 h12).ne'
  have a3 : p2.1 - p0.1 ≠ 0 := (sub_pos.2 (h01.trans h12)).ne'
  have he : e = firstBend p0 p1 p2 α := by
    unfold firstBend bend3
    rw [← h0, ← h1]
    unfold cubVal
    field_simp
    ring
  refine ⟨?_, he⟩
  unfold firstSlope slope3
  have hb : bend3 p0 p1 p2 = e - α * ((p2.1 - p0.1) + (p2.1 - p1.1)) := by rw [he]; unfold firstBend; ring
  rw [hb, ← h1]
  unfold cubVal
  field_simp
  ring

/-- the first cubic goes through the first two points -/
theorem first_through (p0 p1 p2 : K × K) (h01 : p0.1 < p1.1) (h12 : p1.1 < p2.1) (α : K) :
    cubVal p2.1 p2.2 (firstSlope p0 p1 p2 α) (firstBend p0 p1 p2 α) α p0.1 = p0.2 ∧ cubVal p2.1 p2.2 (firstSlope p0 p1 p2 α) (firstBend p0 p1 p2 α) α p1.1 = p1.2 := by
  have a1 : p1.1 - p0.1 ≠ 0 := (sub_pos.2 h01).ne'
  have a2 : p2.1 - p1.1 ≠ 0 := (sub_pos.2 h12).ne'
  have a3 : p2.1 - p0.1 ≠ 0 := (sub_pos.2 (h01.trans h12)).ne'
  unfold cubVal firstSlope firstBend slope3 bend3
  constructor
  · field_simp
    ring
  · field_simp
    ring

end Verif.Lemmas.CubicSpline
