import Verif.Model.QuadSpline
import Verif.Spec.QuadSpline
import Mathlib.Tactic.Linarith
import Mathlib.Tactic.Ring
import Mathlib.Tactic.FieldSimp
import Mathlib.Tactic.Positivity

/-!
# Lemmas about quadratic splines: linearity, and the miss of the last knot is a strictly monotone function of the first slope
-/

set_option linter.unusedSectionVars false
set_option autoImplicit false

namespace Verif.Lemmas.QuadSpline

open Verif Verif.Model Verif.Spec

variable {K : Type} [Field K] [LinearOrder K] [IsStrictOrderedRing K]

/-- abscissa with the first ordinate -/
def fstOf (L : List (K × K × K)) : List (K × K) := L.map fun p => (p.1, p.2.1)
/-- abscissa with the second ordinate -/
def sndOf (L : List (K × K × K)) : List (K × K) := L.map fun p => (p.1, p.2.2)
/-- abscissa with the first ordinate plus `k` times the second -/
def comb (k : K) (L : List (K × K × K)) : List (K × K) := L.map fun p => (p.1, p.2.1 + k * p.2.2)

theorem curv_lin (k m v v' d d' x y y' : K) :
    quadCurv m (v + k * v') (d + k * d') x (y + k * y') = quadCurv m v d x y + k * quadCurv m v' d' x y' := by
  unfold quadCurv; ring

theorem val_lin (k m v v' d d' c c' t : K) :
    quadVal m (v + k * v') (d + k * d') (c + k * c') t = quadVal m v d c t + k * quadVal m v' d' c' t := by
  unfold quadVal; ring

theorem slope_lin (k m d d' c c' t : K) : quadSlope m (d + k * d') (c + k * c') t = quadSlope m d c t + k * quadSlope m d' c' t := by
  unfold quadSlope; ring

theorem miss_lin (k : K) : ∀ (L : List (K × K × K)) (m v v' d d' : K),
    quadMiss m (v + k * v') (d + k * d') (comb k L) = quadMiss m v d (fstOf L) + k * quadMiss m v' d' (sndOf L)
  | [], m, v, v', d, d' => by simp [comb, fstOf, sndOf, quadMiss]
  | [p], m, v, v', d, d' => by simp [comb, fstOf, sndOf, quadMiss]
  | [p, p'], m, v, v', d, d' => by
    simp only [comb, fstOf, sndOf, List.map_cons, List.map_nil, quadMiss, curv_lin, val_lin]; ring
  | p :: p' :: p'' :: t, m, v, v', d, d' => by
    have ih := miss_lin k (p' :: p'' :: t) ((p.1 + p'.1) / 2)
    simp only [comb, fstOf, sndOf, List.map_cons] at ih
    simp only [comb, fstOf, sndOf, List.map_cons, quadMiss, curv_lin, val_lin, slope_lin]
    exact ih _ _ _ _

theorem go_lin (k x : K) : ∀ (L : List (K × K × K)) (m v v' d d' : K),
    quadGo m (v + k * v') (d + k * d') (comb k L) x = quadGo m v d (fstOf L) x + k * quadGo m v' d' (sndOf L) x
  | [], m, v, v', d, d' => by simp [comb, fstOf, sndOf, quadGo]
  | [p], m, v, v', d, d' => by simp only [comb, fstOf, sndOf, List.map_cons, List.map_nil, quadGo, curv_lin, val_lin]
  | [p, p'], m, v, v', d, d' => by simp only [comb, fstOf, sndOf, List.map_cons, List.map_nil, quadGo, curv_lin, val_lin]
  | p :: p' :: p'' :: t, m, v, v', d, d' => by
    have ih := go_lin k x (p' :: p'' :: t) ((p.1 + p'.1) / 2)
    simp only [comb, fstOf, sndOf, List.map_cons] at ih
    simp only [comb, fstOf, sndOf, List.map_cons, quadGo, curv_lin, val_lin, slope_lin]
    split_ifs
    · rfl
    · exact ih _ _ _ _

/-- the points with ordinate zero -/
def zeros (pts : List (K × K)) : List (K × K) := pts.map fun p => (p.1, 0)

theorem comb_zero (pts : List (K × K)) (k : K) : comb k (pts.map fun p => (p.1, p.2, 0)) = pts := by
  simp [comb, Function.comp_def]

theorem miss_affine (m v d : K) (pts : List (K × K)) : quadMiss m v d pts = quadMiss m v 0 pts + d * quadMiss m 0 1 (zeros pts) := by
  have h := miss_lin d (pts.map fun p => (p.1, p.2, 0)) m v 0 0 1
  rw [comb_zero] at h
  simpa [fstOf, sndOf, zeros, Function.comp_def] using h

theorem go_affine (m v d x : K) (pts : List (K × K)) : quadGo m v d pts x = quadGo m v 0 pts x + d * quadGo m 0 1 (zeros pts) x := by
  have h := go_lin d x (pts.map fun p => (p.1, p.2, 0)) m v 0 0 1
  rw [comb_zero] at h
  simpa [fstOf, sndOf, zeros, Function.comp_def] using h

theorem miss_diff (m v : K) (pts : List (K × K)) : quadMiss m v 0 pts - quadMiss m v 1 pts = -quadMiss m 0 1 (zeros pts) := by
  rw [miss_affine m v 1]; ring

/-- with all ordinates zero the miss is odd -/
theorem miss_neg (m v d : K) (pts : List (K × K)) : quadMiss m (-v) (-d) (zeros pts) = -quadMiss m v d (zeros pts) := by
  have h := miss_lin (-1) (pts.map fun p => (p.1, 0, 0)) m 0 v 0 d
  have h0 : quadMiss m 0 0 (zeros pts) = 0 := by
    have := miss_lin (-1) (pts.map fun p => (p.1, 0, 0)) m 0 0 0 0
    simp only [comb, fstOf, sndOf, List.map_map, Function.comp_def, mul_zero, add_zero] at this
    simp only [zeros]
    linarith
  simp only [comb, fstOf, sndOf, List.map_map, Function.comp_def, zero_add, neg_mul, one_mul, neg_zero] at h
  simp only [zeros] at h0 ⊢
  rw [h, h0, zero_add]

/-- a parabola that is not negative and rises at `m`, and vanishes at `x > m`, is negative and falls everywhere to the right of `x` -/
theorem fall {m v d x t : K} (hv : 0 ≤ v) (hd : 0 < d) (hx : m < x) (ht : x < t) :
    quadVal m v d (quadCurv m v d x 0) t < 0 ∧ quadSlope m d (quadCurv m v d x 0) t < 0 := by
  have h : 0 < x - m := sub_pos.2 hx
  have hτ : x - m < t - m := by linarith
  unfold quadVal quadSlope quadCurv
  generalize x - m = a at *
  generalize t - m = b at *
  have ha : a ≠ 0 := h.ne'
  have hb : 0 < b := h.trans hτ
  have e1 : v + d * b + (0 - v - d * a) / (a * a) * (b * b) = -((v * ((b - a) * (b + a)) + d * b * a * (b - a)) / (a * a)) := by
    field_simp; ring
  have e2 : d + 2 * ((0 - v - d * a) / (a * a)) * b = -((2 * v * b + d * a * (2 * b - a)) / (a * a)) := by
    field_simp; ring
  have p1 : 0 < b - a := sub_pos.2 hτ
  have p2 : 0 < 2 * b - a := by linarith
  rw [e1, e2]
  constructor
  · rw [neg_lt_zero]
    positivity
  · rw [neg_lt_zero]
    positivity

/-- the miss with all ordinates zero does not vanish -/
theorem miss_ne : ∀ (pts : List (K × K)) (m v d : K), 2 ≤ pts.length → (m :: pts.map Prod.fst).Pairwise (· < ·) → 0 ≤ v → 0 < d →
    quadMiss m v d (zeros pts) ≠ 0
  | [], _, _, _, hl, _, _, _ => by simp at hl
  | [_], _, _, _, hl, _, _, _ => by simp at hl
  | [p, p'], m, v, d, _, hs, hv, hd => by
    simp only [List.map_cons, List.map_nil, List.pairwise_cons, List.mem_cons, forall_eq_or_imp] at hs
    simp only [zeros, List.map_cons, List.map_nil, quadMiss, sub_zero]
    exact (fall hv hd hs.1.1 hs.2.1.1).1.ne
  | p :: p' :: p'' :: t, m, v, d, _, hs, hv, hd => by
    simp only [List.map_cons, List.pairwise_cons, List.mem_cons, forall_eq_or_imp] at hs
    have h1 : m < p.1 := hs.1.1
    have h2 : p.1 < p'.1 := hs.2.1.1
    obtain ⟨f1, f2⟩ := fall hv hd h1 (show p.1 < (p.1 + p'.1) / 2 by linarith)
    have ih := miss_ne (p' :: p'' :: t) ((p.1 + p'.1) / 2) _ _ (by simp)
      (by
        simp only [List.map_cons, List.pairwise_cons, List.mem_cons, forall_eq_or_imp]
        have g : (p.1 + p'.1) / 2 < p'.1 := by linarith
        exact ⟨⟨g, g.trans hs.2.2.1.1, fun a ha => g.trans (hs.2.2.1.2 a ha)⟩, hs.2.2⟩) (neg_pos.2 f1).le (neg_pos.2 f2)
    rw [miss_neg] at ih
    simpa [zeros, quadMiss] using ih

/-- the slope at the first knot is the one for which the last knot is met, and no other does it -/
theorem start_iff (x0 y0 d : K) (pts : List (K × K)) (hl : 2 ≤ pts.length) (hs : (x0 :: pts.map Prod.fst).Pairwise (· < ·)) :
    quadMiss x0 y0 d pts = 0 ↔ d = quadStart x0 y0 pts := by
  have h := miss_ne pts x0 0 1 hl hs le_rfl one_pos
  unfold quadStart
  rw [miss_diff, miss_affine x0 y0 d]
  constructor
  · intro h'
    field_simp
    linarith
  · rintro rfl
    field_simp
    ring

theorem start_lin (k x0 y0 y0' : K) (L : List (K × K × K)) :
    quadStart x0 (y0 + k * y0') (comb k L) = quadStart x0 y0 (fstOf L) + k * quadStart x0 y0' (sndOf L) := by
  have e : zeros (comb k L) = zeros (fstOf L) := by simp [zeros, comb, fstOf]
  have e' : zeros (sndOf L) = zeros (fstOf L) := by simp [zeros, sndOf, fstOf]
  have h := miss_lin k L x0 y0 y0' 0 0
  simp only [mul_zero, add_zero] at h
  unfold quadStart
  rw [miss_diff, miss_diff, miss_diff, e, e', h, add_div, mul_div_assoc]

/-- the curve is linear in the ordinates -/
theorem spline_lin (k x : K) (L : List (K × K × K)) : quadSpline (comb k L) x = quadSpline (fstOf L) x + k * quadSpline (sndOf L) x := by
  match L with
  | [] => simp [comb, fstOf, sndOf, quadSpline]
  | p :: L =>
    simp only [comb, fstOf, sndOf, List.map_cons, quadSpline]
    have h1 := start_lin k p.1 p.2.1 p.2.2 L
    have h2 := go_lin k x L p.1 p.2.1 p.2.2 (quadStart p.1 p.2.1 (fstOf L)) (quadStart p.1 p.2.2 (sndOf L))
    rw [← h1] at h2
    exact h2

/-! ### Break points -/

/-- the break points after the start of the chain, by recursion -/
def tailBreaks : List K → List K
  | x :: x' :: x'' :: t => (x + x') / 2 :: tailBreaks (x' :: x'' :: t)
  | [_, x'] => [x']
  | [x] => [x]
  | [] => []

theorem breakPoints_cons (x0 x1 : K) (t : List K) : breakPoints (x0 :: x1 :: t) = x0 :: tailBreaks (x1 :: t) := by
  have key : ∀ (t : List K) (x1 : K), (midpoints (x1 :: t)).dropLast ++ ((x1 :: t).getLast?).toList = tailBreaks (x1 :: t) := by
    intro t
    induction t with
    | nil => intro x1; simp [midpoints, tailBreaks]
    | cons a t ih =>
      intro x1
      cases t with
      | nil => simp [midpoints, tailBreaks]
      | cons b t =>
        have := ih a
        simp only [midpoints, List.tail_cons, List.zipWith_cons_cons, List.dropLast_cons_cons, List.cons_append, List.getLast?_cons_cons, tailBreaks] at this ⊢
        rw [this]
  rw [← key]
  simp [breakPoints, midpoints]

/-- slope of the chain of parabolas -/
def slopeGo (m v d : K) : List (K × K) → K → K
  | p :: p' :: p'' :: t, x =>
    let c := quadCurv m v d p.1 p.2
    let m' := (p.1 + p'.1) / 2
    if x ≤ m' then quadSlope m d c x else slopeGo m' (quadVal m v d c m') (quadSlope m d c m') (p' :: p'' :: t) x
  | p :: _, x => quadSlope m d (quadCurv m v d p.1 p.2) x
  | [], _ => d

/-- two neighbouring break points: one parabola between them -/
def Piece (s s' : K → K) (a b : K) : Prop :=
  ∃ c, ∀ t, a ≤ t → t ≤ b → s t = s a + s' a * (t - a) + c * (t - a) ^ 2 ∧ s' t = s' a + 2 * c * (t - a)

theorem go_left (m v d : K) (p : K × K) (pts : List (K × K)) (hs : (m :: (p :: pts).map Prod.fst).Pairwise (· < ·)) :
    quadGo m v d (p :: pts) m = v ∧ slopeGo m v d (p :: pts) m = d := by
  match pts with
  | [] => simp [quadGo, slopeGo, quadVal, quadSlope]
  | [p'] => simp [quadGo, slopeGo, quadVal, quadSlope]
  | p' :: p'' :: t =>
    simp only [List.map_cons, List.pairwise_cons, List.mem_cons, forall_eq_or_imp] at hs
    have : m ≤ (p.1 + p'.1) / 2 := by linarith [hs.1.1, hs.1.2.1]
    simp [quadGo, slopeGo, this, quadVal, quadSlope]

theorem sorted_step {m : K} {p p' p'' : K × K} {t : List (K × K)} (hs : (m :: (p :: p' :: p'' :: t).map Prod.fst).Pairwise (· < ·)) :
    m < p.1 ∧ p.1 < (p.1 + p'.1) / 2 ∧ ((p.1 + p'.1) / 2 :: (p' :: p'' :: t).map Prod.fst).Pairwise (· < ·) := by
  simp only [List.map_cons, List.pairwise_cons, List.mem_cons, forall_eq_or_imp] at hs ⊢
  have h2 : p.1 < p'.1 := hs.2.1.1
  have g : (p.1 + p'.1) / 2 < p'.1 := by linarith
  exact ⟨hs.1.1, by linarith, ⟨g, g.trans hs.2.2.1.1, fun a ha => g.trans (hs.2.2.1.2 a ha)⟩, hs.2.2⟩

/-- the chain of parabolas is a parabola between neighbouring break points -/
theorem chain_go (s s' : K → K) : ∀ (pts : List (K × K)) (m v d : K), (m :: pts.map Prod.fst).Pairwise (· < ·) →
    (∀ t, m ≤ t → s t = quadGo m v d pts t ∧ s' t = slopeGo m v d pts t) → (m :: tailBreaks (pts.map Prod.fst)).IsChain (Piece s s')
  | [], m, v, d, _, _ => by simp [tailBreaks]
  | [p], m, v, d, _, h => by
    simp only [List.map_cons, List.map_nil, tailBreaks, List.isChain_cons_cons, List.IsChain.singleton, and_true]
    refine ⟨quadCurv m v d p.1 p.2, fun t h1 _ => ?_⟩
    simp only [(h t h1).1, (h t h1).2, (h m le_rfl).1, (h m le_rfl).2, quadGo, slopeGo, quadVal, quadSlope]
    constructor <;> ring
  | [p, p'], m, v, d, _, h => by
    simp only [List.map_cons, List.map_nil, tailBreaks, List.isChain_cons_cons, List.IsChain.singleton, and_true]
    refine ⟨quadCurv m v d p.1 p.2, fun t h1 _ => ?_⟩
    simp only [(h t h1).1, (h t h1).2, (h m le_rfl).1, (h m le_rfl).2, quadGo, slopeGo, quadVal, quadSlope]
    constructor <;> ring
  | p :: p' :: p'' :: t, m, v, d, hs, h => by
    obtain ⟨h1, h2, h3⟩ := sorted_step hs
    simp only [List.map_cons, tailBreaks, List.isChain_cons_cons]
    constructor
    · refine ⟨quadCurv m v d p.1 p.2, fun u h4 h5 => ?_⟩
      simp only [(h u h4).1, (h u h4).2, (h m le_rfl).1, (h m le_rfl).2, quadGo, slopeGo, if_pos h5, if_pos (h1.trans h2).le, quadVal, quadSlope]
      constructor <;> ring
    · refine chain_go s s' (p' :: p'' :: t) _ (quadVal m v d (quadCurv m v d p.1 p.2) ((p.1 + p'.1) / 2)) (quadSlope m d (quadCurv m v d p.1 p.2) ((p.1 + p'.1) / 2)) h3 (fun u hu => ?_)
      rw [(h u (by linarith)).1, (h u (by linarith)).2]
      rcases hu.lt_or_eq with hu | rfl
      · simp only [quadGo, slopeGo, if_neg (not_le.2 hu), and_self]
      · obtain ⟨g1, g2⟩ := go_left _ (quadVal m v d (quadCurv m v d p.1 p.2) ((p.1 + p'.1) / 2)) (quadSlope m d (quadCurv m v d p.1 p.2) ((p.1 + p'.1) / 2)) p' (p'' :: t) h3
        rw [g1, g2]
        simp only [quadGo, slopeGo, le_refl, if_true, and_self]

theorem curv_through {m v d x y : K} (h : m < x) : quadVal m v d (quadCurv m v d x y) x = y := by
  have : x - m ≠ 0 := (sub_pos.2 h).ne'
  unfold quadVal quadCurv
  field_simp
  ring

/-- the chain of parabolas goes through the knots, the last one included if it is not missed -/
theorem go_through : ∀ (pts : List (K × K)) (m v d : K), (m :: pts.map Prod.fst).Pairwise (· < ·) → quadMiss m v d pts = 0 → ∀ p ∈ pts, quadGo m v d pts p.1 = p.2
  | [], _, _, _, _, _ => by simp
  | [p], m, v, d, hs, _ => by
    simp only [List.map_cons, List.map_nil, List.pairwise_cons, List.mem_cons, forall_eq_or_imp] at hs
    simp only [List.mem_singleton, forall_eq, quadGo]
    exact curv_through hs.1.1
  | [p, p'], m, v, d, hs, h => by
    simp only [List.map_cons, List.map_nil, List.pairwise_cons, List.mem_cons, forall_eq_or_imp] at hs
    simp only [List.mem_cons, List.not_mem_nil, or_false, forall_eq_or_imp, forall_eq, quadGo]
    simp only [quadMiss] at h
    exact ⟨curv_through hs.1.1, sub_eq_zero.1 h⟩
  | p :: p' :: p'' :: t, m, v, d, hs, h => by
    obtain ⟨h1, h2, h3⟩ := sorted_step hs
    intro q hq
    simp only [quadMiss] at h
    rcases List.mem_cons.1 hq with rfl | hq
    · simp only [quadGo, if_pos h2.le]
      exact curv_through h1
    · have ih := go_through (p' :: p'' :: t) _ _ _ h3 h q hq
      have hlt := (List.pairwise_cons.1 h3).1 q.1 (List.mem_map.2 ⟨q, hq, rfl⟩)
      simp only [quadGo, if_neg (not_le.2 hlt)]
      exact ih

/-- any such curve is the chain of parabolas with its own slope at the start, and does not miss the last knot -/
theorem of_chain (s s' : K → K) : ∀ (pts : List (K × K)) (m : K), pts ≠ [] → (m :: pts.map Prod.fst).Pairwise (· < ·) →
    (m :: tailBreaks (pts.map Prod.fst)).IsChain (Piece s s') → (∀ p ∈ pts, s p.1 = p.2) →
    quadMiss m (s m) (s' m) pts = 0 ∧ ∀ t, m ≤ t → (∀ b ∈ (pts.map Prod.fst).getLast?, t ≤ b) → s t = quadGo m (s m) (s' m) pts t
  | [], _, hne, _, _, _ => absurd rfl hne
  | [p], m, _, hs, hc, hp => by
    simp only [List.map_cons, List.map_nil, tailBreaks, List.isChain_cons_cons, List.IsChain.singleton, and_true, List.pairwise_cons, List.mem_cons, forall_eq_or_imp] at hc hs
    obtain ⟨c, hc⟩ := hc
    have h1 : m < p.1 := hs.1.1
    have hcc : quadCurv m (s m) (s' m) p.1 p.2 = c := by
      rw [← hp p (by simp), (hc p.1 h1.le le_rfl).1]
      have : p.1 - m ≠ 0 := (sub_pos.2 h1).ne'
      unfold quadCurv
      field_simp
      ring
    refine ⟨rfl, fun t ht hb => ?_⟩
    simp only [List.map_cons, List.map_nil, List.getLast?_singleton, Option.mem_def, Option.some.injEq, forall_eq'] at hb
    simp only [quadGo, hcc, quadVal]
    rw [(hc t ht hb).1]
    ring
  | [p, p'], m, _, hs, hc, hp => by
    simp only [List.map_cons, List.map_nil, tailBreaks, List.isChain_cons_cons, List.IsChain.singleton, and_true, List.pairwise_cons, List.mem_cons, forall_eq_or_imp] at hc hs
    obtain ⟨c, hc⟩ := hc
    have h1 : m < p.1 := hs.1.1
    have h2 : p.1 < p'.1 := hs.2.1.1
    have hcc : quadCurv m (s m) (s' m) p.1 p.2 = c := by
      rw [← hp p (by simp), (hc p.1 h1.le h2.le).1]
      have : p.1 - m ≠ 0 := (sub_pos.2 h1).ne'
      unfold quadCurv
      field_simp
      ring
    constructor
    · simp only [quadMiss, hcc, quadVal]
      rw [← hp p' (by simp), (hc p'.1 (h1.trans h2).le le_rfl).1]
      ring
    · intro t ht hb
      simp only [List.map_cons, List.map_nil, List.getLast?_cons_cons, List.getLast?_singleton, Option.mem_def, Option.some.injEq, forall_eq'] at hb
      simp only [quadGo, hcc, quadVal]
      rw [(hc t ht hb).1]
      ring
  | p :: p' :: p'' :: t, m, _, hs, hc, hp => by
    obtain ⟨h1, h2, h3⟩ := sorted_step hs
    simp only [List.map_cons, tailBreaks, List.isChain_cons_cons] at hc
    obtain ⟨⟨c, hc⟩, hc'⟩ := hc
    have hcc : quadCurv m (s m) (s' m) p.1 p.2 = c := by
      rw [← hp p (by simp), (hc p.1 h1.le h2.le).1]
      have : p.1 - m ≠ 0 := (sub_pos.2 h1).ne'
      unfold quadCurv
      field_simp
      ring
    have hv : quadVal m (s m) (s' m) c ((p.1 + p'.1) / 2) = s ((p.1 + p'.1) / 2) := by
      rw [(hc _ (h1.trans h2).le le_rfl).1, quadVal]; ring
    have hd : quadSlope m (s' m) c ((p.1 + p'.1) / 2) = s' ((p.1 + p'.1) / 2) := by
      rw [(hc _ (h1.trans h2).le le_rfl).2, quadSlope]
    obtain ⟨i1, i2⟩ := of_chain s s' (p' :: p'' :: t) ((p.1 + p'.1) / 2) (by simp) h3 hc' (fun q hq => hp q (List.mem_cons_of_mem _ hq))
    constructor
    · simp only [quadMiss, hcc, hv, hd]
      exact i1
    · intro u hu hb
      simp only [quadGo, hcc, hv, hd]
      split_ifs with hle
      · rw [(hc u hu hle).1, quadVal]; ring
      · exact i2 u (not_le.1 hle).le (fun b hb' => hb b (by simpa using hb'))

end Verif.Lemmas.QuadSpline
