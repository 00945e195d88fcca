import Verif.Model.Splrep
import Verif.Lemmas.CubicSpline
import Verif.Props.Spline

/-!
# Lemmas about the B-spline representation
-/

set_option linter.unusedSectionVars false
set_option autoImplicit false

namespace Verif.Lemmas.Splrep

open Verif Verif.Np Verif.Model Verif.Spec Verif.Lemmas.CubicSpline Verif.Lemmas.Spline Verif.Props.Spline

variable {K : Type} [Field K] [LinearOrder K] [IsStrictOrderedRing K]

theorem polar_diag (c : Cubic K) (x : K) : c.polar x x x = c.val x := by
  unfold Cubic.polar Cubic.val cubVal
  ring

/-- the polar form is affine -/
theorem polar_affine (c : Cubic K) (p q x u v : K) (h : p < q) : c.polar q u v * ((x - p) / (q - p)) + c.polar p u v * ((q - x) / (q - p)) = c.polar x u v := by
  have : q - p ≠ 0 := (sub_pos.2 h).ne'
  unfold Cubic.polar
  field_simp
  ring

theorem polar_rot (c : Cubic K) (x y z : K) : c.polar x y z = c.polar y z x := by
  unfold Cubic.polar
  ring

theorem polar_swap (c : Cubic K) (x y z : K) : c.polar x y z = c.polar y x z := by
  unfold Cubic.polar
  ring

/-- two cubics fit together at the left end of the second -/
def Joins (a b : Cubic K) : Prop := b.v = a.val b.m ∧ b.d = cubSlope a.m a.d a.e a.f b.m ∧ b.e = cubBend a.m a.e a.f b.m

theorem polar_join {a b : Cubic K} (h : Joins a b) (u v : K) : a.polar b.m u v = b.polar b.m u v := by
  obtain ⟨h1, h2, h3⟩ := h
  unfold Cubic.polar
  rw [h1, h2, h3]
  unfold Cubic.val cubVal cubSlope cubBend
  field_simp
  ring

/-- **Polynomials in terms of B-splines**: the B-splines of an interval with the polar form at the knots as coefficients give the polynomial. -/
theorem deBoor (t : ℕ → K) (a : ℕ) (c : Cubic K) (x : K) (hm : ∀ i j, i ≤ j → j ≤ a + 6 → t i ≤ t j) (hl : t (a + 3) < t (a + 4)) :
    c.polar (t (a + 1)) (t (a + 2)) (t (a + 3)) * bspl t (a + 3) 3 a x + c.polar (t (a + 2)) (t (a + 3)) (t (a + 4)) * bspl t (a + 3) 3 (a + 1) x +
      c.polar (t (a + 3)) (t (a + 4)) (t (a + 5)) * bspl t (a + 3) 3 (a + 2) x + c.polar (t (a + 4)) (t (a + 5)) (t (a + 6)) * bspl t (a + 3) 3 (a + 3) x = c.val x := by
  have lt : ∀ i j, i ≤ a + 3 → a + 4 ≤ j → j ≤ a + 6 → t i < t j := fun i j h1 h2 h3 => (hm i _ h1 (by omega)).trans_lt (hl.trans_le (hm _ j h2 h3))
  have z1 : bspl t (a + 3) 2 a x = 0 := bspl_support _ _ _ _ _ (by omega)
  have z2 : bspl t (a + 3) 2 (a + 4) x = 0 := bspl_support _ _ _ _ _ (by omega)
  have z3 : bspl t (a + 3) 1 (a + 1) x = 0 := bspl_support _ _ _ _ _ (by omega)
  have z4 : bspl t (a + 3) 1 (a + 4) x = 0 := bspl_support _ _ _ _ _ (by omega)
  have z5 : bspl t (a + 3) 0 (a + 2) x = 0 := bspl_support _ _ _ _ _ (by omega)
  have z6 : bspl t (a + 3) 0 (a + 4) x = 0 := bspl_support _ _ _ _ _ (by omega)
  have o : bspl t (a + 3) 0 (a + 3) x = 1 := by simp [bspl]
  -- degree three to degree two
  have s1 := polar_affine c (t (a + 1)) (t (a + 4)) x (t (a + 2)) (t (a + 3)) (lt _ _ (by omega) (by omega) (by omega))
  have s2 := polar_affine c (t (a + 2)) (t (a + 5)) x (t (a + 3)) (t (a + 4)) (lt _ _ (by omega) (by omega) (by omega))
  have s3 := polar_affine c (t (a + 3)) (t (a + 6)) x (t (a + 4)) (t (a + 5)) (lt _ _ (by omega) (by omega) (by omega))
  have s4 := polar_affine c (t (a + 2)) (t (a + 4)) x x (t (a + 3)) (lt _ _ (by omega) (by omega) (by omega))
  have s5 := polar_affine c (t (a + 3)) (t (a + 5)) x x (t (a + 4)) (lt _ _ (by omega) (by omega) (by omega))
  have s6 := polar_affine c (t (a + 3)) (t (a + 4)) x x x hl
  rw [polar_diag] at s6
  have r1 : c.polar (t (a + 2)) (t (a + 3)) (t (a + 4)) = c.polar (t (a + 4)) (t (a + 2)) (t (a + 3)) := by rw [polar_rot, polar_rot]
  have r2 : c.polar (t (a + 3)) (t (a + 4)) (t (a + 5)) = c.polar (t (a + 5)) (t (a + 3)) (t (a + 4)) := by rw [polar_rot, polar_rot]
  have r3 : c.polar (t (a + 4)) (t (a + 5)) (t (a + 6)) = c.polar (t (a + 6)) (t (a + 4)) (t (a + 5)) := by rw [polar_rot, polar_rot]
  have d3 : ∀ m, bspl t (a + 3) 3 m x = (x - t m) / (t (m + 3) - t m) * bspl t (a + 3) 2 m x + (t (m + 4) - x) / (t (m + 4) - t (m + 1)) * bspl t (a + 3) 2 (m + 1) x := fun m => rfl
  have d2 : ∀ m, bspl t (a + 3) 2 m x = (x - t m) / (t (m + 2) - t m) * bspl t (a + 3) 1 m x + (t (m + 3) - x) / (t (m + 3) - t (m + 1)) * bspl t (a + 3) 1 (m + 1) x := fun m => rfl
  have d1 : ∀ m, bspl t (a + 3) 1 m x = (x - t m) / (t (m + 1) - t m) * bspl t (a + 3) 0 m x + (t (m + 2) - x) / (t (m + 2) - t (m + 1)) * bspl t (a + 3) 0 (m + 1) x := fun m => rfl
  have e3 : c.polar (t (a + 1)) (t (a + 2)) (t (a + 3)) * bspl t (a + 3) 3 a x + c.polar (t (a + 2)) (t (a + 3)) (t (a + 4)) * bspl t (a + 3) 3 (a + 1) x +
      c.polar (t (a + 3)) (t (a + 4)) (t (a + 5)) * bspl t (a + 3) 3 (a + 2) x + c.polar (t (a + 4)) (t (a + 5)) (t (a + 6)) * bspl t (a + 3) 3 (a + 3) x =
      c.polar x (t (a + 2)) (t (a + 3)) * bspl t (a + 3) 2 (a + 1) x + c.polar x (t (a + 3)) (t (a + 4)) * bspl t (a + 3) 2 (a + 2) x +
        c.polar x (t (a + 4)) (t (a + 5)) * bspl t (a + 3) 2 (a + 3) x := by
    rw [d3 a, d3 (a + 1), d3 (a + 2), d3 (a + 3), z1, z2, ← s1, ← s2, ← s3, ← r1, ← r2, ← r3]
    ring
  have e2 : c.polar x (t (a + 2)) (t (a + 3)) * bspl t (a + 3) 2 (a + 1) x + c.polar x (t (a + 3)) (t (a + 4)) * bspl t (a + 3) 2 (a + 2) x +
        c.polar x (t (a + 4)) (t (a + 5)) * bspl t (a + 3) 2 (a + 3) x =
      c.polar x x (t (a + 3)) * bspl t (a + 3) 1 (a + 2) x + c.polar x x (t (a + 4)) * bspl t (a + 3) 1 (a + 3) x := by
    have q1 : c.polar x (t (a + 2)) (t (a + 3)) = c.polar (t (a + 2)) x (t (a + 3)) := polar_swap _ _ _ _
    have q2 : c.polar x (t (a + 3)) (t (a + 4)) = c.polar (t (a + 4)) x (t (a + 3)) := by rw [polar_rot, polar_rot]
    have q3 : c.polar (t (a + 3)) x (t (a + 4)) = c.polar (t (a + 4)) x (t (a + 3)) := by rw [polar_swap]; exact q2
    have q4 : c.polar x (t (a + 4)) (t (a + 5)) = c.polar (t (a + 5)) x (t (a + 4)) := by rw [polar_rot, polar_rot]
    rw [d2 (a + 1), d2 (a + 2), d2 (a + 3), z3, z4, ← s4, ← s5, q1, q2, q3, q4]
    ring
  have e1 : c.polar x x (t (a + 3)) * bspl t (a + 3) 1 (a + 2) x + c.polar x x (t (a + 4)) * bspl t (a + 3) 1 (a + 3) x = c.val x := by
    have q1 : c.polar x x (t (a + 3)) = c.polar (t (a + 3)) x x := by rw [polar_rot, polar_rot]
    have q2 : c.polar x x (t (a + 4)) = c.polar (t (a + 4)) x x := by rw [polar_rot, polar_rot]
    rw [d1 (a + 2), d1 (a + 3), z5, z6, o, ← s6, q1, q2]
    ring
  rw [e3, e2, e1]

/-! ### The cubics -/

theorem pieces_m : ∀ (pts : List (K × K)) (m v d e : K), 2 ≤ pts.length → (cubPieces m v d e pts).map Cubic.m = m :: ((pts.map Prod.fst).dropLast).dropLast
  | [], _, _, _, _, h => by simp at h
  | [p], _, _, _, _, h => by simp at h
  | [p, p'], m, v, d, e, _ => by simp [cubPieces]
  | p :: p' :: p'' :: t, m, v, d, e, _ => by
    have ih := pieces_m (p' :: p'' :: t) p.1 p.2 (cubSlope m d e (cubThird m v d e p.1 p.2) p.1) (cubBend m e (cubThird m v d e p.1 p.2) p.1) (by simp)
    simp only [cubPieces, List.map_cons, ih]
    cases t with
    | nil => simp
    | cons q t => simp

theorem pieces_chain : ∀ (pts : List (K × K)) (m v d e : K), (m :: pts.map Prod.fst).Pairwise (· < ·) → (cubPieces m v d e pts).IsChain Joins ∧
    ∀ c ∈ (cubPieces m v d e pts).head?, c.m = m ∧ c.v = v ∧ c.d = d ∧ c.e = e
  | [], _, _, _, _, _ => by simp [cubPieces]
  | [p], m, v, d, e, _ => by simp [cubPieces]
  | [p, p'], m, v, d, e, _ => by simp [cubPieces]
  | p :: p' :: p'' :: t, m, v, d, e, hs => by
    have h1 : m < p.1 := (List.pairwise_cons.1 hs).1 _ (by simp)
    have h3 : (p.1 :: (p' :: p'' :: t).map Prod.fst).Pairwise (· < ·) := (List.pairwise_cons.1 hs).2
    have ih := pieces_chain (p' :: p'' :: t) p.1 p.2 (cubSlope m d e (cubThird m v d e p.1 p.2) p.1) (cubBend m e (cubThird m v d e p.1 p.2) p.1) h3
    simp only [cubPieces, List.head?_cons, Option.mem_def, Option.some.injEq, forall_eq']
    refine ⟨?_, by simp⟩
    rw [List.isChain_cons]
    refine ⟨fun c hc => ?_, ih.1⟩
    obtain ⟨k1, k2, k3, k4⟩ := ih.2 c hc
    refine ⟨?_, ?_, ?_⟩
    · rw [k1, k2]; exact (third_through h1).symm
    · rw [k1, k3]
    · rw [k1, k4]

/-- the chain is evaluated with the cubic between whose ends the point lies -/
theorem go_piece (x : K) : ∀ (pts : List (K × K)) (m v d e : K), (m :: pts.map Prod.fst).Pairwise (· < ·) → ∀ (j : ℕ) (c : Cubic K), (cubPieces m v d e pts)[j]? = some c →
    (j = 0 ∨ c.m ≤ x) → (∀ c', (cubPieces m v d e pts)[j + 1]? = some c' → x ≤ c'.m) → cubGo m v d e pts x = c.val x
  | [], _, _, _, _, _, j, c, h, _, _ => by simp [cubPieces] at h
  | [p], m, v, d, e, _, j, c, h, _, _ => by
    have hj := (List.getElem?_eq_some_iff.1 h).1
    simp only [cubPieces, List.length_cons, List.length_nil, zero_add, Nat.lt_one_iff] at hj
    subst hj
    simp only [cubPieces, List.getElem?_cons_zero, Option.some.injEq] at h
    subst h
    rfl
  | [p, p'], m, v, d, e, _, j, c, h, _, _ => by
    have hj := (List.getElem?_eq_some_iff.1 h).1
    simp only [cubPieces, List.length_cons, List.length_nil, zero_add, Nat.lt_one_iff] at hj
    subst hj
    simp only [cubPieces, List.getElem?_cons_zero, Option.some.injEq] at h
    subst h
    rfl
  | p :: p' :: p'' :: t, m, v, d, e, hs, j, c, h, hx1, hx2 => by
    have h1 : m < p.1 := (List.pairwise_cons.1 hs).1 _ (by simp)
    have h3 : (p.1 :: (p' :: p'' :: t).map Prod.fst).Pairwise (· < ·) := (List.pairwise_cons.1 hs).2
    have hm := pieces_m (p' :: p'' :: t) p.1 p.2 (cubSlope m d e (cubThird m v d e p.1 p.2) p.1) (cubBend m e (cubThird m v d e p.1 p.2) p.1) (by simp)
    have ih := go_piece x (p' :: p'' :: t) p.1 p.2 (cubSlope m d e (cubThird m v d e p.1 p.2) p.1) (cubBend m e (cubThird m v d e p.1 p.2) p.1) h3
    have hg := (go_left p.1 p.2 (cubSlope m d e (cubThird m v d e p.1 p.2) p.1) (cubBend m e (cubThird m v d e p.1 p.2) p.1) p' (p'' :: t) h3).1
    simp only [cubPieces] at h hx2
    simp only [cubGo]
    generalize cubPieces p.1 p.2 (cubSlope m d e (cubThird m v d e p.1 p.2) p.1) (cubBend m e (cubThird m v d e p.1 p.2) p.1) (p' :: p'' :: t) = L at *
    cases j with
    | zero =>
      simp only [List.getElem?_cons_zero, Option.some.injEq] at h
      subst h
      cases L with
      | nil => simp at hm
      | cons c' L =>
        simp only [List.map_cons, List.cons.injEq] at hm
        have := hx2 c' (by simp)
        rw [hm.1] at this
        rw [if_pos this]
        rfl
    | succ j =>
      simp only [List.getElem?_cons_succ] at h hx2
      have hc : c.m ≤ x := hx1.resolve_left (by omega)
      have hp : p.1 ≤ c.m := by
        have : c.m ∈ L.map Cubic.m := List.mem_map.2 ⟨c, List.mem_of_getElem? h, rfl⟩
        rw [hm] at this
        rcases List.mem_cons.1 this with h' | h'
        · exact h'.ge
        · exact ((List.pairwise_cons.1 h3).1 _ (List.mem_of_mem_dropLast (List.mem_of_mem_dropLast h'))).le
      have ih' := ih j c h (Or.inr hc) hx2
      rcases (hp.trans hc).lt_or_eq with hlt | heq
      · rw [if_neg (not_le.2 hlt)]; exact ih'
      · rw [← heq, if_pos le_rfl, third_through h1]
        rw [← heq, hg] at ih'
        exact ih'

theorem sorted3 {p0 p1 p2 : K × K} {t : List (K × K)} (hs : ((p0 :: p1 :: p2 :: t).map Prod.fst).Pairwise (· < ·)) :
    p0.1 < p1.1 ∧ p1.1 < p2.1 ∧ (p2.1 :: t.map Prod.fst).Pairwise (· < ·) := by
  simp only [List.map_cons] at hs
  exact ⟨(List.pairwise_cons.1 hs).1 _ (by simp), (List.pairwise_cons.1 (List.pairwise_cons.1 hs).2).1 _ (by simp), (List.pairwise_cons.1 (List.pairwise_cons.1 hs).2).2⟩

/-- left ends of the cubics after the first: the inner break points -/
theorem all_m (pts : List (K × K)) (hn : 4 ≤ pts.length) : ∃ c L, cubAll pts = c :: L ∧ L.map Cubic.m = (((pts.map Prod.fst).drop 2).dropLast).dropLast := by
  match pts, hn with
  | [p0, p1, p2, p3], _ => exact ⟨_, _, rfl, by simp [cubRest]⟩
  | p0 :: p1 :: p2 :: p3 :: p4 :: t, _ =>
    refine ⟨_, _, rfl, ?_⟩
    simp only [cubRest]
    rw [pieces_m _ _ _ _ _ (by simp)]
    simp

theorem all_chain (pts : List (K × K)) (hs : (pts.map Prod.fst).Pairwise (· < ·)) : (cubAll pts).IsChain Joins := by
  match pts with
  | [] => simp [cubAll]
  | [p0] => simp [cubAll]
  | [p0, p1] => simp [cubAll]
  | [p0, p1, p2] => simp [cubAll, cubRest]
  | [p0, p1, p2, p3] => simp [cubAll, cubRest]
  | p0 :: p1 :: p2 :: p3 :: p4 :: t =>
    obtain ⟨-, -, hs2⟩ := sorted3 hs
    have h := pieces_chain (p3 :: p4 :: t) p2.1 p2.2 (firstSlope p0 p1 p2 (cubStart p0 p1 p2 (p3 :: p4 :: t))) (firstBend p0 p1 p2 (cubStart p0 p1 p2 (p3 :: p4 :: t))) hs2
    simp only [cubAll, cubRest]
    rw [List.isChain_cons]
    refine ⟨fun c hc => ?_, h.1⟩
    obtain ⟨k1, k2, k3, k4⟩ := h.2 c hc
    refine ⟨?_, ?_, ?_⟩
    · rw [k1, k2]; simp [Cubic.val, cubVal]
    · rw [k1, k3]; simp [cubSlope]
    · rw [k1, k4]; simp [cubBend]

/-- the spline is evaluated with the cubic between whose ends the point lies -/
theorem spline_piece (x : K) (pts : List (K × K)) (hn : 4 ≤ pts.length) (hs : (pts.map Prod.fst).Pairwise (· < ·)) (j : ℕ) (c : Cubic K) (h : (cubAll pts)[j]? = some c)
    (hx1 : j = 0 ∨ c.m ≤ x) (hx2 : ∀ c', (cubAll pts)[j + 1]? = some c' → x ≤ c'.m) : cubSpline pts x = c.val x := by
  match pts, hn with
  | [p0, p1, p2, p3], _ =>
    have hj := (List.getElem?_eq_some_iff.1 h).1
    simp only [cubAll, cubRest, List.length_cons, List.length_nil, zero_add, Nat.lt_one_iff] at hj
    subst hj
    simp only [cubAll, cubRest, List.getElem?_cons_zero, Option.some.injEq] at h
    subst h
    rfl
  | p0 :: p1 :: p2 :: p3 :: p4 :: t, _ =>
    obtain ⟨-, -, hs2⟩ := sorted3 hs
    set α := cubStart p0 p1 p2 (p3 :: p4 :: t) with hα
    have hm := pieces_m (p3 :: p4 :: t) p2.1 p2.2 (firstSlope p0 p1 p2 α) (firstBend p0 p1 p2 α) (by simp)
    have ih := go_piece x (p3 :: p4 :: t) p2.1 p2.2 (firstSlope p0 p1 p2 α) (firstBend p0 p1 p2 α) hs2
    have hg := (go_left p2.1 p2.2 (firstSlope p0 p1 p2 α) (firstBend p0 p1 p2 α) p3 (p4 :: t) hs2).1
    simp only [cubAll, cubRest, ← hα] at h hx2
    simp only [cubSpline, cubFrom, ← hα]
    generalize cubPieces p2.1 p2.2 (firstSlope p0 p1 p2 α) (firstBend p0 p1 p2 α) (p3 :: p4 :: t) = L at *
    cases j with
    | zero =>
      simp only [List.getElem?_cons_zero, Option.some.injEq] at h
      subst h
      cases L with
      | nil => simp at hm
      | cons c' L =>
        simp only [List.map_cons, List.cons.injEq] at hm
        have := hx2 c' (by simp)
        rw [hm.1] at this
        rw [if_pos this]
        rfl
    | succ j =>
      simp only [List.getElem?_cons_succ] at h hx2
      have hc : c.m ≤ x := hx1.resolve_left (by omega)
      have hp : p2.1 ≤ c.m := by
        have : c.m ∈ L.map Cubic.m := List.mem_map.2 ⟨c, List.mem_of_getElem? h, rfl⟩
        rw [hm] at this
        rcases List.mem_cons.1 this with h' | h'
        · exact h'.ge
        · exact ((List.pairwise_cons.1 hs2).1 _ (List.mem_of_mem_dropLast (List.mem_of_mem_dropLast h'))).le
      have ih' := ih j c h (Or.inr hc) hx2
      rcases (hp.trans hc).lt_or_eq with hlt | heq
      · rw [if_neg (not_le.2 hlt)]; exact ih'
      · rw [← heq, if_pos le_rfl]
        rw [← heq, hg] at ih'
        rw [← ih']
        simp [cubVal]

/-! ### The knots -/

theorem knots_eq (xs : List K) (x b : K) (hx : xs.head? = some x) (hb : xs.getLast? = some b) :
    splKnots xs = List.replicate 3 x ++ cubicBreaks xs ++ List.replicate 3 b := by
  match xs with
  | [] => simp at hx
  | x' :: t =>
    simp only [List.head?_cons, Option.some.injEq] at hx
    subst hx
    have hb' := hb
    rw [List.getLast?_eq_some_getLast (by simp), Option.some.injEq] at hb
    simp only [splKnots, cubicBreaks, hb, hb', List.head?_cons, Option.toList_some]
    simp [List.replicate_succ]

theorem tailBreaks_sublist : ∀ l : List K, (tailBreaks l).Sublist l
  | [] => by simp [tailBreaks]
  | [x] => by simp [tailBreaks]
  | [x, x'] => by simp [tailBreaks]
  | x :: x' :: x'' :: t => by
    simp only [tailBreaks]
    exact (tailBreaks_sublist (x' :: x'' :: t)).cons_cons x

theorem breaks_sublist (xs : List K) (hn : 4 ≤ xs.length) : (cubicBreaks xs).Sublist xs := by
  match xs, hn with
  | [x0, x1, x2, x3], _ => rw [cubicBreaks_four]; simp
  | x0 :: x1 :: x2 :: x3 :: x4 :: t, _ =>
    rw [cubicBreaks_five]
    exact (((tailBreaks_sublist (x3 :: x4 :: t)).cons_cons x2).cons x1).cons_cons x0

theorem breaks_length (xs : List K) (hn : 4 ≤ xs.length) : (cubicBreaks xs).length = xs.length - 2 := by
  match xs, hn with
  | x0 :: x1 :: x2 :: x3 :: t, _ =>
    simp only [cubicBreaks, List.head?_cons, Option.toList_some, List.length_append, List.length_dropLast, List.length_drop, List.length_cons, List.length_nil]
    rw [List.getLast?_eq_some_getLast (by simp)]
    simp
    omega

theorem knots_length (xs : List K) (hn : 4 ≤ xs.length) : (splKnots xs).length = xs.length + 4 := by
  have hne : xs ≠ [] := by rintro rfl; simp at hn
  rw [knots_eq xs _ _ (List.head?_eq_some_head hne) (List.getLast?_eq_some_getLast hne)]
  have := breaks_length xs hn
  simp only [List.length_append, List.length_replicate]
  omega

/-- the knots of the base interval are the break points -/
theorem knot_break (xs : List K) (hn : 4 ≤ xs.length) (j : ℕ) (hj : j < xs.length - 2) : (splKnots xs).getD (3 + j) 0 = (cubicBreaks xs).getD j 0 := by
  have hne : xs ≠ [] := by rintro rfl; simp at hn
  rw [knots_eq xs _ _ (List.head?_eq_some_head hne) (List.getLast?_eq_some_getLast hne)]
  have hl := breaks_length xs hn
  rw [List.getD_append _ _ _ _ (by simp; omega), List.getD_append_right _ _ _ _ (by simp)]
  simp

theorem knots_mono (xs : List K) (hn : 4 ≤ xs.length) (hs : xs.Pairwise (· < ·)) : (splKnots xs).Pairwise (· ≤ ·) := by
  have hne : xs ≠ [] := by rintro rfl; simp at hn
  have he : ∀ y ∈ xs, xs.head hne ≤ y ∧ y ≤ xs.getLast hne := by
    intro y hy
    obtain ⟨i, hi, rfl⟩ := List.getElem_of_mem hy
    rw [List.head_eq_getElem, List.getLast_eq_getElem]
    have hw := List.pairwise_iff_getElem.1 hs
    constructor
    · rcases Nat.eq_zero_or_pos i with rfl | h
      · exact le_rfl
      · exact (hw 0 i (by omega) hi h).le
    · rcases Nat.lt_or_ge i (xs.length - 1) with h | h
      · exact (hw i _ hi (by omega) h).le
      · have : i = xs.length - 1 := by omega
        subst this; exact le_rfl
  have hb : ∀ y ∈ cubicBreaks xs, xs.head hne ≤ y ∧ y ≤ xs.getLast hne := fun y hy => he y ((breaks_sublist xs hn).subset hy)
  rw [knots_eq xs _ _ (List.head?_eq_some_head hne) (List.getLast?_eq_some_getLast hne), List.pairwise_append, List.pairwise_append]
  refine ⟨⟨by simp, (hs.sublist (breaks_sublist xs hn)).imp le_of_lt, ?_⟩, by simp, ?_⟩
  · intro a ha b hb'
    rw [(List.mem_replicate.1 ha).2]
    exact (hb b hb').1
  · intro a ha b hb'
    rw [(List.mem_replicate.1 hb').2]
    rcases List.mem_append.1 ha with ha | ha
    · rw [(List.mem_replicate.1 ha).2]; exact (he _ (List.head_mem hne)).2
    · exact (hb a ha).2

theorem rep_ok (xs ys : List K) (hn : 4 ≤ xs.length) (hs : xs.Pairwise (· < ·)) : SplOK (splrep xs ys) := by
  have hlen := knots_length xs hn
  refine ⟨?_, knots_mono xs hn hs, ?_⟩
  · show 2 * 3 + 2 ≤ (splKnots xs).length
    omega
  · intro i h1 h2
    have h1 : 3 ≤ i := h1
    have h2 : i ≤ (splKnots xs).length - 3 - 2 := h2
    obtain ⟨j, rfl⟩ : ∃ j, i = 3 + j := ⟨i - 3, by omega⟩
    show (splKnots xs).getD (3 + j) 0 < (splKnots xs).getD (3 + j + 1) 0
    have hl := breaks_length xs hn
    rw [knot_break xs hn j (by omega), show 3 + j + 1 = 3 + (j + 1) by ring, knot_break xs hn (j + 1) (by omega), List.getD_eq_getElem _ _ (by omega), List.getD_eq_getElem _ _ (by omega)]
    exact List.pairwise_iff_getElem.1 (hs.sublist (breaks_sublist xs hn)) j (j + 1) _ _ (by omega)

theorem rep_last (xs ys : List K) (hn : 4 ≤ xs.length) : (splrep xs ys).last = xs.length - 1 := by
  have hlen := knots_length xs hn
  show (splKnots xs).length - 3 - 2 = _
  omega

/-- left ends of the cubics after the first, as knots -/
theorem all_knot (xs ys : List K) (hlen : ys.length = xs.length) (hn : 4 ≤ xs.length) (j : ℕ) (c : Cubic K) (h : (cubAll (xs.zip ys))[j + 1]? = some c) :
    (splKnots xs).getD (4 + j) 0 = c.m := by
  have e1 : (xs.zip ys).map Prod.fst = xs := List.map_fst_zip hlen.ge
  obtain ⟨c0, L, e, hm⟩ := all_m (xs.zip ys) (by simp; omega)
  rw [e1] at hm
  rw [e, List.getElem?_cons_succ] at h
  have hj : ((((xs.drop 2).dropLast).dropLast))[j]? = some c.m := by rw [← hm, List.getElem?_map, h]; rfl
  have hjl := (List.getElem?_eq_some_iff.1 hj).1
  simp only [List.length_dropLast, List.length_drop] at hjl
  rw [show 4 + j = 3 + (j + 1) by ring, knot_break xs hn _ (by omega)]
  match xs, hn with
  | x0 :: t, _ =>
    simp only [cubicBreaks, List.head?_cons, Option.toList_some, List.cons_append, List.nil_append, List.getD_cons_succ]
    rw [List.getD_append _ _ _ _ (by simp only [List.length_dropLast, List.length_drop]; omega)]
    simp only [List.getD_eq_getElem?_getD, hj, Option.getD_some]

theorem all_length (xs ys : List K) (hlen : ys.length = xs.length) (hn : 4 ≤ xs.length) : (cubAll (xs.zip ys)).length = xs.length - 3 := by
  have e1 : (xs.zip ys).map Prod.fst = xs := List.map_fst_zip hlen.ge
  obtain ⟨c0, L, e, hm⟩ := all_m (xs.zip ys) (by simp; omega)
  have := congrArg List.length hm
  rw [e1] at this
  simp only [List.length_map, List.length_dropLast, List.length_drop] at this
  rw [e, List.length_cons]
  omega

/-- a coefficient is the polar form of every cubic between its knots -/
theorem coef_eq (xs ys : List K) (hlen : ys.length = xs.length) (hn : 4 ≤ xs.length) (hs : xs.Pairwise (· < ·)) (i : ℕ) : ∀ (n j : ℕ), j = (i - 3) + n → j ≤ i →
    ∀ c, (cubAll (xs.zip ys))[j]? = some c →
      splCoef xs ys i = c.polar ((splKnots xs).getD (i + 1) 0) ((splKnots xs).getD (i + 2) 0) ((splKnots xs).getD (i + 3) 0) := by
  have e1 : (xs.zip ys).map Prod.fst = xs := List.map_fst_zip hlen.ge
  intro n
  induction n with
  | zero =>
    rintro j rfl _ c hc
    rw [add_zero] at hc
    simp only [splCoef, hc]
  | succ n ih =>
    intro j hj hji c hc
    obtain ⟨k, rfl⟩ : ∃ k, j = k + 1 := ⟨j - 1, by omega⟩
    have hk : k < (cubAll (xs.zip ys)).length := by have := (List.getElem?_eq_some_iff.1 hc).1; omega
    rw [ih k (by omega) (by omega) _ (List.getElem?_eq_getElem hk)]
    have hch := all_chain (xs.zip ys) (by rw [e1]; exact hs)
    rw [List.isChain_iff_getElem] at hch
    obtain ⟨hk1, hc'⟩ := List.getElem?_eq_some_iff.1 hc
    have hJ := hch k hk1
    rw [hc'] at hJ
    have hm := all_knot xs ys hlen hn k c hc
    have h3 : 4 + k = i + 1 ∨ 4 + k = i + 2 ∨ 4 + k = i + 3 := by omega
    rcases h3 with h3 | h3 | h3
    · rw [← h3, hm]; exact polar_join hJ _ _
    · rw [← h3, hm, polar_swap, polar_join hJ, polar_swap]
    · rw [← h3, hm, polar_rot, polar_rot, polar_join hJ, polar_rot]

/-- the polynomial of an interval is the cubic of the spline there -/
theorem rep_piece (xs ys : List K) (hlen : ys.length = xs.length) (hn : 4 ≤ xs.length) (hs : xs.Pairwise (· < ·)) (a : ℕ) (c : Cubic K) (h : (cubAll (xs.zip ys))[a]? = some c) (x : K) :
    (splrep xs ys).piece (a + 3) x = c.val x := by
  have hal := (List.getElem?_eq_some_iff.1 h).1
  rw [all_length xs ys hlen hn] at hal
  have hok := rep_ok xs ys hn hs
  have hkl := knots_length xs hn
  have hcoef : ∀ j, j ≤ 3 → (splrep xs ys).c.getD (a + j) 0 = c.polar ((splKnots xs).getD (a + j + 1) 0) ((splKnots xs).getD (a + j + 2) 0) ((splKnots xs).getD (a + j + 3) 0) := by
    intro j hj
    rw [← coef_eq xs ys hlen hn hs (a + j) (a - (a + j - 3)) a (by omega) (by omega) c h]
    show ((List.range xs.length).map (splCoef xs ys) ++ List.replicate 4 0).getD (a + j) 0 = _
    rw [List.getD_append _ _ _ _ (by simp; omega), List.getD_eq_getElem _ _ (by simp; omega)]
    simp
  have hd := deBoor (splrep xs ys).knot a c x (fun i j h1 h2 => hok.monoTo i j h1 (by show j < (splKnots xs).length; omega)) (hok.base (a + 3) (by show 3 ≤ a + 3; omega) (by rw [rep_last xs ys hn]; omega))
  rw [← hd]
  unfold SplRow.piece
  have h3 : (splrep xs ys).k = 3 := rfl
  rw [h3]
  simp only [show a + 3 - 3 = a by omega, show List.range (3 + 1) = [0, 1, 2, 3] by rfl, List.map_cons, List.map_nil, List.sum_cons, List.sum_nil]
  rw [hcoef 0 (by omega), hcoef 1 (by omega), hcoef 2 (by omega), hcoef 3 (by omega)]
  simp only [add_zero, ← add_assoc]
  rfl

end Verif.Lemmas.Splrep
