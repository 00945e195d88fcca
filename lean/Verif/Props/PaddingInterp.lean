import Verif.Props.Padding

/-!
# C130: grid points with value zero around an interpolated PDF

Where the values at the ends of the grid are zero, grid points with value zero can be added beyond them. The PDF described is the same; so are the
density, the CDF and the PPF.
-/

set_option linter.unusedSectionVars false
set_option autoImplicit false

namespace Verif.Props.Refine

open Verif Verif.Np Verif.Model Verif.Lemmas Verif.Lemmas.InterpPdf Verif.Spec Verif.Props.InterpPdf

variable {K : Type} [Field K] [LinearOrder K] [IsStrictOrderedRing K]

/-- a PDF given by its values at grid points, zero at one end, and the same with one more zero beyond that end -/
inductive ZeroPad : List K × List K → List K × List K → Prop
  | left (a b : K) (xs ys : List K) (h : a < b) : ZeroPad (b :: xs, 0 :: ys) (a :: b :: xs, 0 :: 0 :: ys)
  | right (z : K) (xs ys : List K) (h : ∀ v ∈ xs, v < z) (h0 : ys.getLast? = some 0) : ZeroPad (xs, ys) (xs ++ [z], ys ++ [0])

/-- zeros added any number of times -/
def ZeroPadded : List K × List K → List K × List K → Prop := Relation.ReflTransGen ZeroPad

theorem line_const (a b v x : K) : line a v b v x = v := by simp [line]

/-- one more knot below, with the value of the first, which is also that beyond the ends -/
theorem interp_left (hi a b v x : K) (t : List (K × K)) (h : a < b) (hs : ∀ k ∈ t, b ≤ k.1) :
    interp v hi ((a, v) :: (b, v) :: t) x = interp v hi ((b, v) :: t) x := by
  unfold interp
  simp only
  by_cases h1 : x < a
  · rw [if_pos h1, if_pos (h1.trans h)]
  · rw [if_neg h1]
    have hl : ((a, v) :: (b, v) :: t).getLast (by simp) = ((b, v) :: t).getLast (by simp) := List.getLast_cons _
    have hb : b ≤ (((b, v) :: t).getLast (by simp)).1 := by
      rcases List.mem_cons.1 (List.getLast_mem (l := (b, v) :: t) (by simp)) with h | h
      · rw [h]
      · exact hs _ h
    rw [hl]
    by_cases h2 : x < b
    · rw [if_pos h2, if_neg (not_lt.2 (h2.le.trans hb))]
      simp only [npInterpGo, if_neg (not_le.2 h2), line_const, ite_self]
    · rw [if_neg h2]
      simp only [npInterpGo, if_pos (not_lt.1 h2)]

theorem go_last (x : K) : ∀ (t : List (K × K)) (x0 y0 : K), (∀ k ∈ t, k.1 ≤ x) → npInterpGo x0 y0 t x = (((x0, y0) :: t).getLast (by simp)).2 := by
  intro t
  induction t with
  | nil => intro x0 y0 _; rfl
  | cons m t ih =>
    intro x0 y0 h
    obtain ⟨m1, m2⟩ := m
    simp only [npInterpGo]
    rw [if_pos (h (m1, m2) (by simp)), ih m1 m2 (fun k hk => h k (by simp [hk]))]
    simp

theorem go_const (z w x : K) : ∀ (t : List (K × K)) (x0 y0 : K), (((x0, y0) :: t).getLast (by simp)).2 = w →
    npInterpGo x0 y0 (t ++ [(z, w)]) x = npInterpGo x0 y0 t x := by
  intro t
  induction t with
  | nil =>
    intro x0 y0 h
    simp only [List.getLast_singleton] at h
    subst h
    simp [npInterpGo, line_const]
  | cons m t ih =>
    intro x0 y0 h
    obtain ⟨m1, m2⟩ := m
    simp only [List.cons_append, npInterpGo]
    split_ifs with h1 h2
    · exact ih m1 m2 (by rw [← h]; simp)
    · rfl
    · rfl

/-- one more knot above, with the value of the last, which is also that beyond the ends -/
theorem interp_right (lo w z x : K) (k0 : K × K) (t : List (K × K)) (h : ∀ k ∈ k0 :: t, k.1 < z) (hw : ((k0 :: t).getLast (by simp)).2 = w)
    (hs : (k0 :: t).Pairwise fun a b => a.1 < b.1) : interp lo w (k0 :: t ++ [(z, w)]) x = interp lo w (k0 :: t) x := by
  obtain ⟨x0, y0⟩ := k0
  have hlast : ((x0, y0) :: (t ++ [(z, w)])).getLast (by simp) = (z, w) := by
    simp
  have hmax : ∀ k ∈ (x0, y0) :: t, k.1 ≤ (((x0, y0) :: t).getLast (by simp)).1 := by
    intro k hk
    have hsm : (((x0, y0) :: t).map Prod.fst).Pairwise (· < ·) := List.pairwise_map.2 hs
    have := last_mem_max hsm (by simp) k.1 (List.mem_map_of_mem hk)
    rwa [List.getLast_map] at this
  unfold interp
  simp only [List.cons_append]
  rw [hlast]
  by_cases h1 : x < x0
  · rw [if_pos h1, if_pos h1]
  · rw [if_neg h1, if_neg h1]
    by_cases h2 : (((x0, y0) :: t).getLast (by simp)).1 < x
    · rw [if_pos h2]
      split_ifs with h3
      · rfl
      · rw [go_const z w x t x0 y0 hw, go_last x t x0 y0 (fun k hk => (hmax k (by simp [hk])).trans h2.le), hw]
    · rw [if_neg h2, if_neg, go_const z w x t x0 y0 hw]
      exact not_lt.2 ((not_lt.1 h2).trans (h _ (List.getLast_mem _)).le)

theorem zip_last {α β : Type} (xs : List α) : ∀ (ys : List β), xs.length = ys.length → ∀ (a : α) (b : β), xs.getLast? = some a → ys.getLast? = some b →
    (xs.zip ys).getLast? = some (a, b) := by
  induction xs with
  | nil => intro ys _ a b h; simp at h
  | cons x xs ih =>
    intro ys hl a b ha hb
    cases ys with
    | nil => simp at hl
    | cons y ys =>
      cases xs with
      | nil =>
        have : ys = [] := by simpa using hl.symm
        subst this
        simp_all
      | cons x' xs =>
        cases ys with
        | nil => simp at hl
        | cons y' ys =>
          rw [List.zip_cons_cons, List.zip_cons_cons, List.getLast?_cons_cons, ← List.zip_cons_cons]
          exact ih (y' :: ys) (by simpa using hl) a b (by rwa [List.getLast?_cons_cons] at ha) (by rwa [List.getLast?_cons_cons] at hb)

theorem interp_right_zip (lo w z x : K) (xs ys : List K) (hl : xs.length = ys.length) (hs : xs.Pairwise (· < ·)) (h : ∀ v ∈ xs, v < z)
    (hw : ys.getLast? = some w) : interp lo w ((xs ++ [z]).zip (ys ++ [w])) x = interp lo w (xs.zip ys) x := by
  cases xs with
  | nil => cases ys <;> simp at hl hw
  | cons a xs =>
    cases ys with
    | nil => simp at hl
    | cons u ys =>
      have hz := zip_last (a :: xs) (u :: ys) hl ((a :: xs).getLast (by simp)) w (List.getLast?_eq_some_getLast (by simp)) hw
      rw [List.zip_append hl]
      simp only [List.zip_cons_cons, List.zip_nil_right] at hz ⊢
      refine interp_right lo w z x (a, u) (xs.zip ys) ?_ ?_ ?_
      · intro k hk
        rw [← List.zip_cons_cons] at hk
        exact h _ (List.of_mem_zip hk).1
      · rw [List.getLast?_eq_some_getLast (by simp), Option.some.injEq] at hz
        rw [hz]
      · rw [← List.zip_cons_cons, ← List.pairwise_map (f := Prod.fst) (R := (· < ·)), List.map_fst_zip (by simpa using hl.le)]
        exact hs

theorem trapezoids_right (z : K) : ∀ (xs ys : List K), xs.length = ys.length → ys.getLast? = some 0 →
    trapezoids (xs ++ [z]) (ys ++ [0]) = trapezoids xs ys ++ [0] := by
  intro xs
  induction xs with
  | nil => intro ys hl h0; cases ys <;> simp at hl h0
  | cons a xs ih =>
    intro ys hl h0
    cases ys with
    | nil => simp at hl
    | cons u ys =>
      cases xs with
      | nil =>
        have : ys = [] := by simpa using hl.symm
        subst this
        simp only [List.getLast?_singleton, Option.some.injEq] at h0
        subst h0
        simp [trapezoids]
      | cons b xs =>
        cases ys with
        | nil => simp at hl
        | cons v ys =>
          have := ih (v :: ys) (by simpa using hl) (by rwa [List.getLast?_cons_cons] at h0)
          simp only [List.cons_append, trapezoids] at this ⊢
          rw [this]

theorem cumsum_zero (l : List K) : ∀ c : K, c :: cumsumFrom c (l ++ [0]) = (c :: cumsumFrom c l) ++ [(c :: cumsumFrom c l).getLast (by simp)] := by
  induction l with
  | nil => intro c; simp [cumsumFrom]
  | cons a l ih =>
    intro c
    have := ih (c + a)
    simp only [List.cons_append, cumsumFrom] at this ⊢
    rw [this]
    simp

theorem norm_of {xs row C : List K} {s : K} (hC : interpCumul xs row = .ok C) (hs : C.getLast? = some s) (h0 : s ≠ 0) :
    interpNormRow xs row = .ok (some (row.map (· / s), C.map (· / s))) := by
  unfold interpNormRow
  rw [hC]
  simp only
  rw [hs]
  simp only
  rw [if_neg h0]

/-- the steps of the constructor -/
theorem norm_forms {a b : K} {t ys c : List K} {u v : K} {r : List K} (hl : t.length = r.length)
    (hp : interpNormRow (a :: b :: t) (u :: v :: r) = .ok (some (ys, c))) :
    ∃ C s, interpCumul (a :: b :: t) (u :: v :: r) = .ok C ∧ C = (1 / 2 * u * (b - a)) :: cumsumFrom 0 (trapezoids (a :: b :: t) (u :: v :: r)) ∧
      C.getLast? = some s ∧ s ≠ 0 ∧ ys = (u :: v :: r).map (· / s) ∧ c = C.map (· / s) ∧ C.length = (a :: b :: t).length := by
  obtain ⟨C, hC⟩ : ∃ C, C = (1 / 2 * u * (b - a)) :: cumsumFrom 0 (trapezoids (a :: b :: t) (u :: v :: r)) := ⟨_, rfl⟩
  have hcu : interpCumul (a :: b :: t) (u :: v :: r) = .ok C := by rw [hC]; rfl
  have hne : C ≠ [] := by rw [hC]; simp
  have hlast := List.getLast?_eq_some_getLast hne
  have hlen : C.length = (a :: b :: t).length := by
    rw [hC, List.length_cons, Lemmas.Hist.length_cumsumFrom, length_trapezoids _ _ (by simp [hl])]
    simp
  by_cases h0 : C.getLast hne = 0
  · unfold interpNormRow at hp
    rw [hcu] at hp
    simp only at hp
    rw [hlast] at hp
    simp only at hp
    rw [if_pos h0] at hp
    simp at hp
  · rw [norm_of hcu hlast h0] at hp
    simp only [Except.ok.injEq, Option.some.injEq, Prod.mk.injEq] at hp
    exact ⟨C, _, hcu, hC, hlast, h0, hp.1.symm, hp.2.symm, hlen⟩

theorem ZeroPad.step {xs row xs' row' ys c : List K} (hz : ZeroPad (xs, row) (xs', row')) (hg : XGrid xs row.length)
    (hp : interpNormRow xs row = .ok (some (ys, c))) :
    XGrid xs' row'.length ∧ ∃ ys' c', interpNormRow xs' row' = .ok (some (ys', c')) ∧ (∀ x, interpPdf xs' ys' x = interpPdf xs ys x) ∧
      (∀ x, interpCdf xs' c' x = interpCdf xs c x) ∧ ∀ q, 0 ≤ q → q < 1 → interpPpf xs' c' q = interpPpf xs c q := by
  have hsz := hg.size
  have htw := hg.two
  have hst := hg.strict
  obtain ⟨a, b, t, rfl⟩ : ∃ a b t, xs = a :: b :: t := by
    match xs, hsz with
    | [], h => simp at h; omega
    | [_], h => simp at h; omega
    | a :: b :: t, _ => exact ⟨a, b, t, rfl⟩
  obtain ⟨u, v, r, rfl⟩ : ∃ a b t, row = a :: b :: t := by
    match row, htw with
    | a :: b :: t, _ => exact ⟨a, b, t, rfl⟩
  have hl : t.length = r.length := by simpa using hsz
  obtain ⟨C, s, hcu, hC, hs, hs0, hys, hc, hCl⟩ := norm_forms hl hp
  have hcl : c.length = (a :: b :: t).length := by rw [hc, List.length_map, hCl]
  have hc1 : c.getLast? = some 1 := by rw [hc, List.getLast?_map, hs, Option.map_some, div_self hs0]
  cases hz with
  | left d _ _ _ h =>
    have hd : ∀ k ∈ a :: b :: t, d < k := by
      intro k hk
      rcases List.mem_cons.1 hk with rfl | hk
      · exact h
      · exact h.trans ((List.pairwise_cons.1 hst).1 k hk)
    obtain ⟨C1, rfl⟩ : ∃ C1, C = 0 :: C1 := ⟨_, hC.trans (by rw [mul_zero, zero_mul])⟩
    have hcu' : interpCumul (d :: a :: b :: t) (0 :: 0 :: v :: r) = .ok (0 :: 0 :: C1) := by
      simp only [mul_zero, zero_mul, List.cons.injEq, true_and] at hC
      rw [hC]
      simp [interpCumul, cumsum, trapezoids, cumsumFrom]
    have hn := norm_of hcu' (s := s) (by rw [List.getLast?_cons_cons]; exact hs) hs0
    have hle : ∀ (l : List K), ∀ k ∈ (b :: t).zip l, a ≤ k.1 := fun l k hk => ((List.pairwise_cons.1 hst).1 _ (List.of_mem_zip hk).1).le
    refine ⟨⟨List.pairwise_cons.2 ⟨hd, hst⟩, by simp [hl], by simp⟩, _, _, hn, ?_, ?_, ?_⟩
    · intro x
      rw [hys]
      simp only [interpPdf, List.map_cons, zero_div, List.zip_cons_cons]
      exact interp_left 0 d a 0 x _ h (hle (v / s :: r.map (· / s)))
    · intro x
      rw [hc]
      simp only [interpCdf, List.map_cons, zero_div, List.zip_cons_cons]
      exact interp_left 1 d a 0 x _ h (hle (C1.map (· / s)))
    · intro q h0 h1
      rw [hc]
      simp only [interpPpf, List.map_cons, zero_div, List.zip_cons_cons]
      unfold interp
      simp only
      rw [if_neg (not_lt.2 h0), if_neg (not_lt.2 h0)]
      simp [npInterpGo, h0]
  | right z _ _ h h0 =>
    have hcu' : interpCumul (a :: b :: t ++ [z]) (u :: v :: r ++ [0]) = .ok (C ++ [s]) := by
      have ht := trapezoids_right z (a :: b :: t) (u :: v :: r) (by simp [hl]) h0
      obtain ⟨T0, T, hT⟩ : ∃ T0 T, trapezoids (a :: b :: t) (u :: v :: r) = T0 :: T := ⟨_, _, rfl⟩
      have hz := cumsum_zero T (0 + T0)
      rw [hT] at hC ht
      have e1 : interpCumul (a :: b :: t ++ [z]) (u :: v :: r ++ [0]) =
          .ok ((1 / 2 * u * (b - a)) :: cumsumFrom 0 (trapezoids (a :: b :: t ++ [z]) (u :: v :: r ++ [0]))) := rfl
      rw [e1, ht, hC, List.cons_append, cumsumFrom, hz, cumsumFrom]
      rw [hC, cumsumFrom, List.getLast?_cons_cons, List.getLast?_eq_some_getLast (List.cons_ne_nil _ _), Option.some.injEq] at hs
      rw [hs]
      rfl
    have hn := norm_of hcu' (s := s) (by simp) hs0
    refine ⟨⟨?_, by simp [hl], by simp⟩, _, _, hn, ?_, ?_, ?_⟩
    · rw [List.pairwise_append]
      exact ⟨hst, List.pairwise_singleton _ _, fun u hu v hv => by rw [List.mem_singleton.1 hv]; exact h u hu⟩
    · intro x
      rw [hys, List.map_append]
      simp only [interpPdf, List.map_cons, List.map_nil, zero_div]
      exact interp_right_zip 0 0 z x (a :: b :: t) (u / s :: v / s :: r.map (· / s)) (by simp [hl]) hst h
        (by have := congrArg (Option.map (· / s)) h0; rw [← List.getLast?_map] at this; simpa using this)
    · intro x
      rw [List.map_append, ← hc]
      simp only [interpCdf, List.map_cons, List.map_nil, div_self hs0]
      exact interp_right_zip 0 1 z x (a :: b :: t) c hcl.symm hst h hc1
    · intro q hq0 hq1
      rw [List.map_append, ← hc]
      simp only [List.map_cons, List.map_nil, div_self hs0]
      match c, hcl, hc1 with
      | c0 :: c2 :: ct, hcl, hc1 =>
        have hz := zip_last (c0 :: c2 :: ct) (a :: b :: t) hcl 1 ((a :: b :: t).getLast (by simp)) hc1 (List.getLast?_eq_some_getLast (by simp))
        have hcl' : ct.length = t.length := by simpa using hcl
        simp only [interpPpf, List.cons_append, List.zip_cons_cons] at hz ⊢
        rw [List.zip_append hcl']
        simp only [List.zip_cons_cons, List.zip_nil_right]
        unfold interp
        simp only
        rw [List.getLast?_eq_some_getLast (by simp), Option.some.injEq] at hz
        rw [hz]
        have hz2 : ((c0, a) :: (c2, b) :: (ct.zip t ++ [((1 : K), z)])).getLast (by simp) = (1, z) := by simp
        rw [hz2]
        by_cases hq : q < c0
        · rw [if_pos hq, if_pos hq]
        · rw [if_neg hq, if_neg hq, if_neg (not_lt.2 hq1.le), if_neg (not_lt.2 hq1.le)]
          congr 1
          rw [← List.cons_append]
          refine go_append (1, z) q ((c2, b) :: ct.zip t) c0 a ⟨(1, (a :: b :: t).getLast (by simp)), ?_, hq1⟩
          rw [← List.getLast?_cons_cons (a := (c0, a)), List.getLast?_eq_some_getLast (by simp), hz]

/-- **C130: zeros around an interpolated PDF.** Where the values at the ends of the grid are zero, adding grid points with value zero beyond the ends, any
number of them, keeps the density and the CDF everywhere and the PPF for all probabilities from zero to below one. -/
theorem C130_interp_padding {xs row xs' row' ys c : List K} (hz : ZeroPadded (xs, row) (xs', row')) (hg : XGrid xs row.length)
    (hp : interpNormRow xs row = .ok (some (ys, c))) :
    XGrid xs' row'.length ∧ ∃ ys' c', interpNormRow xs' row' = .ok (some (ys', c')) ∧ (∀ x, interpPdf xs' ys' x = interpPdf xs ys x) ∧
      (∀ x, interpCdf xs' c' x = interpCdf xs c x) ∧ ∀ q, 0 ≤ q → q < 1 → interpPpf xs' c' q = interpPpf xs c q := by
  have key : ∀ h h' : List K × List K, ZeroPadded h h' → XGrid h.1 h.2.length → interpNormRow h.1 h.2 = .ok (some (ys, c)) →
      XGrid h'.1 h'.2.length ∧ ∃ ys' c', interpNormRow h'.1 h'.2 = .ok (some (ys', c')) ∧ (∀ x, interpPdf h'.1 ys' x = interpPdf h.1 ys x) ∧
        (∀ x, interpCdf h'.1 c' x = interpCdf h.1 c x) ∧ ∀ q, 0 ≤ q → q < 1 → interpPpf h'.1 c' q = interpPpf h.1 c q := by
    intro h h' hz hg hp
    induction hz with
    | refl => exact ⟨hg, ys, c, hp, fun _ => rfl, fun _ => rfl, fun _ _ _ => rfl⟩
    | tail _ hstep ih =>
      obtain ⟨g1, y1, c1, n1, p1, q1, r1⟩ := ih
      obtain ⟨g2, y2, c2, n2, p2, q2, r2⟩ := ZeroPad.step hstep g1 n1
      exact ⟨g2, y2, c2, n2, fun x => (p2 x).trans (p1 x), fun x => (q2 x).trans (q1 x), fun q h0 h1 => (r2 q h0 h1).trans (r1 q h0 h1)⟩
  exact key _ _ hz hg hp

/-- a triangle with one zero more below and one more above; at probability one the two PPFs differ -/
theorem C130_interp_padding_example : ZeroPadded (([1, 2, 3], [0, 2, 0]) : List ℚ × List ℚ) ([0, 1, 2, 3, 5], [0, 0, 2, 0, 0]) ∧
    interpNormRow [1, 2, 3] ([0, 2, 0] : List ℚ) = .ok (some ([0, 1, 0], [0, 1/2, 1])) ∧
    interpNormRow [0, 1, 2, 3, 5] ([0, 0, 2, 0, 0] : List ℚ) = .ok (some ([0, 0, 1, 0, 0], [0, 0, 1/2, 1, 1])) ∧
    interpPpf [1, 2, 3] ([0, 1/2, 1] : List ℚ) (1/4) = some (3/2) ∧ interpPpf [0, 1, 2, 3, 5] ([0, 0, 1/2, 1, 1] : List ℚ) (1/4) = some (3/2) ∧
    interpPpf [1, 2, 3] ([0, 1/2, 1] : List ℚ) 1 = some 3 ∧ interpPpf [0, 1, 2, 3, 5] ([0, 0, 1/2, 1, 1] : List ℚ) 1 = some 5 := by
  refine ⟨?_, by decide +kernel, by decide +kernel, by decide +kernel, by decide +kernel, by decide +kernel, by decide +kernel⟩
  have h1 : ZeroPad (([1, 2, 3], [0, 2, 0]) : List ℚ × List ℚ) ([0, 1, 2, 3], [0, 0, 2, 0]) := ZeroPad.left 0 1 [2, 3] [2, 0] (by norm_num)
  have h2 : ZeroPad (([0, 1, 2, 3], [0, 0, 2, 0]) : List ℚ × List ℚ) ([0, 1, 2, 3, 5], [0, 0, 2, 0, 0]) :=
    ZeroPad.right 5 [0, 1, 2, 3] [0, 0, 2, 0] (by decide +kernel) rfl
  exact (Relation.ReflTransGen.single h1).tail h2

/-! ## a grid per PDF -/

theorem rightRects_right (z : K) : ∀ (xs ys : List K), xs.length = ys.length → 1 ≤ xs.length → rightRects (xs ++ [z]) (ys ++ [0]) = rightRects xs ys ++ [0] := by
  intro xs
  induction xs with
  | nil => intro ys _ h1; simp at h1
  | cons a xs ih =>
    intro ys hl _
    cases ys with
    | nil => simp at hl
    | cons u ys =>
      cases xs with
      | nil =>
        have : ys = [] := by simpa using hl.symm
        subst this
        simp [rightRects]
      | cons b xs =>
        cases ys with
        | nil => simp at hl
        | cons v ys =>
          have := ih (v :: ys) (by simpa using hl) (by simp)
          simp only [List.cons_append, rightRects] at this ⊢
          rw [this]

theorem rightRects_div (s : K) : ∀ (xs ys : List K), rightRects xs (ys.map (· / s)) = (rightRects xs ys).map (· / s) := by
  intro xs
  induction xs with
  | nil => intro ys; simp [rightRects]
  | cons a xs ih =>
    intro ys
    cases xs with
    | nil => simp [rightRects]
    | cons b xs =>
      match ys with
      | [] => simp [rightRects]
      | [_] => simp [rightRects]
      | u :: v :: ys =>
        have := ih (v :: ys)
        simp only [List.map_cons, rightRects] at this ⊢
        rw [this]
        congr 1
        ring

theorem cumsum_getLast (l : List K) : ∀ c : K, (c :: cumsumFrom c l).getLast? = some (c + l.sum) := by
  induction l with
  | nil => intro c; simp [cumsumFrom]
  | cons a l ih =>
    intro c
    rw [cumsumFrom, List.getLast?_cons_cons, ih, List.sum_cons, add_assoc]

theorem sum_div (s : K) (l : List K) : (l.map (· / s)).sum = l.sum / s := by
  induction l with
  | nil => simp
  | cons a l ih => simp [ih, add_div]

theorem length_rightRects : ∀ (xs ys : List K), xs.length = ys.length → (rightRects xs ys).length = xs.length - 1 := by
  intro xs
  induction xs with
  | nil => intro ys _; simp [rightRects]
  | cons a xs ih =>
    intro ys hl
    cases xs with
    | nil => simp [rightRects]
    | cons b xs =>
      match ys, hl with
      | u :: v :: ys, hl =>
        have := ih (v :: ys) (by simpa using hl)
        simp only [rightRects, List.length_cons] at this ⊢
        omega

/-- the extrema of all grids do not enter for probabilities from zero to one -/
theorem irr_ends {xs row ys : List K} (hg : XGrid xs row.length) (hp : irrNormRow xs row = some ys) (lo hi lo' hi' q : K) (h0 : 0 ≤ q) (h1 : q ≤ 1) :
    irrPpf lo' hi' xs ys q = irrPpf lo hi xs ys q := by
  unfold irrNormRow at hp
  simp only at hp
  split_ifs at hp with hs0
  rw [Option.some.injEq] at hp
  have hs : Np.sum (rightRects xs row) = (rightRects xs row).sum := by rw [List.sum_eq_foldr]; rfl
  rw [hs] at hp hs0
  have h2 := hg.two
  have h3 := hg.size
  have hcl : (irrCumul xs ys).length = xs.length := by
    rw [irrCumul, List.length_cons, cumsum, Lemmas.Hist.length_cumsumFrom, length_rightRects _ _ (by rw [← hp]; simp [h3])]
    omega
  have hc1 : (irrCumul xs ys).getLast? = some 1 := by
    rw [irrCumul, cumsum, cumsum_getLast, ← hp, rightRects_div, sum_div, div_self hs0, zero_add]
  have hne : xs ≠ [] := by rintro rfl; simp at h3; omega
  have hz := zip_last _ xs hcl 1 (xs.getLast hne) hc1 (List.getLast?_eq_some_getLast hne)
  obtain ⟨a, t, rfl⟩ := List.exists_cons_of_ne_nil hne
  unfold irrPpf
  simp only [irrCumul, List.zip_cons_cons] at hz ⊢
  rw [List.getLast?_eq_some_getLast (by simp), Option.some.injEq] at hz
  unfold interp
  simp only
  rw [hz, if_neg (not_lt.2 h0), if_neg (not_lt.2 h0), if_neg (not_lt.2 h1), if_neg (not_lt.2 h1)]

theorem ZeroPad.irr_step {xs row xs' row' ys : List K} (hz : ZeroPad (xs, row) (xs', row')) (hg : XGrid xs row.length)
    (hp : irrNormRow xs row = some ys) :
    XGrid xs' row'.length ∧ ∃ ys', irrNormRow xs' row' = some ys' ∧ (∀ x, interpPdf xs' ys' x = interpPdf xs ys x) ∧
      (∀ x, irrCdf xs' ys' x = irrCdf xs ys x) ∧
      ∀ lo hi lo' hi' q, 0 ≤ q → q < 1 → irrPpf lo' hi' xs' ys' q = irrPpf lo hi xs ys q := by
  have hsz := hg.size
  have htw := hg.two
  have hst := hg.strict
  obtain ⟨a, b, t, rfl⟩ : ∃ a b t, xs = a :: b :: t := by
    match xs, hsz with
    | [], h => simp at h; omega
    | [_], h => simp at h; omega
    | a :: b :: t, _ => exact ⟨a, b, t, rfl⟩
  obtain ⟨u, v, r, rfl⟩ : ∃ a b t, row = a :: b :: t := by
    match row, htw with
    | a :: b :: t, _ => exact ⟨a, b, t, rfl⟩
  have hl : t.length = r.length := by simpa using hsz
  obtain ⟨s, hs⟩ : ∃ s, s = (rightRects (a :: b :: t) (u :: v :: r)).sum := ⟨_, rfl⟩
  have hn : ∀ xs' row', (rightRects xs' row').sum = s → irrNormRow xs' row' = if s = 0 then none else some (row'.map (· / s)) := by
    intro xs' row' h
    rw [List.sum_eq_foldr] at h
    unfold irrNormRow
    simp only [Np.sum, h]
  rw [hn _ _ hs.symm] at hp
  split_ifs at hp with hs0
  rw [Option.some.injEq] at hp
  have hcl : (irrCumul (a :: b :: t) ys).length = (a :: b :: t).length := by
    rw [irrCumul, List.length_cons, cumsum, Lemmas.Hist.length_cumsumFrom, length_rightRects _ _ (by rw [← hp]; simp [hl])]
    simp
  have hc1 : (irrCumul (a :: b :: t) ys).getLast? = some 1 := by
    rw [irrCumul, cumsum, cumsum_getLast, ← hp, rightRects_div, sum_div, ← hs, div_self hs0, zero_add]
  cases hz with
  | left d _ _ _ h =>
    have hd : ∀ k ∈ a :: b :: t, d < k := by
      intro k hk
      rcases List.mem_cons.1 hk with rfl | hk
      · exact h
      · exact h.trans ((List.pairwise_cons.1 hst).1 k hk)
    have hn' := hn (d :: a :: b :: t) (0 :: 0 :: v :: r) (by rw [hs]; simp [rightRects])
    rw [if_neg hs0] at hn'
    have hle : ∀ (l : List K), ∀ k ∈ (b :: t).zip l, a ≤ k.1 := fun l k hk => ((List.pairwise_cons.1 hst).1 _ (List.of_mem_zip hk).1).le
    have hcu : irrCumul (d :: a :: b :: t) ((0 :: 0 :: v :: r).map (· / s)) = 0 :: irrCumul (a :: b :: t) ys := by
      rw [← hp]
      simp [irrCumul, rightRects, cumsum, cumsumFrom]
    refine ⟨⟨List.pairwise_cons.2 ⟨hd, hst⟩, by simp [hl], by simp⟩, _, hn', ?_, ?_, ?_⟩
    · intro x
      rw [← hp]
      simp only [interpPdf, List.map_cons, zero_div, List.zip_cons_cons]
      exact interp_left 0 d a 0 x _ h (hle (v / s :: r.map (· / s)))
    · intro x
      simp only [irrCdf, hcu]
      simp only [irrCumul, List.zip_cons_cons]
      exact interp_left 1 d a 0 x _ h (hle _)
    · intro lo hi lo' hi' q h0 h1
      have hz := zip_last _ (a :: b :: t) hcl 1 ((a :: b :: t).getLast (by simp)) hc1 (List.getLast?_eq_some_getLast (by simp))
      simp only [irrPpf, hcu]
      simp only [irrCumul, List.zip_cons_cons] at hz ⊢
      rw [List.getLast?_eq_some_getLast (by simp), Option.some.injEq] at hz
      unfold interp
      simp only
      rw [List.getLast_cons (by simp), hz, if_neg (not_lt.2 h0), if_neg (not_lt.2 h0), if_neg (not_lt.2 h1.le), if_neg (not_lt.2 h1.le)]
      simp [npInterpGo, h0]
  | right z _ _ h h0 =>
    have hn' := hn (a :: b :: t ++ [z]) (u :: v :: r ++ [0]) (by rw [hs, rightRects_right z _ _ (by simp [hl]) (by simp)]; simp)
    rw [if_neg hs0] at hn'
    have hcu : irrCumul (a :: b :: t ++ [z]) ((u :: v :: r ++ [0]).map (· / s)) = irrCumul (a :: b :: t) ys ++ [1] := by
      rw [List.map_append, hp, List.map_singleton, zero_div, irrCumul, rightRects_right z (a :: b :: t) ys (by rw [← hp]; simp [hl]) (by simp), cumsum, cumsum_zero]
      rw [irrCumul, cumsum, List.getLast?_eq_some_getLast (List.cons_ne_nil _ _), Option.some.injEq] at hc1
      rw [hc1]
      rfl
    refine ⟨⟨?_, by simp [hl], by simp⟩, _, hn', ?_, ?_, ?_⟩
    · rw [List.pairwise_append]
      exact ⟨hst, List.pairwise_singleton _ _, fun u hu v hv => by rw [List.mem_singleton.1 hv]; exact h u hu⟩
    · intro x
      rw [← hp, List.map_append]
      simp only [interpPdf, List.map_cons, List.map_nil, zero_div]
      exact interp_right_zip 0 0 z x (a :: b :: t) (u / s :: v / s :: r.map (· / s)) (by simp [hl]) hst h
        (by have := congrArg (Option.map (· / s)) h0; rw [← List.getLast?_map] at this; simpa using this)
    · intro x
      simp only [irrCdf]
      rw [hcu]
      exact interp_right_zip 0 1 z x (a :: b :: t) _ hcl.symm hst h hc1
    · intro lo hi lo' hi' q hq0 hq1
      simp only [irrPpf]
      rw [hcu]
      have hz := zip_last _ (a :: b :: t) hcl 1 ((a :: b :: t).getLast (by simp)) hc1 (List.getLast?_eq_some_getLast (by simp))
      rw [List.zip_append hcl]
      rw [irrCumul] at hcl hc1 hz ⊢
      match hcc : cumsum (rightRects (a :: b :: t) ys), hcl with
      | c2 :: ct, hcl =>
        rw [hcc] at hz
        simp only [List.cons_append, List.zip_cons_cons, List.zip_nil_right] at hz ⊢
        unfold interp
        simp only
        rw [List.getLast?_eq_some_getLast (by simp), Option.some.injEq] at hz
        rw [hz]
        have hz2 : (((0 : K), a) :: (c2, b) :: (ct.zip t ++ [((1 : K), z)])).getLast (by simp) = (1, z) := by simp
        rw [hz2, if_neg (not_lt.2 hq0), if_neg (not_lt.2 hq0), if_neg (not_lt.2 hq1.le), if_neg (not_lt.2 hq1.le)]
        congr 1
        rw [← List.cons_append]
        refine go_append (1, z) q ((c2, b) :: ct.zip t) 0 a ⟨(1, (a :: b :: t).getLast (by simp)), ?_, hq1⟩
        rw [← List.getLast?_cons_cons (a := ((0 : K), a)), List.getLast?_eq_some_getLast (by simp), hz]

/-- **C130: zeros around a PDF with its own grid.** The same for PDFs that each have their own grid, whatever the extrema of the grids of the other PDFs. -/
theorem C130_irregular_padding {xs row xs' row' ys : List K} (hz : ZeroPadded (xs, row) (xs', row')) (hg : XGrid xs row.length)
    (hp : irrNormRow xs row = some ys) :
    XGrid xs' row'.length ∧ ∃ ys', irrNormRow xs' row' = some ys' ∧ (∀ x, interpPdf xs' ys' x = interpPdf xs ys x) ∧
      (∀ x, irrCdf xs' ys' x = irrCdf xs ys x) ∧
      ∀ lo hi lo' hi' q, 0 ≤ q → q < 1 → irrPpf lo' hi' xs' ys' q = irrPpf lo hi xs ys q := by
  have key : ∀ h h' : List K × List K, ZeroPadded h h' → XGrid h.1 h.2.length → irrNormRow h.1 h.2 = some ys →
      XGrid h'.1 h'.2.length ∧ ∃ ys', irrNormRow h'.1 h'.2 = some ys' ∧ (∀ x, interpPdf h'.1 ys' x = interpPdf h.1 ys x) ∧
        (∀ x, irrCdf h'.1 ys' x = irrCdf h.1 ys x) ∧
        ∀ lo hi lo' hi' q, 0 ≤ q → q < 1 → irrPpf lo' hi' h'.1 ys' q = irrPpf lo hi h.1 ys q := by
    intro h h' hz hg hp
    induction hz with
    | refl =>
      exact ⟨hg, ys, hp, fun _ => rfl, fun _ => rfl, fun lo hi lo' hi' q h0 h1 => irr_ends hg hp lo hi lo' hi' q h0 h1.le⟩
    | tail _ hstep ih =>
      obtain ⟨g1, y1, n1, p1, q1, r1⟩ := ih
      obtain ⟨g2, y2, n2, p2, q2, r2⟩ := ZeroPad.irr_step hstep g1 n1
      exact ⟨g2, y2, n2, fun x => (p2 x).trans (p1 x), fun x => (q2 x).trans (q1 x),
        fun lo hi lo' hi' q h0 h1 => (r2 lo hi lo' hi' q h0 h1).trans (r1 lo hi lo hi q h0 h1)⟩
  exact key _ _ hz hg hp

/-- a triangle with its own grid and one zero more on either side -/
theorem C130_irregular_padding_example : irrNormRow [1, 2, 3] ([0, 2, 0] : List ℚ) = some [0, 1, 0] ∧
    irrNormRow [0, 1, 2, 3, 5] ([0, 0, 2, 0, 0] : List ℚ) = some [0, 0, 1, 0, 0] ∧
    irrCdf [1, 2, 3] ([0, 1, 0] : List ℚ) (3/2) = some (1/2) ∧ irrCdf [0, 1, 2, 3, 5] ([0, 0, 1, 0, 0] : List ℚ) (3/2) = some (1/2) ∧
    irrPpf 0 5 [1, 2, 3] ([0, 1, 0] : List ℚ) (1/2) = some (3/2) ∧ irrPpf 0 5 [0, 1, 2, 3, 5] ([0, 0, 1, 0, 0] : List ℚ) (1/2) = some (3/2) := by
  refine ⟨?_, ?_, ?_, ?_, ?_, ?_⟩ <;> decide +kernel

end Verif.Props.Refine
