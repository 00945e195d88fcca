import Verif.Props.Hist
import Verif.Props.InterpPdf
import Verif.Props.MixReal
import Verif.Props.MetricGrid
import Mathlib.Logic.Relation

/-!
# C130: finer descriptions of the same PDF

A bin is divided into two with the same content per width, a grid point is put on the straight line between its neighbours, the components of a mixture are put in
another order or a component is divided into two. The PDF described is the same; the statements say which evaluations are the same.
-/

set_option linter.unusedSectionVars false
set_option autoImplicit false

namespace Verif.Props.Refine

open Verif Verif.Np Verif.Model Verif.Lemmas Verif.Lemmas.InterpPdf Verif.Lemmas.Hist Verif.Spec Verif.Props.Bins Verif.Props.Hist Verif.Props.InterpPdf

variable {K : Type} [Field K] [LinearOrder K] [IsStrictOrderedRing K]

theorem sum_eq {R : Type} [Field R] (l : List R) : Np.sum l = l.sum := rfl

/-! ## one more knot on a straight line -/

/-- `l'` has one more knot than `l`, on the line between its neighbours -/
inductive OneMore : List (K × K) → List (K × K) → Prop
  | here (a m b : K × K) (t : List (K × K)) (h1 : a.1 ≤ m.1) (h2 : m.1 ≤ b.1) (h3 : (m.2 - a.2) * (b.1 - a.1) = (b.2 - a.2) * (m.1 - a.1)) :
      OneMore (a :: b :: t) (a :: m :: b :: t)
  | later (a : K × K) (l l' : List (K × K)) (h : OneMore l l') : OneMore (a :: l) (a :: l')

theorem OneMore.heads {l l' : List (K × K)} (h : OneMore l l') : ∃ p t t', l = p :: t ∧ l' = p :: t' := by
  cases h with
  | here a m b t h1 h2 h3 => exact ⟨a, _, _, rfl, rfl⟩
  | later a l l' h => exact ⟨a, _, _, rfl, rfl⟩

theorem OneMore.last {l l' : List (K × K)} (h : OneMore l l') : l.getLast? = l'.getLast? := by
  induction h with
  | here a m b t h1 h2 h3 => simp [List.getLast?_cons_cons]
  | later a l l' h ih =>
    obtain ⟨p, t, t', rfl, rfl⟩ := h.heads
    rw [List.getLast?_cons_cons, List.getLast?_cons_cons, ih]

theorem go_oneMore {l l' : List (K × K)} (h : OneMore l l') : ∀ (x0 y0 x : K) (t t' : List (K × K)), l = (x0, y0) :: t → l' = (x0, y0) :: t' → x0 ≤ x →
    npInterpGo x0 y0 t x = npInterpGo x0 y0 t' x := by
  induction h with
  | here a m b t h1 h2 h3 =>
    intro x0 y0 x s s' hs hs' hx
    obtain ⟨rfl, rfl⟩ := List.cons_eq_cons.1 hs
    obtain ⟨-, rfl⟩ := List.cons_eq_cons.1 hs'
    obtain ⟨m1, m2⟩ := m
    obtain ⟨b1, b2⟩ := b
    simp only at h1 h2 h3
    simp only [npInterpGo]
    by_cases hb : b1 ≤ x
    · rw [if_pos hb, if_pos (h2.trans hb), if_pos hb]
    · rw [if_neg hb]
      have hlt : x0 < b1 := lt_of_le_of_lt hx (not_le.1 hb)
      have hne : b1 - x0 ≠ 0 := (sub_pos.2 hlt).ne'
      by_cases hm : m1 ≤ x
      · rw [if_pos hm, if_neg hb]
        have hne' : b1 - m1 ≠ 0 := (sub_pos.2 (lt_of_le_of_lt hm (not_le.1 hb))).ne'
        have hm2 : m2 = y0 + (b2 - y0) * (m1 - x0) / (b1 - x0) := by
          field_simp
          linear_combination h3
        by_cases hxx : x0 = x
        · have : m1 = x := le_antisymm hm (hxx ▸ h1)
          rw [if_pos hxx, if_pos this, hm2, this, hxx]
          simp
        · rw [if_neg hxx]
          by_cases hmx : m1 = x
          · rw [if_pos hmx, hm2, ← hmx, line]
            ring
          · rw [if_neg hmx, line, line, hm2]
            field_simp
            ring
      · rw [if_neg hm]
        have hlt' : x0 < m1 := lt_of_le_of_lt hx (not_le.1 hm)
        have hne' : m1 - x0 ≠ 0 := (sub_pos.2 hlt').ne'
        by_cases hxx : x0 = x
        · rw [if_pos hxx, if_pos hxx]
        · rw [if_neg hxx, if_neg hxx, line, line]
          congr 2
          rw [div_eq_div_iff hne hne']
          exact h3.symm
  | later a l l' h ih =>
    intro x0 y0 x s s' hs hs' hx
    obtain ⟨rfl, rfl⟩ := List.cons_eq_cons.1 hs
    obtain ⟨-, rfl⟩ := List.cons_eq_cons.1 hs'
    obtain ⟨⟨p1, p2⟩, t, t', rfl, rfl⟩ := h.heads
    simp only [npInterpGo]
    split_ifs with h1 h2
    · exact ih p1 p2 x t t' rfl rfl h1
    · rfl
    · rfl

/-- interpolation does not change -/
theorem interp_oneMore {l l' : List (K × K)} (h : OneMore l l') (lo hi x : K) : interp lo hi l x = interp lo hi l' x := by
  have hl := h.last
  have hgo := go_oneMore h
  obtain ⟨⟨x0, y0⟩, t, t', rfl, rfl⟩ := h.heads
  have hlast : ((x0, y0) :: t).getLast (by simp) = ((x0, y0) :: t').getLast (by simp) := by
    rw [List.getLast?_eq_some_getLast (by simp), List.getLast?_eq_some_getLast (by simp)] at hl
    exact Option.some.inj hl
  unfold interp
  simp only
  rw [hlast]
  split_ifs with h1 h2
  · rfl
  · rfl
  · rw [hgo x0 y0 x t t' rfl rfl (not_lt.1 h1)]

/-! ## histograms -/

/-- a histogram `(edges, contents)` and the same with one bin divided at a point inside it -/
inductive OneCut : List K × List K → List K × List K → Prop
  | here (a m b v : K) (e r : List K) (h1 : a < m) (h2 : m < b) : OneCut (a :: b :: e, v :: r) (a :: m :: b :: e, v :: v :: r)
  | later (a v : K) (e r e' r' : List K) (h : OneCut (e, r) (e', r')) : OneCut (a :: e, v :: r) (a :: e', v :: r')

/-- bins divided any number of times -/
def Finer : List K × List K → List K × List K → Prop := Relation.ReflTransGen OneCut

theorem OneCut.map {h h' : List K × List K} (hc : OneCut h h') (f : K → K) : OneCut (h.1, h.2.map f) (h'.1, h'.2.map f) := by
  generalize hh : h = x at hc
  generalize hh' : h' = y at hc
  induction hc generalizing h h' with
  | here a m b v e r h1 h2 => subst hh hh'; exact OneCut.here a m b (f v) e (r.map f) h1 h2
  | later a v e r e' r' hc ih => subst hh hh'; exact OneCut.later a (f v) e (r.map f) e' (r'.map f) (ih rfl rfl)

theorem OneCut.heads {e r e' r' : List K} (h : OneCut (e, r) (e', r')) : ∃ a b s t v w, e = a :: b :: s ∧ e' = a :: t ∧ r = v :: w ∧ t ≠ [] ∧ ∃ w', r' = v :: w' := by
  generalize hx : (e, r) = x at h
  generalize hy : (e', r') = y at h
  induction h generalizing e r e' r' with
  | here a m b v s t h1 h2 =>
    cases hx; cases hy
    exact ⟨a, b, s, _, v, t, rfl, rfl, rfl, by simp, _, rfl⟩
  | later a v s t s' t' h ih =>
    cases hx; cases hy
    obtain ⟨a2, b2, s2, t2, v2, w2, rfl, rfl, rfl, -, -⟩ := ih rfl rfl
    exact ⟨a, a2, _, _, v, _, rfl, rfl, rfl, by simp, _, rfl⟩

/-- the knots of the cumulated contents, from a first value `c` -/
def cumKnots (e r : List K) (c : K) : List (K × K) := e.zip (c :: cumsumFrom c (Np.mul r (diff e)))

theorem OneCut.facts {h h' : List K × List K} (hc : OneCut h h') :
    (h.1.Pairwise (· < ·) → h'.1.Pairwise (· < ·)) ∧ (∀ x : K, (∀ v ∈ h.1, x < v) → ∀ v ∈ h'.1, x < v) ∧
    (h.1.length = h.2.length + 1 → h'.1.length = h'.2.length + 1) ∧ totalMass h'.1 h'.2 = totalMass h.1 h.2 ∧
    (∀ v ∈ h'.2, v ∈ h.2) ∧ (∀ v ∈ h.2, v ∈ h'.2) ∧ (∀ v ∈ h.1, v ∈ h'.1) ∧
    (∀ c, OneMore (cumKnots h.1 h.2 c) (cumKnots h'.1 h'.2 c)) ∧
    ((∀ v ∈ h.2, 0 ≤ v) → ∀ c, OneMore ((cumKnots h.1 h.2 c).map Prod.swap) ((cumKnots h'.1 h'.2 c).map Prod.swap)) ∧
    (∀ (j : ℕ) (x v : K), Inside h'.1 j x → h'.2[j]? = some v → ∃ i : ℕ, Inside h.1 i x ∧ h.2[i]? = some v) := by
  induction hc with
  | here a m b v e r h1 h2 =>
    refine ⟨?_, ?_, ?_, ?_, ?_, ?_, ?_, ?_, ?_, ?_⟩
    · intro hp
      simp only [List.pairwise_cons, List.mem_cons, forall_eq_or_imp] at hp ⊢
      exact ⟨⟨h1, hp.1⟩, ⟨h2, fun x hx => h2.trans (hp.2.1 x hx)⟩, hp.2⟩
    · intro x hx w hw
      simp only [List.mem_cons, forall_eq_or_imp] at hx hw
      rcases hw with rfl | rfl | rfl | hw
      exacts [hx.1, hx.1.trans h1, hx.2.1, hx.2.2 w hw]
    · simp
    · simp only [totalMass]; ring
    · simp
    · simp
    · simp only [List.mem_cons]; tauto
    · intro c
      have := OneMore.here (a, c) (m, c + v * (m - a)) (b, c + v * (b - a)) (e.zip (cumsumFrom (c + v * (b - a)) (Np.mul r (diff (b :: e))))) h1.le h2.le (by ring)
      have he : c + v * (m - a) + v * (b - m) = c + v * (b - a) := by ring
      simpa [cumKnots, diff, Np.mul, cumsumFrom, he] using this
    · intro hv c
      have hv0 : 0 ≤ v := hv v (by simp)
      have := OneMore.here (c, a) (c + v * (m - a), m) (c + v * (b - a), b) ((e.zip (cumsumFrom (c + v * (b - a)) (Np.mul r (diff (b :: e))))).map Prod.swap)
        (by have := mul_nonneg hv0 (sub_nonneg.2 h1.le); simpa using this) (by have := mul_le_mul_of_nonneg_left (sub_le_sub_right h2.le a) hv0; simpa using this) (by ring)
      have he : c + v * (m - a) + v * (b - m) = c + v * (b - a) := by ring
      simpa [cumKnots, diff, Np.mul, cumsumFrom, he] using this
    · rintro j x w ⟨p, q, hp, hq, hpx, hxq⟩ hw
      match j with
      | 0 =>
        simp only [List.getElem?_cons_zero, List.getElem?_cons_succ, zero_add, Option.some.injEq] at hp hq hw
        exact ⟨0, ⟨a, b, rfl, rfl, hp ▸ hpx, hxq.trans (hq ▸ h2)⟩, by simpa using hw⟩
      | 1 =>
        simp only [List.getElem?_cons_zero, List.getElem?_cons_succ, Option.some.injEq] at hp hq hw
        exact ⟨0, ⟨a, b, rfl, rfl, h1.trans (hp ▸ hpx), hq ▸ hxq⟩, by simpa using hw⟩
      | j + 2 =>
        exact ⟨j + 1, ⟨p, q, by simpa using hp, by simpa using hq, hpx, hxq⟩, by simpa using hw⟩
  | later a v e r e' r' h ih =>
    obtain ⟨i1, i2, i3, i4, i5, i6, i7, i8, i9, i10⟩ := ih
    obtain ⟨a2, b2, s2, t2, v2, w2, rfl, rfl, rfl, ht2, w3, rfl⟩ := h.heads
    simp only at i1 i2 i3 i4 i5 i6 i7 i8 i9 i10
    refine ⟨?_, ?_, ?_, ?_, ?_, ?_, ?_, ?_, ?_, ?_⟩
    · intro hp
      rw [List.pairwise_cons] at hp ⊢
      exact ⟨i2 a hp.1, i1 hp.2⟩
    · intro x hx
      rw [List.forall_mem_cons] at hx ⊢
      exact ⟨hx.1, i2 x hx.2⟩
    · intro hl
      simpa using i3 (by simpa using hl)
    · simp only [totalMass] at i4 ⊢
      rw [i4]
    · intro u hu
      rcases List.mem_cons.1 hu with rfl | hu
      exacts [List.mem_cons_self, List.mem_cons_of_mem _ (i5 u hu)]
    · intro u hu
      rcases List.mem_cons.1 hu with rfl | hu
      exacts [List.mem_cons_self, List.mem_cons_of_mem _ (i6 u hu)]
    · intro u hu
      rcases List.mem_cons.1 hu with rfl | hu
      exacts [List.mem_cons_self, List.mem_cons_of_mem _ (i7 u hu)]
    · intro c
      have := OneMore.later (a, c) _ _ (i8 (c + v * (a2 - a)))
      simpa [cumKnots, diff, Np.mul, cumsumFrom] using this
    · intro hv c
      have := OneMore.later (c, a) _ _ (i9 (fun u hu => hv u (List.mem_cons_of_mem _ hu)) (c + v * (a2 - a)))
      simpa [cumKnots, diff, Np.mul, cumsumFrom] using this
    · rintro j x w ⟨p, q, hp, hq, hpx, hxq⟩ hw
      match j with
      | 0 =>
        exact ⟨0, ⟨p, q, hp, by simpa using hq, hpx, hxq⟩, by simpa using hw⟩
      | j + 1 =>
        obtain ⟨i, ⟨p', q', h1, h2, h3, h4⟩, hi⟩ := i10 j x w ⟨p, q, by simpa using hp, by simpa using hq, hpx, hxq⟩ (by simpa using hw)
        exact ⟨i + 1, ⟨p', q', by simpa using h1, by simpa using h2, h3, h4⟩, by simpa using hi⟩

theorem Finer.map {h h' : List K × List K} (hf : Finer h h') (f : K → K) : Finer (h.1, h.2.map f) (h'.1, h'.2.map f) := by
  induction hf with
  | refl => exact Relation.ReflTransGen.refl
  | tail _ hc ih => exact ih.tail (hc.map f)

theorem last_mem_max {l : List K} (hs : l.Pairwise (· < ·)) (hne : l ≠ []) : ∀ v ∈ l, v ≤ l.getLast hne := fun _ hv => getLast_max hs hne hv

theorem OneCut.ends {e r e' r' : List K} (h : OneCut (e, r) (e', r')) (hs : e.length = r.length + 1) : e.head? = e'.head? ∧ e.getLast? = e'.getLast? := by
  have hl := (h.facts.2.2.1) hs
  obtain ⟨-, -, -, -, -, -, -, h8, -, -⟩ := h.facts
  have hh := (h8 0)
  obtain ⟨a, b, s, t, v, w, rfl, rfl, rfl, -, -⟩ := h.heads
  refine ⟨rfl, ?_⟩
  have key : ∀ e r : List K, e.length = r.length + 1 → (cumKnots e r 0).map Prod.fst = e := by
    intro e r hl
    unfold cumKnots
    rw [List.map_fst_zip]
    have := Np.length_diff e
    simp [length_cumsumFrom, Np.mul, this]
    omega
  have := congrArg (Option.map Prod.fst) hh.last
  rw [← List.getLast?_map, ← List.getLast?_map, key _ _ hs, key _ _ hl] at this
  exact this

/-- CDF and PPF of stored contents do not change -/
theorem stored_finer {h h' : List K × List K} (hf : Finer h h') (hl : h.1.length = h.2.length + 1) :
    h'.1.length = h'.2.length + 1 ∧ (h.1.Pairwise (· < ·) → h'.1.Pairwise (· < ·)) ∧ totalMass h'.1 h'.2 = totalMass h.1 h.2 ∧ (∀ v ∈ h'.2, v ∈ h.2) ∧ h.2.length ≤ h'.2.length ∧
    (∀ x, histCdf h'.1 h'.2 x = histCdf h.1 h.2 x) ∧ ((∀ v ∈ h.2, 0 ≤ v) → ∀ q, histPpf h'.1 h'.2 q = histPpf h.1 h.2 q) ∧
    (∀ (j : ℕ) (x v : K), Inside h'.1 j x → h'.2[j]? = some v → ∃ i : ℕ, Inside h.1 i x ∧ h.2[i]? = some v) ∧ (∀ v ∈ h.1, v ∈ h'.1) := by
  induction hf with
  | refl => exact ⟨hl, id, rfl, fun _ hv => hv, le_rfl, fun _ => rfl, fun _ _ => rfl, fun j x v h1 h2 => ⟨j, h1, h2⟩, fun _ hv => hv⟩
  | @tail h1 h2 _ hc ih =>
    obtain ⟨i1, i2, i3, i4, i5, i6, i7, i8, i9⟩ := ih
    obtain ⟨c1, -, c3, c4, c5, -, c7, c8, c9, c10⟩ := hc.facts
    obtain ⟨e1, r1⟩ := h1
    obtain ⟨e2, r2⟩ := h2
    simp only at i1 i2 i3 i4 i5 i6 i7 i8 i9 c1 c3 c4 c5 c7 c8 c9 c10 ⊢
    have hends := hc.ends i1
    have hlen : r1.length ≤ r2.length := by
      clear * - hc
      generalize hx : (e1, r1) = x at hc
      generalize hy : (e2, r2) = y at hc
      induction hc generalizing e1 r1 e2 r2 with
      | here a m b v e r h1 h2 => cases hx; cases hy; simp
      | later a v e r e' r' h ih => cases hx; cases hy; simpa using ih _ _ _ _ rfl rfl
    refine ⟨c3 i1, fun hs => c1 (i2 hs), c4.trans i3, fun v hv => i4 v (c5 v hv), i5.trans hlen, fun x => ?_, fun hv q => ?_, fun j x v h1 h2 => ?_, fun v hv => c7 v (i9 v hv)⟩
    · rw [← i6 x]
      have hz : ∀ e r : List K, e.zip (histCumul e r) = cumKnots e r 0 := fun e r => rfl
      rw [histCdf, histCdf, hz, hz, interp_oneMore (c8 0)]
    · rw [← i7 hv q]
      have hz : ∀ e r : List K, (histCumul e r).zip e = (cumKnots e r 0).map Prod.swap := fun e r => (zip_swap _ _).symm
      obtain ⟨a, b, s, t, v, w, rfl, rfl, rfl, ht, w', rfl⟩ := hc.heads
      have hlast : (a :: t).getLast (by simp) = (a :: b :: s).getLast (by simp) := by
        have := hends.2
        rw [List.getLast?_eq_some_getLast (by simp), List.getLast?_eq_some_getLast (by simp)] at this
        exact (Option.some.inj this).symm
      simp only [histPpf]
      rw [hz, hz, hlast, interp_oneMore (c9 (fun u hu => hv u (i4 u hu)) 0)]
    · obtain ⟨i, hi1, hi2⟩ := c10 j x v h1 h2
      exact i8 i x v hi1 hi2

/-- **C130: histograms.** Dividing bins, any number of times, keeps the density inside the bins and outside all of them, the CDF everywhere and (for contents that are not
negative) the PPF everywhere. The density is compared on grids that the code recognises (C05, C06). -/
theorem C130_hist [FloorRing K] {edges row edges' row' p : List K} (hf : Finer (edges, row) (edges', row')) (hg : Grid edges row.length)
    (hp : histNormRow edges row = some p) :
    Grid edges' row'.length ∧ ∃ p', histNormRow edges' row' = some p' ∧ (∀ x, histCdf edges' p' x = histCdf edges p x) ∧
      ((∀ v ∈ row, 0 ≤ v) → ∀ q, histPpf edges' p' q = histPpf edges p q) ∧
      (Uniform edges ∨ DetectablyNonUniform edges → Uniform edges' ∨ DetectablyNonUniform edges' → ∀ x,
        ((∃ j, Inside edges' j x) ∨ (∀ e ∈ edges', x < e) ∨ ∀ e ∈ edges', e < x) → histPdf edges' p' x = histPdf edges p x) := by
  obtain ⟨f1, f2, f3, f4, f5, -, -, f8, f9⟩ := stored_finer hf hg.size
  simp only at f1 f2 f3 f4 f5 f8 f9
  have hg' : Grid edges' row'.length := ⟨f2 hg.strict, f1, hg.pos.trans f5⟩
  refine ⟨hg', ?_⟩
  have hm : totalMass edges row ≠ 0 := fun h0 => by
    rw [(C07_row_normalised edges row).1 h0] at hp
    cases hp
  obtain ⟨p1, hp1, -, hp1e, hp1n⟩ := (C07_row_normalised edges row).2 hm
  rw [hp] at hp1
  cases hp1
  obtain ⟨p', hp', -, hpe', -⟩ := (C07_row_normalised edges' row').2 (f3 ▸ hm)
  rw [f3] at hpe'
  have hfm := hf.map (· / totalMass edges row)
  simp only at hfm
  rw [← hpe', ← hp1e] at hfm
  have hpl : p.length = row.length := by rw [hp1e, List.length_map]
  obtain ⟨-, -, -, -, -, g6, g7, -, -⟩ := stored_finer hfm (by rw [hpl]; exact hg.size)
  refine ⟨p', hp', g6, fun hv q => g7 (hp1n hg.strict hv) q, fun hu hu' x hx => ?_⟩
  have c1 := C06_hist_pdf_partial edges row p hg hu hp x
  have c2 := C06_hist_pdf_partial edges' row' p' hg' hu' hp' x
  rcases hx with ⟨j, hj⟩ | hx
  · have hj' := hj
    obtain ⟨a, b, -, hb, -, -⟩ := hj'
    have hjl : j < row'.length := by
      have := (List.getElem?_eq_some_iff.1 hb).1
      rw [f1] at this
      omega
    obtain ⟨i, hi, hiv⟩ := f8 j x _ hj (List.getElem?_eq_getElem hjl)
    rw [c2.1 j _ hj (List.getElem?_eq_getElem hjl), c1.1 i _ hi hiv, f3]
  · rw [c2.2 hx, c1.2 (hx.imp (fun h e he => h e (f9 e he)) (fun h e he => h e (f9 e he)))]

/-- **C130: moments.** The mean that the code reports depends on the description: 1/2 for a uniform PDF on two equal bins, not if the second one is divided. -/
theorem C130_hist_moment_changes : ∃ edges row edges' row' : List ℚ, Finer (edges, row) (edges', row') ∧ Grid edges row.length ∧
    histMoment edges row 1 = .ok (1 / 2) ∧ histMoment edges' row' 1 = .ok (7 / 8) :=
  ⟨[0, 1/2, 1], [1, 1], [0, 1/2, 3/4, 1], [1, 1, 1], Relation.ReflTransGen.single (OneCut.later 0 1 _ _ _ _ (OneCut.here (1/2) (3/4) 1 1 [] [] (by norm_num) (by norm_num))),
    ⟨by decide +kernel, rfl, by decide⟩, by decide +kernel, by decide +kernel⟩

/-! ## interpolated PDFs -/

/-- a PDF given by its values at grid points and the same with one more grid point, where the value lies on the line between its neighbours -/
inductive OnePoint : List K × List K → List K × List K → Prop
  | here (a m b u w v : K) (xs ys : List K) (h1 : a < m) (h2 : m < b) (h3 : (w - u) * (b - a) = (v - u) * (m - a)) :
      OnePoint (a :: b :: xs, u :: v :: ys) (a :: m :: b :: xs, u :: w :: v :: ys)
  | later (a u : K) (xs ys xs' ys' : List K) (h : OnePoint (xs, ys) (xs', ys')) : OnePoint (a :: xs, u :: ys) (a :: xs', u :: ys')

/-- grid points added any number of times -/
def MorePoints : List K × List K → List K × List K → Prop := Relation.ReflTransGen OnePoint

theorem OnePoint.div {h h' : List K × List K} (hc : OnePoint h h') (s : K) : OnePoint (h.1, h.2.map (· / s)) (h'.1, h'.2.map (· / s)) := by
  generalize hh : h = x at hc
  generalize hh' : h' = y at hc
  induction hc generalizing h h' with
  | here a m b u w v xs ys h1 h2 h3 =>
    subst hh hh'
    refine OnePoint.here a m b (u / s) (w / s) (v / s) xs (ys.map (· / s)) h1 h2 ?_
    rw [← sub_div, ← sub_div, div_mul_eq_mul_div, div_mul_eq_mul_div, h3]
  | later a u xs ys xs' ys' hc ih => subst hh hh'; exact OnePoint.later a (u / s) _ _ _ _ (ih rfl rfl)

theorem MorePoints.div {h h' : List K × List K} (hc : MorePoints h h') (s : K) : MorePoints (h.1, h.2.map (· / s)) (h'.1, h'.2.map (· / s)) := by
  induction hc with
  | refl => exact Relation.ReflTransGen.refl
  | tail _ hc ih => exact ih.tail (hc.div s)

theorem OnePoint.heads {xs ys xs' ys' : List K} (h : OnePoint (xs, ys) (xs', ys')) :
    ∃ a b s u v t, xs = a :: b :: s ∧ ys = u :: v :: t ∧ ∃ b' s' v' t', xs' = a :: b' :: s' ∧ ys' = u :: v' :: t' := by
  generalize hx : (xs, ys) = x at h
  generalize hy : (xs', ys') = y at h
  induction h generalizing xs ys xs' ys' with
  | here a m b u w v s t h1 h2 h3 =>
    cases hx; cases hy
    exact ⟨a, b, s, u, v, t, rfl, rfl, m, _, w, _, rfl, rfl⟩
  | later a u s t s' t' h ih =>
    cases hx; cases hy
    obtain ⟨a2, b2, s2, u2, v2, t2, rfl, rfl, b', s3, v', t3, rfl, rfl⟩ := ih rfl rfl
    exact ⟨a, a2, _, u, u2, _, rfl, rfl, a2, _, u2, _, rfl, rfl⟩

theorem OnePoint.facts {h h' : List K × List K} (hc : OnePoint h h') :
    (h.1.Pairwise (· < ·) → h'.1.Pairwise (· < ·)) ∧ (∀ x : K, (∀ v ∈ h.1, x < v) → ∀ v ∈ h'.1, x < v) ∧
    (h.1.length = h.2.length → h'.1.length = h'.2.length) ∧ area h'.1 h'.2 = area h.1 h.2 ∧ OneMore (h.1.zip h.2) (h'.1.zip h'.2) ∧
    h'.2.length = h.2.length + 1 ∧
    (∀ (i : ℕ) (x : K), h.1[i]? = some x → ∃ j : ℕ, h'.1[j]? = some x ∧ areaTo j h'.1 h'.2 = areaTo i h.1 h.2 ∧ (i = 0 ↔ j = 0)) := by
  induction hc with
  | here a m b u w v xs ys h1 h2 h3 =>
    have hab : 0 < b - a := sub_pos.2 (h1.trans h2)
    have hw : w = u + (v - u) * (m - a) / (b - a) := by
      field_simp
      linear_combination h3
    have harea : ((m - a) * (u + w) / 2 + (b - m) * (w + v) / 2) = (b - a) * (u + v) / 2 := by
      have : (m - a) * (u + w) + (b - m) * (w + v) = (b - a) * (u + v) := by linear_combination h3
      rw [← add_div, this]
    refine ⟨?_, ?_, ?_, ?_, ?_, ?_, ?_⟩
    · intro hp
      simp only [List.pairwise_cons, List.mem_cons, forall_eq_or_imp] at hp ⊢
      exact ⟨⟨h1, hp.1⟩, ⟨h2, fun x hx => h2.trans (hp.2.1 x hx)⟩, hp.2⟩
    · intro x hx w hw
      simp only [List.mem_cons, forall_eq_or_imp] at hx hw
      rcases hw with rfl | rfl | rfl | hw
      exacts [hx.1, hx.1.trans h1, hx.2.1, hx.2.2 w hw]
    · simp
    · simp only [area]
      linear_combination harea
    · exact OneMore.here (a, u) (m, w) (b, v) (xs.zip ys) h1.le h2.le h3
    · simp
    · intro i x hi
      match i with
      | 0 => exact ⟨0, by simpa using hi, by simp [areaTo], by simp⟩
      | i + 1 =>
        refine ⟨i + 2, by simpa using hi, ?_, by simp⟩
        simp only [areaTo]
        linear_combination harea
  | later a u xs ys xs' ys' h ih =>
    obtain ⟨i1, i2, i3, i4, i5, i6, i7⟩ := ih
    obtain ⟨a2, b2, s2, u2, v2, t2, rfl, rfl, b', s3, v', t3, rfl, rfl⟩ := h.heads
    simp only at i1 i2 i3 i4 i5 i6 i7
    refine ⟨?_, ?_, ?_, ?_, ?_, ?_, ?_⟩
    · intro hp
      rw [List.pairwise_cons] at hp ⊢
      exact ⟨i2 a hp.1, i1 hp.2⟩
    · intro x hx
      rw [List.forall_mem_cons] at hx ⊢
      exact ⟨hx.1, i2 x hx.2⟩
    · intro hl
      simpa using i3 (by simpa using hl)
    · simp only [area] at i4 ⊢
      rw [i4]
    · exact OneMore.later (a, u) _ _ i5
    · simpa using i6
    · intro i x hi
      match i with
      | 0 => exact ⟨0, by simpa using hi, by simp [areaTo], by simp⟩
      | i + 1 =>
        obtain ⟨j, hj1, hj2, -⟩ := i7 i x (by simpa using hi)
        refine ⟨j + 1, by simpa using hj1, ?_, by simp⟩
        simp only [areaTo] at hj2 ⊢
        rw [hj2]

theorem points_facts {h h' : List K × List K} (hc : MorePoints h h') (hl : h.1.length = h.2.length) :
    (h.1.Pairwise (· < ·) → h'.1.Pairwise (· < ·)) ∧ h'.1.length = h'.2.length ∧ area h'.1 h'.2 = area h.1 h.2 ∧ h.2.length ≤ h'.2.length ∧
    (∀ lo hi x, interp lo hi (h'.1.zip h'.2) x = interp lo hi (h.1.zip h.2) x) ∧
    (∀ (i : ℕ) (x : K), h.1[i]? = some x → ∃ j : ℕ, h'.1[j]? = some x ∧ areaTo j h'.1 h'.2 = areaTo i h.1 h.2 ∧ (i = 0 ↔ j = 0)) := by
  induction hc with
  | refl => exact ⟨id, hl, rfl, le_rfl, fun _ _ _ => rfl, fun i x h => ⟨i, h, rfl, Iff.rfl⟩⟩
  | tail _ hc ih =>
    obtain ⟨i1, i2, i3, i4, i5, i6⟩ := ih
    obtain ⟨c1, -, c3, c4, c5, c6, c7⟩ := hc.facts
    refine ⟨fun hs => c1 (i1 hs), c3 i2, c4.trans i3, by omega, fun lo hi x => (interp_oneMore c5 lo hi x).symm.trans (i5 lo hi x), fun i x hi => ?_⟩
    obtain ⟨j, j1, j2, j3⟩ := i6 i x hi
    obtain ⟨k, k1, k2, k3⟩ := c7 j x j1
    exact ⟨k, k1, k2.trans j2, j3.trans k3⟩

/-- **C130 (partial): interpolated PDFs.** Grid points added on the lines, any number of them, keep the density everywhere and the CDF at all the old grid points but
the first. Missing: the CDF between the grid points, which changes (`C130_interp_cdf_changes`). -/
theorem C130_interp_partial {xs row xs' row' ys c : List K} (hf : MorePoints (xs, row) (xs', row')) (hg : XGrid xs row.length)
    (hp : interpNormRow xs row = .ok (some (ys, c))) :
    XGrid xs' row'.length ∧ ∃ ys' c', interpNormRow xs' row' = .ok (some (ys', c')) ∧ (∀ x, interpPdf xs' ys' x = interpPdf xs ys x) ∧
      ∀ (i : ℕ) (x : K), xs[i + 1]? = some x → interpCdf xs' c' x = interpCdf xs c x := by
  obtain ⟨f1, f2, f3, f4, -, -⟩ := points_facts hf hg.size
  simp only at f1 f2 f3 f4
  have hg' : XGrid xs' row'.length := ⟨f1 hg.strict, f2, hg.two.trans f4⟩
  refine ⟨hg', ?_⟩
  have ha : area xs row ≠ 0 := fun h0 => by
    rw [(C12_interp_normalises xs row hg).1 h0] at hp
    cases hp
  obtain ⟨y1, c1, h1, -, hy1, -⟩ := (C12_interp_normalises xs row hg).2 ha
  rw [hp] at h1
  cases h1
  obtain ⟨ys', c', h2, -, hy2, -⟩ := (C12_interp_normalises xs' row' hg').2 (f3 ▸ ha)
  rw [f3] at hy2
  have hfm := hf.div (area xs row)
  simp only at hfm
  rw [← hy2, ← hy1] at hfm
  obtain ⟨-, -, -, -, g5, g6⟩ := points_facts hfm (by rw [hy1, List.length_map]; exact hg.size)
  refine ⟨ys', c', h2, fun x => g5 0 0 x, fun i x hi => ?_⟩
  obtain ⟨j, hj1, hj2, hj3⟩ := g6 (i + 1) x hi
  simp only at hj1 hj2
  obtain ⟨j, rfl⟩ := Nat.exists_eq_succ_of_ne_zero (fun h0 => by simp [h0] at hj3 : j ≠ 0)
  rw [(C13_cdf_at_grid xs' ys' c' ⟨row', hg', h2⟩).1 j x hj1, (C13_cdf_at_grid xs ys c ⟨row, hg, hp⟩).1 i x hi, ← hj2]

/-- the CDF in between changes: the density `2 x` with and without a grid point in the middle -/
theorem C130_interp_cdf_changes : ∃ (xs row xs' row' c c' : List ℚ) (x : ℚ), MorePoints (xs, row) (xs', row') ∧ XGrid xs row.length ∧
    interpNormRow xs row = .ok (some (row, c)) ∧ interpNormRow xs' row' = .ok (some (row', c')) ∧ interpCdf xs c x = some (1 / 2) ∧ interpCdf xs' c' x = some (1 / 4) :=
  ⟨[0, 1], [0, 2], [0, 1/2, 1], [0, 1, 2], [0, 1], [0, 1/4, 1], 1/2, Relation.ReflTransGen.single (OnePoint.here 0 (1/2) 1 0 1 2 [] [] (by norm_num) (by norm_num) (by norm_num)),
    ⟨by decide +kernel, rfl, by decide⟩, by decide +kernel, by decide +kernel, by decide +kernel, by decide +kernel⟩

/-- with a grid per PDF even the density changes, since the contents are normalised by right-hand rectangles: the same PDF has 1 or 4/3 at the same point -/
theorem C130_irregular_changes : ∃ (xs row xs' row' ys ys' : List ℚ) (x : ℚ), MorePoints (xs, row) (xs', row') ∧ XGrid xs row.length ∧
    irrNormRow xs row = some ys ∧ irrNormRow xs' row' = some ys' ∧ interpPdf xs ys x = some 1 ∧ interpPdf xs' ys' x = some (4 / 3) :=
  ⟨[0, 1], [0, 2], [0, 1/2, 1], [0, 1, 2], [0, 1], [0, 2/3, 4/3], 1, Relation.ReflTransGen.single (OnePoint.here 0 (1/2) 1 0 1 2 [] [] (by norm_num) (by norm_num) (by norm_num)),
    ⟨by decide +kernel, rfl, by decide⟩, by decide +kernel, by decide +kernel, by decide +kernel, by decide +kernel⟩

/-! ## mixtures -/

/-- the same mixture: components (weight, mean, width) in another order, or one of them divided -/
inductive SameMix : List (ℝ × ℝ × ℝ) → List (ℝ × ℝ × ℝ) → Prop
  | perm (c c' : List (ℝ × ℝ × ℝ)) (h : c.Perm c') : SameMix c c'
  | split (a b μ σ : ℝ) (c : List (ℝ × ℝ × ℝ)) : SameMix ((a + b, μ, σ) :: c) ((a, μ, σ) :: (b, μ, σ) :: c)

/-- weights, means and widths as lists -/
def mixOf (c : List (ℝ × ℝ × ℝ)) (w : List ℝ) : GMix := ⟨w, c.map fun x => x.2.1, c.map fun x => x.2.2⟩

/-- the mixture that the constructor stores -/
noncomputable def stored (c : List (ℝ × ℝ × ℝ)) : GMix := mixOf c ((mixNormRow (c.map Prod.fst)).getD [])

theorem mixEval_map (c : List (ℝ × ℝ × ℝ)) (f : ℝ → ℝ → ℝ → ℝ) (g : ℝ → ℝ) (x : ℝ) :
    mixEval (c.map fun p => g p.1) (List.zipWith f (c.map fun p => p.2.1) (c.map fun p => p.2.2)) x = (c.map fun p => g p.1 * f p.2.1 p.2.2 x).sum := by
  unfold mixEval
  rw [sum_eq]
  induction c with
  | nil => rfl
  | cons a c ih => simp only [List.map_cons, List.zipWith_cons_cons, List.sum_cons] at ih ⊢; rw [ih]

theorem sameMix_sum {c c' : List (ℝ × ℝ × ℝ)} (h : SameMix c c') (f : ℝ × ℝ → ℝ) : (c.map fun p => p.1 * f p.2).sum = (c'.map fun p => p.1 * f p.2).sum := by
  cases h with
  | perm _ _ h => exact (h.map _).sum_eq
  | split a b μ σ c => simp only [List.map_cons, List.sum_cons]; ring

theorem minOf_eq {l l' : List ℝ} (h : ∀ x, x ∈ l ↔ x ∈ l') : l.min? = l'.min? ∧ l.max? = l'.max? := by
  have mn : ∀ l : List ℝ, ∀ a, l.min? = some a ↔ a ∈ l ∧ ∀ b ∈ l, a ≤ b := fun l a => List.min?_eq_some_iff
  have mx : ∀ l : List ℝ, ∀ a, l.max? = some a ↔ a ∈ l ∧ ∀ b ∈ l, b ≤ a := fun l a => List.max?_eq_some_iff
  refine ⟨Option.ext fun a => ?_, Option.ext fun a => ?_⟩
  · rw [mn, mn, h]; simp only [h]
  · rw [mx, mx, h]; simp only [h]

/-- **C130: mixtures.** Components in another order, or one component divided into two with the same mean and width: density, CDF and PPF are the same everywhere, whatever
other PDFs the ensemble holds. -/
theorem C130_mixture {c c' : List (ℝ × ℝ × ℝ)} (h : Relation.ReflTransGen SameMix c c') (hs : (c.map Prod.fst).sum ≠ 0) :
    (c'.map Prod.fst).sum = (c.map Prod.fst).sum ∧
    (∀ x, gmixPdf (stored c').w (stored c').μs (stored c').σs x = gmixPdf (stored c).w (stored c).μs (stored c).σs x) ∧
    (∀ x, gmixCdf (stored c').w (stored c').μs (stored c').σs x = gmixCdf (stored c).w (stored c).μs (stored c).σs x) ∧
    ∀ before after q, gmixPpfIn (before ++ stored c' :: after) (stored c') q = gmixPpfIn (before ++ stored c :: after) (stored c) q := by
  induction h with
  | refl => exact ⟨rfl, fun _ => rfl, fun _ => rfl, fun _ _ _ => rfl⟩
  | @tail d d' _ hd ih =>
    obtain ⟨i1, i2, i3, i4⟩ := ih
    have hsum : (d'.map Prod.fst).sum = (d.map Prod.fst).sum := by
      have := sameMix_sum hd fun _ => 1
      simpa using this.symm
    have hw : ∀ e : List (ℝ × ℝ × ℝ), (e.map Prod.fst).sum ≠ 0 → stored e = mixOf e (e.map fun p => p.1 / (e.map Prod.fst).sum) := by
      intro e he
      unfold stored mixNormRow
      rw [sum_eq, if_neg he, Option.getD_some, List.map_map]
      rfl
    have h1 := hw d (i1 ▸ hs)
    have h2 := hw d' (by rw [hsum, i1]; exact hs)
    have heval : ∀ (f : ℝ → ℝ → ℝ → ℝ) (x : ℝ), mixEval (stored d').w (List.zipWith f (stored d').μs (stored d').σs) x =
        mixEval (stored d).w (List.zipWith f (stored d).μs (stored d).σs) x := by
      intro f x
      rw [h1, h2]
      simp only [mixOf]
      rw [mixEval_map d' f (fun w => w / (d'.map Prod.fst).sum), mixEval_map d f (fun w => w / (d.map Prod.fst).sum), hsum]
      have := sameMix_sum hd fun p => f p.1 p.2 x / (d.map Prod.fst).sum
      simp only [div_mul_eq_mul_div, ← mul_div_assoc] at this ⊢
      exact this.symm
    refine ⟨hsum.trans i1, fun x => (heval normPdf x).trans (i2 x), fun x => (heval normCdf x).trans (i3 x), fun before after q => ?_⟩
    rw [← i4 before after q]
    have hcomp : ∀ (g : ℝ → ℝ → ℝ) (y : ℝ), y ∈ List.zipWith g (stored d').μs (stored d').σs ↔ y ∈ List.zipWith g (stored d).μs (stored d).σs := by
      intro g y
      have hz : ∀ e : List (ℝ × ℝ × ℝ), List.zipWith g (stored e).μs (stored e).σs = e.map fun p => g p.2.1 p.2.2 := by
        intro e
        simp only [stored, mixOf]
        induction e with
        | nil => rfl
        | cons a e ih => simp only [List.map_cons, List.zipWith_cons_cons, ih]
      rw [hz, hz]
      cases hd with
      | perm _ _ h => exact ((h.map _).mem_iff).symm
      | split a b μ σ e => simp
    have hflat : ∀ (g : ℝ → ℝ → ℝ) (y : ℝ), y ∈ (before ++ stored d' :: after).flatMap (fun r => List.zipWith g r.μs r.σs) ↔
        y ∈ (before ++ stored d :: after).flatMap (fun r => List.zipWith g r.μs r.σs) := by
      intro g y
      simp only [List.flatMap_append, List.flatMap_cons, List.mem_append, hcomp]
    have hlo : gmixLo (before ++ stored d' :: after) = gmixLo (before ++ stored d :: after) := by
      unfold gmixLo
      rw [(minOf_eq (hflat _)).1]
    have hhi : gmixHi (before ++ stored d' :: after) = gmixHi (before ++ stored d :: after) := by
      unfold gmixHi
      rw [(minOf_eq (hflat _)).2]
    unfold gmixPpfIn gmixPpf
    rw [hlo, hhi]
    have hcdf : gmixCdf (stored d').w (stored d').μs (stored d').σs = gmixCdf (stored d).w (stored d).μs (stored d).σs := funext fun x => heval normCdf x
    rw [hcdf]

/-- below the tabulated CDF the PPF returns the lower end of the grid -/
theorem ppf_below (w μs σs : List ℝ) (lo hi q : ℝ) (hq : q < gmixCdf w μs σs lo) : gmixPpf w μs σs lo hi q = some lo := by
  have hgrid : ∃ t, gmixGrid lo hi = lo :: t := by
    have hh := Verif.Props.Metrics.head_linspace lo hi 201 (by norm_num)
    unfold gmixGrid
    cases hg : linspace lo hi 201 with
    | nil => rw [hg] at hh; cases hh
    | cons a t => rw [hg] at hh; cases hh; exact ⟨t, rfl⟩
  obtain ⟨t, ht⟩ := hgrid
  unfold gmixPpf interp
  rw [ht]
  simp only [List.map_cons, List.zip_cons_cons]
  rw [if_pos hq]

/-- **C130: components of weight zero.** They change neither density nor CDF. But they change the PPF: its grid reaches from the leftmost to the rightmost component,
whatever its weight, and at small probabilities the PPF is the left end of the grid. -/
theorem C130_zero_weight (c : List (ℝ × ℝ × ℝ)) (μ σ : ℝ) (hs : (c.map Prod.fst).sum ≠ 0) :
    (∀ x, gmixPdf (stored ((0, μ, σ) :: c)).w (stored ((0, μ, σ) :: c)).μs (stored ((0, μ, σ) :: c)).σs x = gmixPdf (stored c).w (stored c).μs (stored c).σs x) ∧
    (∀ x, gmixCdf (stored ((0, μ, σ) :: c)).w (stored ((0, μ, σ) :: c)).μs (stored ((0, μ, σ) :: c)).σs x = gmixCdf (stored c).w (stored c).μs (stored c).σs x) := by
  have hst : stored ((0, μ, σ) :: c) = ⟨0 :: (stored c).w, μ :: (stored c).μs, σ :: (stored c).σs⟩ := by
    have hn : ∀ l : List ℝ, l.sum ≠ 0 → mixNormRow l = some (l.map (· / l.sum)) := fun l hl => if_neg hl
    unfold stored
    rw [hn _ hs, hn _ (by simpa using hs)]
    simp [mixOf]
  have hev : ∀ (f : ℝ → ℝ → ℝ → ℝ) (x : ℝ), mixEval (0 :: (stored c).w) (List.zipWith f (μ :: (stored c).μs) (σ :: (stored c).σs)) x =
      mixEval (stored c).w (List.zipWith f (stored c).μs (stored c).σs) x := by
    intro f x
    simp only [mixEval, List.zipWith_cons_cons, sum_eq, List.sum_cons, zero_mul, zero_add]
  rw [hst]
  exact ⟨fun x => hev normPdf x, fun x => hev normCdf x⟩

/-- the standard normal distribution without and with a component of weight zero at -100: the same small probability has the quantiles -6 and -106 -/
theorem C130_zero_weight_ppf_changes : ∃ q : ℝ, 0 < q ∧ q < 1 ∧ gmixPpfIn [stored [(1, 0, 1)]] (stored [(1, 0, 1)]) q = some (-6) ∧
    gmixPpfIn [stored [(0, -100, 1), (1, 0, 1)]] (stored [(0, -100, 1), (1, 0, 1)]) q = some (-106) := by
  have h1 : stored [(1, 0, 1)] = ⟨[1], [0], [1]⟩ := by simp [stored, mixNormRow, mixOf, sum_eq]
  have h2 : stored [(0, -100, 1), (1, 0, 1)] = ⟨[0, 1], [-100, 0], [1, 1]⟩ := by simp [stored, mixNormRow, mixOf, sum_eq]
  have hok : Verif.Props.MixReal.MixOK [1] [0] [1] := ⟨rfl, rfl, by simp, by simp, by simp⟩
  have hmono := (Verif.Props.MixReal.C90_density [1] [0] [1] hok).2.2.2.2
  have hF : ∀ x, gmixCdf [1] [0] [1] x = normCdf 0 1 x := by intro x; simp [gmixCdf, mixEval, Np.sum]
  have hF2 : ∀ x, gmixCdf [0, 1] [-100, 0] [1, 1] x = normCdf 0 1 x := by intro x; simp [gmixCdf, mixEval, Np.sum]
  have h0 : ∀ x, 0 ≤ normCdf 0 1 x := fun x => MeasureTheory.measureReal_nonneg
  have hle : ∀ x, normCdf 0 1 x ≤ 1 := fun x => MeasureTheory.measureReal_le_one
  have hlt : ∀ x y : ℝ, x < y → normCdf 0 1 x < normCdf 0 1 y := fun x y h => by simpa only [hF] using hmono x y h
  have ha := hlt (-108) (-107) (by norm_num)
  have hb := hlt (-107) (-106) (by norm_num)
  have hc := hlt (-106) (-6) (by norm_num)
  refine ⟨normCdf 0 1 (-107), lt_of_le_of_lt (h0 _) ha, lt_of_lt_of_le hb (hle _), ?_, ?_⟩
  · rw [h1]
    have hlo : gmixLo [⟨[1], [0], [1]⟩] = -6 := by simp [gmixLo, List.min?]
    unfold gmixPpfIn
    rw [hlo]
    exact ppf_below _ _ _ _ _ _ (by rw [hF]; exact hb.trans hc)
  · rw [h2]
    have hlo : gmixLo [⟨[0, 1], [-100, 0], [1, 1]⟩] = -106 := by simp [gmixLo, List.min?]; norm_num
    unfold gmixPpfIn
    rw [hlo]
    exact ppf_below _ _ _ _ _ _ (by rw [hF2]; exact hb)

/-! ## examples -/

/-- one bin divided twice -/
example : Finer (K := ℚ) ([0, 1, 3], [1, 2]) ([0, 1, 2, 5/2, 3], [1, 2, 2, 2]) :=
  (Relation.ReflTransGen.single (OneCut.later 0 1 _ _ _ _ (OneCut.here 1 2 3 2 [] [] (by norm_num) (by norm_num)))).tail
    (OneCut.later 0 1 _ _ _ _ (OneCut.later 1 2 _ _ _ _ (OneCut.here 2 (5/2) 3 2 [] [] (by norm_num) (by norm_num))))

example := C130_hist (K := ℚ) (edges := [0, 1, 3]) (row := [1, 2]) (edges' := [0, 1, 2, 3]) (row' := [1, 2, 2]) (p := [1/5, 2/5])
  (Relation.ReflTransGen.single (OneCut.later 0 1 _ _ _ _ (OneCut.here 1 2 3 2 [] [] (by norm_num) (by norm_num)))) ⟨by decide +kernel, rfl, by decide⟩ (by decide +kernel)

example := C130_interp_partial (K := ℚ) (xs := [0, 2, 3]) (row := [0, 2, 0]) (xs' := [0, 1, 2, 3]) (row' := [0, 1, 2, 0]) (ys := [0, 2/3, 0]) (c := [0, 2/3, 1])
  (Relation.ReflTransGen.single (OnePoint.here 0 1 2 0 1 2 [3] [0] (by norm_num) (by norm_num) (by norm_num))) ⟨by decide +kernel, rfl, by decide⟩ (by decide +kernel)

example := C130_mixture (c := [(1 + 2, 0, 1), (1, 5, 2)]) (c' := [(1, 5, 2), (1, 0, 1), (2, 0, 1)])
  ((Relation.ReflTransGen.single (SameMix.split 1 2 0 1 [(1, 5, 2)])).tail (SameMix.perm _ _ (by
    refine List.Perm.trans (List.Perm.cons _ (List.Perm.swap _ _ _)) (List.Perm.swap _ _ _)))) (by norm_num)

end Verif.Props.Refine
