import Verif.Props.Refine

/-!
# C130: empty bins around a histogram

Bins with content zero are added at either end. The PDF described is the same; so are the density, the CDF and the PPF.
-/

set_option linter.unusedSectionVars false
set_option autoImplicit false

namespace Verif.Props.Refine

open Verif Verif.Np Verif.Model Verif.Lemmas Verif.Lemmas.Hist Verif.Spec Verif.Props.Bins Verif.Props.Hist

variable {K : Type} [Field K] [LinearOrder K] [IsStrictOrderedRing K]

/-- a histogram `(edges, contents)` and the same with an empty bin at one end -/
inductive OnePad : List K × List K → List K × List K → Prop
  | left (a b : K) (e r : List K) (h : a < b) : OnePad (b :: e, r) (a :: b :: e, 0 :: r)
  | right (z : K) (e r : List K) (h : ∀ v ∈ e, v < z) : OnePad (e, r) (e ++ [z], r ++ [0])

/-- empty bins added any number of times -/
def Padded : List K × List K → List K × List K → Prop := Relation.ReflTransGen OnePad

theorem cumsum_pad (e : List K) : ∀ (a : K) (p : List K) (c z : K), p.length = e.length →
    cumsumFrom c (Np.mul (p ++ [0]) (diff (a :: (e ++ [z])))) = cumsumFrom c (Np.mul p (diff (a :: e))) ++ [c + totalMass (a :: e) p] := by
  induction e with
  | nil => intro a p c z hl; simp at hl; subst hl; simp [totalMass, Np.mul, diff, cumsumFrom]
  | cons b e ih =>
    intro a p c z hl
    cases p with
    | nil => simp at hl
    | cons q p =>
      have := ih b p (c + q * (b - a)) z (by simpa using hl)
      simp only [diff, Np.mul, List.cons_append, List.zipWith_cons_cons, cumsumFrom, totalMass] at *
      rw [this, add_assoc]

theorem mass_pad (e : List K) : ∀ (a : K) (p : List K) (z : K), p.length = e.length →
    totalMass (a :: (e ++ [z])) (p ++ [0]) = totalMass (a :: e) p ∧ ∀ x, massUpTo (a :: (e ++ [z])) (p ++ [0]) x = massUpTo (a :: e) p x := by
  induction e with
  | nil => intro a p z hl; simp at hl; subst hl; simp [totalMass, massUpTo]
  | cons b e ih =>
    intro a p z hl
    cases p with
    | nil => simp at hl
    | cons q p =>
      obtain ⟨h1, h2⟩ := ih b p z (by simpa using hl)
      constructor
      · simp only [List.cons_append, totalMass, h1]
      · intro x
        simp only [List.cons_append, massUpTo, h2 x]

theorem go_append (k : K × K) (q : K) : ∀ (t : List (K × K)) (x0 y0 : K), (∃ l, t.getLast? = some l ∧ q < l.1) →
    npInterpGo x0 y0 (t ++ [k]) q = npInterpGo x0 y0 t q := by
  intro t
  induction t with
  | nil => rintro x0 y0 ⟨l, hl, -⟩; simp at hl
  | cons m t ih =>
    rintro x0 y0 ⟨l, hl, hq⟩
    obtain ⟨m1, m2⟩ := m
    simp only [List.cons_append, npInterpGo]
    split_ifs with h1 h2
    · refine ih m1 m2 ⟨l, ?_, hq⟩
      cases t with
      | nil =>
        simp only [List.getLast?_singleton, Option.some.injEq] at hl
        rw [← hl] at hq
        exact absurd hq (not_lt.2 h1)
      | cons s t => rwa [List.getLast?_cons_cons] at hl
    · rfl
    · rfl

theorem ppf_go (a : K) (e p : List K) (hl : p.length = e.length) (q : K) (h0 : 0 ≤ q) (h1 : q ≤ totalMass (a :: e) p) :
    histPpf (a :: e) p q = some (npInterpGo 0 a ((cumsumFrom 0 (Np.mul p (diff (a :: e)))).zip e) q) := by
  have hlast := cumul_last e a p 0 hl
  have hz : ((0 : K), a) :: (cumsumFrom 0 (Np.mul p (diff (a :: e)))).zip e = ((a, (0 : K)) :: e.zip (cumsumFrom 0 (Np.mul p (diff (a :: e))))).map Prod.swap := by
    rw [List.map_cons, zip_swap]
    rfl
  have hl2 : (((0 : K), a) :: (cumsumFrom 0 (Np.mul p (diff (a :: e)))).zip e).getLast (by simp) = (totalMass (a :: e) p, (a :: e).getLast (by simp)) := by
    rw [List.getLast_congr _ (by simp) hz, List.getLast_map (by simp), hlast]
    simp
  have hc : (histCumul (a :: e) p).zip (a :: e) = ((0 : K), a) :: (cumsumFrom 0 (Np.mul p (diff (a :: e)))).zip e := rfl
  simp only [histPpf]
  rw [hc]
  unfold interp
  simp only
  rw [hl2, if_neg (not_lt.2 h0), if_neg (not_lt.2 h1)]

/-- everything about one added bin -/
theorem OnePad.facts {e r e' r' : List K} (hc : OnePad (e, r) (e', r')) (hl : e.length = r.length + 1) (hr : 1 ≤ r.length) (hs : e.Pairwise (· < ·)) :
    e'.length = r'.length + 1 ∧ 1 ≤ r'.length ∧ e'.Pairwise (· < ·) ∧ totalMass e' r' = totalMass e r ∧ (∀ x, massUpTo e' r' x = massUpTo e r x) ∧
    (∀ q, 0 ≤ q → q < totalMass e r → histPpf e' r' q = histPpf e r q) ∧
    (∀ (j : ℕ) (x v : K), Inside e' j x → r'[j]? = some v →
      (∃ i : ℕ, Inside e i x ∧ r[i]? = some v) ∨ v = 0 ∧ ((∀ u ∈ e, x < u) ∨ ∀ u ∈ e, u < x)) ∧ (∀ u ∈ e, u ∈ e') := by
  cases hc with
  | left a b t r h =>
    have hl' : r.length = t.length := by simpa using hl.symm
    have hm : totalMass (a :: b :: t) (0 :: r) = totalMass (b :: t) r := by simp [totalMass]
    have hb : ∀ u ∈ b :: t, a < u := by
      intro u hu
      rcases List.mem_cons.1 hu with rfl | hu
      · exact h
      · exact h.trans ((List.pairwise_cons.1 hs).1 u hu)
    refine ⟨by simp [hl'], by simp, List.pairwise_cons.2 ⟨hb, hs⟩, hm, fun x => by simp [massUpTo], ?_, ?_, fun u hu => by simp [List.mem_cons.1 hu]⟩
    · intro q h0 h1
      rw [ppf_go a (b :: t) (0 :: r) (by simp [hl']) q h0 (by rw [hm]; exact h1.le), ppf_go b t r hl' q h0 h1.le]
      simp [Np.mul, diff, cumsumFrom, npInterpGo, h0]
    · intro j x v hj hv
      cases j with
      | zero =>
        right
        obtain ⟨c, d, -, hd, -, hx⟩ := hj
        simp only [zero_add, List.getElem?_cons_succ, List.getElem?_cons_zero, Option.some.injEq] at hd hv
        refine ⟨hv.symm, Or.inl fun u hu => ?_⟩
        rcases List.mem_cons.1 hu with rfl | hu
        · rw [hd]; exact hx
        · rw [← hd] at hx
          exact hx.trans ((List.pairwise_cons.1 hs).1 u hu)
      | succ j =>
        left
        obtain ⟨c, d, hc, hd, hx⟩ := hj
        exact ⟨j, ⟨c, d, by simpa using hc, by simpa using hd, hx⟩, by simpa using hv⟩
  | right z e r h =>
    cases e with
    | nil => simp at hl
    | cons a t =>
      have hl' : r.length = t.length := by simpa using hl.symm
      obtain ⟨hm, hu⟩ := mass_pad t a r z hl'
      refine ⟨by simp [hl'], by simp, ?_, hm, hu, ?_, ?_, fun u hu => List.mem_append_left _ hu⟩
      · rw [List.pairwise_append]
        exact ⟨hs, List.pairwise_singleton _ _, fun u hu v hv => by rw [List.mem_singleton.1 hv]; exact h u hu⟩
      · intro q h0 h1
        rw [List.cons_append, ppf_go a (t ++ [z]) (r ++ [0]) (by simp [hl']) q h0 (by rw [hm]; exact h1.le), ppf_go a t r hl' q h0 h1.le, cumsum_pad t a r 0 z hl',
          List.zip_append (by simp [length_cumsumFrom, Np.mul, Np.length_diff, hl'])]
        congr 1
        simp only [List.zip_cons_cons, List.zip_nil_right]
        apply go_append
        have hlast := cumul_last t a r 0 hl'
        have hne : t.zip (cumsumFrom 0 (Np.mul r (diff (a :: t)))) ≠ [] := by
          intro hc
          have := congrArg List.length hc
          simp [length_cumsumFrom, Np.mul, Np.length_diff, hl'] at this
          rw [this] at hl'
          simp at hl'
          rw [hl'] at hr
          simp at hr
        rw [List.getLast_cons hne] at hlast
        refine ⟨(totalMass (a :: t) r, (a :: t).getLast (by simp)), ?_, h1⟩
        rw [← zip_swap, List.getLast?_map, List.getLast?_eq_some_getLast hne, hlast]
        simp
      · intro j x v hj hv
        obtain ⟨c, d, hc, hd, hx1, hx2⟩ := hj
        by_cases hjr : j < r.length
        · left
          rw [List.getElem?_append_left (by rw [hl]; omega)] at hc hd
          rw [List.getElem?_append_left hjr] at hv
          exact ⟨j, ⟨c, d, hc, hd, hx1, hx2⟩, hv⟩
        · right
          have hj2 : j < (r ++ [(0 : K)]).length := (List.getElem?_eq_some_iff.1 hv).1
          have hj3 : j = r.length := by simp at hj2; omega
          subst hj3
          simp only [List.getElem?_append_right (le_refl _), Nat.sub_self, List.getElem?_cons_zero, Option.some.injEq] at hv
          refine ⟨hv.symm, Or.inr fun u hu => ?_⟩
          rw [List.getElem?_append_left (by rw [hl]; omega)] at hc
          refine lt_of_le_of_lt ?_ hx1
          have hlast : c = (a :: t).getLast (by simp) := by
            rw [List.getLast_eq_getElem]
            have := (List.getElem?_eq_some_iff.1 hc).2
            rw [← this]
            congr 1
          rw [hlast]
          exact last_mem_max hs (by simp) u hu

/-- everything about added bins -/
theorem Padded.facts {h h' : List K × List K} (hf : Padded h h') (hl : h.1.length = h.2.length + 1) (hr : 1 ≤ h.2.length) (hs : h.1.Pairwise (· < ·)) :
    h'.1.length = h'.2.length + 1 ∧ 1 ≤ h'.2.length ∧ h'.1.Pairwise (· < ·) ∧ totalMass h'.1 h'.2 = totalMass h.1 h.2 ∧
    (∀ x, massUpTo h'.1 h'.2 x = massUpTo h.1 h.2 x) ∧ (∀ q, 0 ≤ q → q < totalMass h.1 h.2 → histPpf h'.1 h'.2 q = histPpf h.1 h.2 q) ∧
    (∀ (j : ℕ) (x v : K), Inside h'.1 j x → h'.2[j]? = some v →
      (∃ i : ℕ, Inside h.1 i x ∧ h.2[i]? = some v) ∨ v = 0 ∧ ((∀ u ∈ h.1, x < u) ∨ ∀ u ∈ h.1, u < x)) ∧ (∀ u ∈ h.1, u ∈ h'.1) := by
  induction hf with
  | refl => exact ⟨hl, hr, hs, rfl, fun _ => rfl, fun _ _ _ => rfl, fun j x v h1 h2 => Or.inl ⟨j, h1, h2⟩, fun _ hu => hu⟩
  | @tail h1 h2 _ hc ih =>
    obtain ⟨i1, i2, i3, i4, i5, i6, i7, i8⟩ := ih
    obtain ⟨c1, c2, c3, c4, c5, c6, c7, c8⟩ := OnePad.facts hc i1 i2 i3
    refine ⟨c1, c2, c3, c4.trans i4, fun x => (c5 x).trans (i5 x), fun q h0 h1 => (c6 q h0 (by rw [i4]; exact h1)).trans (i6 q h0 h1), ?_, fun u hu => c8 u (i8 u hu)⟩
    intro j x v hj hv
    rcases c7 j x v hj hv with ⟨i, hi, hiv⟩ | ⟨hv0, hx⟩
    · exact i7 i x v hi hiv
    · exact Or.inr ⟨hv0, hx.imp (fun h u hu => h u (i8 u hu)) (fun h u hu => h u (i8 u hu))⟩

theorem Padded.div {h h' : List K × List K} (hf : Padded h h') (s : K) : Padded (h.1, h.2.map (· / s)) (h'.1, h'.2.map (· / s)) := by
  induction hf with
  | refl => exact Relation.ReflTransGen.refl
  | tail _ hc ih =>
    refine ih.tail ?_
    cases hc with
    | left a b e r h => simpa using OnePad.left a b e (r.map (· / s)) h
    | right z e r h => simpa using OnePad.right z e (r.map (· / s)) h

/-- **C130: empty bins.** Adding empty bins at the ends of a histogram, any number of them, keeps the density inside the bins and outside all of them, the
CDF everywhere and the PPF for all probabilities from zero to below one. The density is compared on grids that the code recognises (C05, C06). -/
theorem C130_hist_padding [FloorRing K] {edges row edges' row' p : List K} (hf : Padded (edges, row) (edges', row')) (hg : Grid edges row.length)
    (hp : histNormRow edges row = some p) :
    Grid edges' row'.length ∧ ∃ p', histNormRow edges' row' = some p' ∧ (∀ x, histCdf edges' p' x = histCdf edges p x) ∧
      (∀ q, 0 ≤ q → q < 1 → histPpf edges' p' q = histPpf edges p q) ∧
      (Uniform edges ∨ DetectablyNonUniform edges → Uniform edges' ∨ DetectablyNonUniform edges' → ∀ x,
        ((∃ j, Inside edges' j x) ∨ (∀ e ∈ edges', x < e) ∨ ∀ e ∈ edges', e < x) → histPdf edges' p' x = histPdf edges p x) := by
  obtain ⟨f1, f2, f3, f4, -, -, f7, f8⟩ := Padded.facts hf hg.size hg.pos hg.strict
  simp only at f1 f2 f3 f4 f7 f8
  have hg' : Grid edges' row'.length := ⟨f3, f1, f2⟩
  refine ⟨hg', ?_⟩
  have hm : totalMass edges row ≠ 0 := fun h0 => by
    rw [(C07_row_normalised edges row).1 h0] at hp
    cases hp
  obtain ⟨p1, hp1, h1, hp1e, -⟩ := (C07_row_normalised edges row).2 hm
  rw [hp] at hp1
  cases hp1
  obtain ⟨p', hp', h1', hpe', -⟩ := (C07_row_normalised edges' row').2 (f4 ▸ hm)
  rw [f4] at hpe'
  have hfm := Padded.div hf (totalMass edges row)
  simp only at hfm
  rw [← hpe', ← hp1e] at hfm
  have hpl : p.length = row.length := by rw [hp1e, List.length_map]
  have hpl' : p'.length = row'.length := by rw [hpe', List.length_map]
  obtain ⟨-, -, -, -, g5, g6, -, -⟩ := Padded.facts hfm (by rw [hpl]; exact hg.size) (by rw [hpl]; exact hg.pos) hg.strict
  simp only at g5 g6
  refine ⟨p', hp', fun x => ?_, fun q h0 hq => g6 q h0 (by rw [h1]; exact hq), fun hu hu' x hx => ?_⟩
  · rw [C08_cdf_is_mass edges' p' (by rw [hpl']; exact hg') h1', C08_cdf_is_mass edges p (by rw [hpl]; exact hg) h1, g5]
  · have c1 := C06_hist_pdf_partial edges row p hg hu hp x
    have c2 := C06_hist_pdf_partial edges' row' p' hg' hu' hp' x
    rcases hx with ⟨j, hj⟩ | hx
    · have hj' := hj
      obtain ⟨a, b, -, hb, -, -⟩ := hj'
      have hjl : j < row'.length := by
        have := (List.getElem?_eq_some_iff.1 hb).1
        rw [f1] at this
        omega
      rw [c2.1 j _ hj (List.getElem?_eq_getElem hjl), f4]
      rcases f7 j x _ hj (List.getElem?_eq_getElem hjl) with ⟨i, hi, hiv⟩ | ⟨hv0, hx⟩
      · rw [c1.1 i _ hi hiv]
      · rw [hv0, c1.2 hx, zero_div]
    · rw [c2.2 hx, c1.2 (hx.imp (fun h e he => h e (f8 e he)) (fun h e he => h e (f8 e he)))]

/-- a histogram of two bins with one empty bin below and two above -/
theorem C130_hist_padding_example : Padded (([1, 2, 3], [1, 3]) : List ℚ × List ℚ) ([0, 1, 2, 3, 4, 5], [0, 1, 3, 0, 0]) ∧
    histPpf [1, 2, 3] ([1/4, 3/4] : List ℚ) (1/2) = some (7/3) ∧ histPpf [0, 1, 2, 3, 4, 5] ([0, 1/4, 3/4, 0, 0] : List ℚ) (1/2) = some (7/3) ∧
    histPpf [1, 2, 3] ([1/4, 3/4] : List ℚ) 1 = some 3 ∧ histPpf [0, 1, 2, 3, 4, 5] ([0, 1/4, 3/4, 0, 0] : List ℚ) 1 = some 5 := by
  refine ⟨?_, by decide +kernel, by decide +kernel, by decide +kernel, by decide +kernel⟩
  have h1 : OnePad (([1, 2, 3], [1, 3]) : List ℚ × List ℚ) ([0, 1, 2, 3], [0, 1, 3]) := OnePad.left 0 1 [2, 3] [1, 3] (by norm_num)
  have h2 : OnePad (([0, 1, 2, 3], [0, 1, 3]) : List ℚ × List ℚ) ([0, 1, 2, 3, 4], [0, 1, 3, 0]) := OnePad.right 4 [0, 1, 2, 3] [0, 1, 3] (by decide +kernel)
  have h3 : OnePad (([0, 1, 2, 3, 4], [0, 1, 3, 0]) : List ℚ × List ℚ) ([0, 1, 2, 3, 4, 5], [0, 1, 3, 0, 0]) :=
    OnePad.right 5 [0, 1, 2, 3, 4] [0, 1, 3, 0] (by decide +kernel)
  exact ((Relation.ReflTransGen.single h1).tail h2).tail h3

end Verif.Props.Refine
