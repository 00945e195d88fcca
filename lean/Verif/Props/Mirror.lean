import Verif.Props.Refine
import Verif.Model.Gof
import Verif.Lemmas.Sorted

/-!
# C131: mirrored PDFs

A PDF and its mirror image: every position `x` is replaced by `-x`. The statements say which evaluations are mirrored with it: density `f'(-x) = f(x)`, CDF
`F'(-x) = 1 - F(x)`, quantiles `Q'(1 - q) = -Q(q)`, mean `-m`, and the same goodness-of-fit statistics of mirrored data.
-/

set_option linter.unusedSectionVars false
set_option autoImplicit false

namespace Verif.Props.Mirror

open Verif Verif.Np Verif.Model Verif.Lemmas Verif.Lemmas.InterpPdf Verif.Lemmas.Hist Verif.Spec Verif.Props.Bins Verif.Props.Hist Verif.Props.InterpPdf

variable {K : Type} [Field K] [LinearOrder K] [IsStrictOrderedRing K]

/-- positions mirrored at zero, in increasing order again -/
def mirror (l : List K) : List K := (l.map (-·)).reverse

theorem length_mirror (l : List K) : (mirror l).length = l.length := by simp [mirror]

theorem mem_mirror {l : List K} {x : K} : x ∈ mirror l ↔ -x ∈ l := by
  simp only [mirror, List.mem_reverse, List.mem_map]
  exact ⟨fun ⟨a, h, e⟩ => by rw [← e, neg_neg]; exact h, fun h => ⟨-x, h, neg_neg x⟩⟩

theorem getElem?_mirror {l : List K} {i : ℕ} (h : i < l.length) : (mirror l)[l.length - 1 - i]? = l[i]?.map (-·) := by
  unfold mirror
  rw [List.getElem?_reverse (by rw [List.length_map]; omega), List.length_map, List.getElem?_map]
  congr 2
  omega

theorem getElem?_rev {α : Type} {l : List α} {i : ℕ} (h : i < l.length) : l.reverse[l.length - 1 - i]? = l[i]? := by
  rw [List.getElem?_reverse (by omega)]
  congr 1
  omega

theorem mirror_strict {l : List K} (h : l.Pairwise (· < ·)) : (mirror l).Pairwise (· < ·) := by
  rw [mirror, List.pairwise_reverse, List.pairwise_map]
  exact h.imp fun hab => neg_lt_neg hab

theorem mirror_mirror (l : List K) : mirror (mirror l) = l := by
  simp [mirror, List.map_reverse]

/-! ## interpolation -/

/-- where a position lies with respect to knots -/
theorem locate {l : List (K × K)} (h : StrictX l) (x : K) : (∀ p ∈ l, x < p.1) ∨ (∀ p ∈ l, p.1 < x) ∨ (∃ p ∈ l, x = p.1) ∨
    ∃ (i : ℕ) (p q : K × K), l[i]? = some p ∧ l[i+1]? = some q ∧ p.1 < x ∧ x < q.1 := by
  induction l with
  | nil => exact Or.inl (by simp)
  | cons a l ih =>
    rcases lt_trichotomy x a.1 with hx | hx | hx
    · exact Or.inl fun p hp => lt_of_lt_of_le hx (head_le_mem h hp)
    · exact Or.inr (Or.inr (Or.inl ⟨a, by simp, hx⟩))
    · match l, h, ih with
      | [], _, _ => exact Or.inr (Or.inl (by simpa using hx))
      | b :: l, h, ih =>
        rcases ih h.tail with h1 | h1 | ⟨p, hp, h1⟩ | ⟨i, p, q, hp, hq, h1, h2⟩
        · exact Or.inr (Or.inr (Or.inr ⟨0, a, b, rfl, rfl, hx, h1 b (by simp)⟩))
        · exact Or.inr (Or.inl (List.forall_mem_cons.2 ⟨hx, h1⟩))
        · exact Or.inr (Or.inr (Or.inl ⟨p, List.mem_cons_of_mem _ hp, h1⟩))
        · exact Or.inr (Or.inr (Or.inr ⟨i + 1, p, q, by simpa using hp, by simpa using hq, h1, h2⟩))

theorem interp_lo {l : List (K × K)} (hne : l ≠ []) {lo hi x : K} (h : ∀ p ∈ l, x < p.1) : interp lo hi l x = some lo := by
  match l, hne with
  | (x0, y0) :: t, _ => unfold interp; simp only; rw [if_pos (h (x0, y0) (by simp))]

theorem interp_hi {l : List (K × K)} (hne : l ≠ []) {lo hi x : K} (h : ∀ p ∈ l, p.1 < x) : interp lo hi l x = some hi := by
  match l, hne with
  | (x0, y0) :: t, _ =>
    unfold interp
    simp only
    rw [if_neg (not_lt.2 (h (x0, y0) (by simp)).le), if_pos (h _ (List.getLast_mem _))]

theorem interp_knot {l : List (K × K)} (hs : StrictX l) {lo hi : K} {p : K × K} (hp : p ∈ l) : interp lo hi l p.1 = some p.2 := by
  match l, hs, hp with
  | (x0, y0) :: t, hs, hp => rw [interp_inside (head_le_mem hs hp) (StrictX_le_last hs hp), npInterpGo_knot hs hp]

theorem interp_cell {l : List (K × K)} (hs : StrictX l) {lo hi x : K} {i : ℕ} {p q : K × K} (hp : l[i]? = some p) (hq : l[i+1]? = some q) (h1 : p.1 ≤ x) (h2 : x ≤ q.1) :
    interp lo hi l x = some (line p.1 p.2 q.1 q.2 x) := by
  match l, hs, hp, hq with
  | (x0, y0) :: t, hs, hp, hq =>
    rw [interp_inside ((head_le_mem hs (List.mem_of_getElem? hp)).trans h1) (h2.trans (StrictX_le_last hs (List.mem_of_getElem? hq))), npInterpGo_cell hs hp hq h1 h2]

/-- knots mirrored at `s / 2`, with values `c y + d` -/
def mirrorKnots (s c d : K) (l : List (K × K)) : List (K × K) := (l.map fun p => (s - p.1, c * p.2 + d)).reverse

theorem mirrorKnots_strictX (s c d : K) {l : List (K × K)} (h : StrictX l) : StrictX (mirrorKnots s c d l) := by
  unfold StrictX mirrorKnots
  rw [List.isChain_reverse, List.isChain_map]
  exact h.imp fun a b hab => sub_lt_sub_left hab s

/-- interpolation between mirrored knots -/
theorem interp_mirror {l : List (K × K)} (h : StrictX l) (s c d lo hi x : K) :
    interp (c * hi + d) (c * lo + d) (mirrorKnots s c d l) (s - x) = (interp lo hi l x).map fun y => c * y + d := by
  by_cases hne : l = []
  · subst hne; rfl
  have hne' : mirrorKnots s c d l ≠ [] := by simpa [mirrorKnots] using hne
  have hs' := mirrorKnots_strictX s c d h
  have hmem : ∀ p, p ∈ mirrorKnots s c d l ↔ ∃ q ∈ l, (s - q.1, c * q.2 + d) = p := by
    intro p; simp only [mirrorKnots, List.mem_reverse, List.mem_map]
  rcases locate h x with h1 | h1 | ⟨p, hp, rfl⟩ | ⟨i, p, q, hp, hq, h1, h2⟩
  · rw [interp_lo hne h1, interp_hi hne']
    · rfl
    · intro p hp
      obtain ⟨q, hq, rfl⟩ := (hmem p).1 hp
      exact sub_lt_sub_left (h1 q hq) s
  · rw [interp_hi hne h1, interp_lo hne']
    · rfl
    · intro p hp
      obtain ⟨q, hq, rfl⟩ := (hmem p).1 hp
      exact sub_lt_sub_left (h1 q hq) s
  · rw [interp_knot h hp, interp_knot (p := (s - p.1, c * p.2 + d)) hs' ((hmem _).2 ⟨p, hp, rfl⟩)]
    rfl
  · rw [interp_cell h hp hq h1.le h2.le]
    have hi := (List.getElem?_eq_some_iff.1 hq).1
    have hg : ∀ (k : ℕ) (r : K × K), l[k]? = some r → (mirrorKnots s c d l)[l.length - 1 - k]? = some (s - r.1, c * r.2 + d) := by
      intro k r hr
      have hk := (List.getElem?_eq_some_iff.1 hr).1
      have := getElem?_rev (l := l.map fun p => (s - p.1, c * p.2 + d)) (i := k) (by rw [List.length_map]; exact hk)
      rw [List.length_map, List.getElem?_map, hr] at this
      exact this
    have e : l.length - 1 - i = l.length - 1 - (i + 1) + 1 := by omega
    rw [interp_cell hs' (hg _ q hq) (e ▸ hg _ p hp) (sub_le_sub_left h2.le s) (sub_le_sub_left h1.le s)]
    have hd : q.1 - p.1 ≠ 0 := (sub_pos.2 (h1.trans h2)).ne'
    have hd' : s - p.1 - (s - q.1) ≠ 0 := by rw [sub_sub_sub_cancel_left]; exact hd
    simp only [Option.map_some, line, Option.some.injEq]
    field_simp
    ring

/-! ## histograms -/

theorem totalMass_snoc (e p : List K) (a b v : K) (h : e.length = p.length) : totalMass (e ++ [a, b]) (p ++ [v]) = totalMass (e ++ [a]) p + v * (b - a) := by
  induction e generalizing p with
  | nil => match p, h with | [], _ => simp [totalMass]
  | cons c e ih =>
    match p, h with
    | w :: p, h =>
      have := ih p (by simpa using h)
      cases e with
      | nil => match p, h with | [], _ => simp [totalMass]
      | cons c2 e => simp only [List.cons_append, totalMass] at this ⊢; rw [this, add_assoc]

theorem massUpTo_snoc (e p : List K) (a b v x : K) (h : e.length = p.length) :
    massUpTo (e ++ [a, b]) (p ++ [v]) x = massUpTo (e ++ [a]) p x + v * max 0 (min x b - a) := by
  induction e generalizing p with
  | nil => match p, h with | [], _ => simp [massUpTo]
  | cons c e ih =>
    match p, h with
    | w :: p, h =>
      have := ih p (by simpa using h)
      cases e with
      | nil => match p, h with | [], _ => simp [massUpTo]
      | cons c2 e => simp only [List.cons_append, massUpTo] at this ⊢; rw [this, add_assoc]

theorem meanOf_snoc (e p : List K) (a b v : K) (h : e.length = p.length) : meanOf (e ++ [a, b]) (p ++ [v]) = meanOf (e ++ [a]) p + v * (b - a) * ((a + b) / 2) := by
  induction e generalizing p with
  | nil => match p, h with | [], _ => simp [meanOf]
  | cons c e ih =>
    match p, h with
    | w :: p, h =>
      have := ih p (by simpa using h)
      cases e with
      | nil => match p, h with | [], _ => simp [meanOf]
      | cons c2 e => simp only [List.cons_append, meanOf] at this ⊢; rw [this, add_assoc]

/-- masses of a mirrored histogram -/
theorem mass_mirror : ∀ (e p : List K), e.length = p.length + 1 → e.Pairwise (· < ·) → totalMass (mirror e) p.reverse = totalMass e p ∧
    meanOf (mirror e) p.reverse = -meanOf e p ∧ ∀ x, massUpTo (mirror e) p.reverse (-x) = totalMass e p - massUpTo e p x
  | [a], [], _, _ => by simp [mirror, totalMass, massUpTo, meanOf]
  | a :: b :: e, v :: p, h, hs => by
    obtain ⟨i1, i2, i3⟩ := mass_mirror (b :: e) p (by simpa using h) (List.pairwise_cons.1 hs).2
    have hab : a < b := (List.pairwise_cons.1 hs).1 b (by simp)
    have hm : mirror (a :: b :: e) = mirror e ++ [-b, -a] := by simp [mirror]
    have hm' : mirror (b :: e) = mirror e ++ [-b] := by simp [mirror]
    have hl : (mirror e).length = p.reverse.length := by rw [length_mirror, List.length_reverse]; simpa using h
    rw [hm, List.reverse_cons]
    rw [hm'] at i1 i2 i3
    refine ⟨?_, ?_, fun x => ?_⟩
    · rw [totalMass_snoc _ _ _ _ _ hl, i1, totalMass]; ring
    · rw [meanOf_snoc _ _ _ _ _ hl, i2, meanOf]; ring
    · rw [massUpTo_snoc _ _ _ _ _ _ hl, i3, totalMass, massUpTo]
      have : max 0 (min (-x) (-a) - -b) = (b - a) - max 0 (min x b - a) := by
        rcases le_total x a with h1 | h1
        · rw [min_eq_right (neg_le_neg h1), min_eq_left (h1.trans hab.le), max_eq_left (sub_nonpos.2 h1), max_eq_right (by linarith)]; ring
        · rw [min_eq_left (neg_le_neg h1)]
          rcases le_total x b with h2 | h2
          · rw [min_eq_left h2, max_eq_right (by linarith), max_eq_right (by linarith)]; ring
          · rw [min_eq_right h2, max_eq_left (by linarith), max_eq_right (by linarith)]; ring
      rw [this]; ring

theorem grid_mirror {e : List K} {n : ℕ} (h : Grid e n) : Grid (mirror e) n := ⟨mirror_strict h.strict, by rw [length_mirror]; exact h.size, h.pos⟩

theorem inside_mirror {e : List K} {i : ℕ} {x : K} (h : Inside e i x) : Inside (mirror e) (e.length - 2 - i) (-x) ∧ i + 1 < e.length := by
  obtain ⟨a, b, ha, hb, h1, h2⟩ := h
  have hi := (List.getElem?_eq_some_iff.1 hb).1
  refine ⟨⟨-b, -a, ?_, ?_, neg_lt_neg h2, neg_lt_neg h1⟩, hi⟩
  · have := getElem?_mirror hi
    rw [hb] at this
    rw [show e.length - 2 - i = e.length - 1 - (i + 1) by omega]; exact this
  · have := getElem?_mirror (i := i) (l := e) (by omega)
    rw [ha] at this
    rw [show e.length - 2 - i + 1 = e.length - 1 - i by omega]; exact this

theorem uniform_mirror {e : List K} (h : Uniform e) : Uniform (mirror e) := by
  obtain ⟨w, hw⟩ := h
  refine ⟨w, fun i a b ha hb => ?_⟩
  have hi := (List.getElem?_eq_some_iff.1 hb).1
  rw [length_mirror] at hi
  have h1 := getElem?_mirror (l := e) (i := e.length - 1 - i) (by omega)
  have h2 := getElem?_mirror (l := e) (i := e.length - 1 - (i + 1)) (by omega)
  rw [show e.length - 1 - (e.length - 1 - i) = i by omega, ha] at h1
  rw [show e.length - 1 - (e.length - 1 - (i + 1)) = i + 1 by omega, hb] at h2
  obtain ⟨a', ha', rfl⟩ := Option.map_eq_some_iff.1 h1.symm
  obtain ⟨b', hb', rfl⟩ := Option.map_eq_some_iff.1 h2.symm
  have := hw (e.length - 1 - (i + 1)) b' a' hb' (by rw [show e.length - 1 - (i + 1) + 1 = e.length - 1 - i by omega]; exact ha')
  rw [← this]; ring

/-- **C131: histograms.** The mirrored histogram (edges negated, both lists in the opposite order) is accepted when the histogram is; its CDF is one minus the CDF at every
position, its quantiles are the negated quantiles (contents positive), its density is the mirrored density inside bins and outside all of them (on grids that the code
recognises, C05, C06), and with bins of one width its mean is the negated mean. -/
theorem C131_hist [FloorRing K] {edges row p : List K} (hg : Grid edges row.length) (hp : histNormRow edges row = some p) :
    ∃ p', histNormRow (mirror edges) row.reverse = some p' ∧
      (∀ x, ∃ F, histCdf edges p x = some F ∧ histCdf (mirror edges) p' (-x) = some (1 - F)) ∧
      ((∀ v ∈ row, 0 < v) → ∀ q, 0 ≤ q → q ≤ 1 → ∃ x, histPpf edges p q = some x ∧ histPpf (mirror edges) p' (1 - q) = some (-x)) ∧
      (Uniform edges ∨ DetectablyNonUniform edges → Uniform (mirror edges) ∨ DetectablyNonUniform (mirror edges) → ∀ x,
        ((∃ j, Inside edges j x) ∨ (∀ e ∈ edges, x < e) ∨ ∀ e ∈ edges, e < x) → histPdf (mirror edges) p' (-x) = histPdf edges p x) ∧
      (Uniform edges → ∃ m, histMoment edges p 1 = .ok m ∧ histMoment (mirror edges) p' 1 = .ok (-m)) := by
  have hm : totalMass edges row ≠ 0 := fun h0 => by
    rw [(C07_row_normalised edges row).1 h0] at hp
    cases hp
  obtain ⟨p1, hp1, h1, hp1e, hp1n⟩ := (C07_row_normalised edges row).2 hm
  rw [hp] at hp1
  cases hp1
  have hmm := mass_mirror edges row hg.size hg.strict
  obtain ⟨p', hp', h1', hpe', -⟩ := (C07_row_normalised (mirror edges) row.reverse).2 (by rw [hmm.1]; exact hm)
  have hrev : p' = p.reverse := by rw [hpe', hmm.1, hp1e, List.map_reverse]
  have hlp : p.length = row.length := by rw [hp1e, List.length_map]
  have hgp : Grid edges p.length := by rw [hlp]; exact hg
  have hgp' : Grid (mirror edges) p'.length := by rw [hrev, List.length_reverse, hlp]; exact grid_mirror hg
  have hmp := mass_mirror edges p hgp.size hgp.strict
  have hcdf : ∀ x, ∃ F, histCdf edges p x = some F ∧ histCdf (mirror edges) p' (-x) = some (1 - F) := by
    intro x
    refine ⟨_, C08_cdf_is_mass edges p hgp h1 x, ?_⟩
    rw [C08_cdf_is_mass _ p' hgp' h1', hrev, hmp.2.2, h1]
  refine ⟨p', hp', hcdf, fun hpos q h0 hq => ?_, fun hu hu' x hx => ?_, fun hu => ?_⟩
  · have hppos : ∀ v ∈ p, 0 < v := by
      have : 0 < totalMass edges row := lt_of_le_of_ne (totalMass_nonneg hg.strict fun v hv => (hpos v hv).le) hm.symm
      rw [hp1e]
      intro v hv
      obtain ⟨w, hw, rfl⟩ := List.mem_map.1 hv
      exact div_pos (hpos w hw) this
    have hppos' : ∀ v ∈ p', 0 < v := by rw [hrev]; intro v hv; exact hppos v (List.mem_reverse.1 hv)
    obtain ⟨y, hy, hy2, ⟨e1, he1, hey1⟩, e2, he2, hey2⟩ := C09_cdf_ppf (mirror edges) p' hgp' h1' (fun v hv => (hppos' v hv).le) (1 - q) (by linarith) (by linarith)
    obtain ⟨F, hF, hF'⟩ := hcdf (-y)
    rw [neg_neg, hy2] at hF'
    obtain ⟨F2, hF2, hx⟩ := C09_ppf_cdf edges p hgp h1 hppos (-y) ⟨-e2, mem_mirror.1 he2, neg_le_neg hey2⟩ ⟨-e1, mem_mirror.1 he1, neg_le_neg hey1⟩
    rw [hF] at hF2
    have : F2 = q := by
      have := Option.some.inj hF'
      have := Option.some.inj hF2
      linarith
    exact ⟨-y, this ▸ hx, by rw [neg_neg]; exact hy⟩
  · have c1 := C06_hist_pdf_partial edges row p hg hu hp x
    have c2 := C06_hist_pdf_partial (mirror edges) row.reverse p' (by rw [List.length_reverse]; exact grid_mirror hg) hu' hp' (-x)
    rcases hx with ⟨j, hj⟩ | hx
    · obtain ⟨hj', hlt⟩ := inside_mirror hj
      have hjl : j < row.length := by have := hg.size; omega
      have hr := getElem?_rev hjl
      rw [List.getElem?_eq_getElem hjl] at hr
      rw [show row.length - 1 - j = edges.length - 2 - j by have := hg.size; omega] at hr
      rw [c2.1 _ _ hj' hr, c1.1 j _ hj (List.getElem?_eq_getElem hjl), hmm.1]
    · rw [c1.2 hx, c2.2]
      rcases hx with hx | hx
      · exact Or.inr fun e he => by have := hx _ (mem_mirror.1 he); linarith
      · exact Or.inl fun e he => by have := hx _ (mem_mirror.1 he); linarith
  · refine ⟨_, (C11_moments_partial edges p hgp hu h1).2, ?_⟩
    rw [(C11_moments_partial _ p' hgp' (uniform_mirror hu) h1').2, hrev, hmp.2.1]

/-- **C131: means of histograms with bins of different widths** are not mirrored: 5/6 and -5/3. -/
theorem C131_hist_mean_not_mirrored : histMoment (K := ℚ) [0, 1, 3] [1/3, 1/3] 1 = .ok (5 / 6) ∧ histMoment (K := ℚ) (mirror [0, 1, 3]) [1/3, 1/3] 1 = .ok (-(5 / 3)) := by
  decide +kernel

/-! ## interpolated PDFs -/

theorem area_snoc (xs ys : List K) (a b u v : K) (h : xs.length = ys.length) : area (xs ++ [a, b]) (ys ++ [u, v]) = area (xs ++ [a]) (ys ++ [u]) + (b - a) * (u + v) / 2 := by
  induction xs generalizing ys with
  | nil => match ys, h with | [], _ => simp [area]
  | cons c xs ih =>
    match ys, h with
    | w :: ys, h =>
      have := ih ys (by simpa using h)
      cases xs with
      | nil => match ys, h with | [], _ => simp [area]
      | cons c2 xs =>
        match ys, h with
        | w2 :: ys, h => simp only [List.cons_append, area] at this ⊢; rw [this, add_assoc]

theorem area_mirror : ∀ (xs ys : List K), xs.length = ys.length → area (mirror xs) ys.reverse = area xs ys
  | [], [], _ => rfl
  | [a], [u], _ => by simp [mirror, area]
  | a :: b :: xs, u :: v :: ys, h => by
    have hl : (mirror xs).length = ys.reverse.length := by rw [length_mirror, List.length_reverse]; simpa using h
    have ih := area_mirror (b :: xs) (v :: ys) (by simpa using h)
    have e1 : mirror (a :: b :: xs) = mirror xs ++ [-b, -a] := by simp [mirror]
    have e2 : mirror (b :: xs) = mirror xs ++ [-b] := by simp [mirror]
    have e3 : (u :: v :: ys).reverse = ys.reverse ++ [v, u] := by simp
    rw [e2, List.reverse_cons] at ih
    rw [e1, e3, area_snoc _ _ _ _ _ _ hl, ih, area]
    ring

theorem areaTo_eq : ∀ (i : ℕ) (xs ys : List K), areaTo i xs ys = area (xs.take (i + 1)) (ys.take (i + 1))
  | 0, xs, ys => by
    cases xs <;> cases ys <;> simp [areaTo, area]
  | i + 1, [], ys => by simp [areaTo, area]
  | i + 1, [a], ys => by cases ys <;> simp [areaTo, area]
  | i + 1, a :: b :: xs, [] => by simp [areaTo, area]
  | i + 1, a :: b :: xs, [u] => by simp [areaTo, area]
  | i + 1, a :: b :: xs, u :: v :: ys => by
    have := areaTo_eq i (b :: xs) (v :: ys)
    simp only [List.take_succ_cons, areaTo, area] at this ⊢
    rw [this]

theorem area_split : ∀ (i : ℕ) (xs ys : List K), xs.length = ys.length → area xs ys = areaTo i xs ys + area (xs.drop i) (ys.drop i)
  | 0, xs, ys, _ => by cases xs <;> cases ys <;> simp [areaTo]
  | i + 1, [], [], _ => by simp [areaTo, area]
  | i + 1, [a], [u], _ => by simp [areaTo, area]
  | i + 1, a :: b :: xs, u :: v :: ys, h => by
    have := area_split i (b :: xs) (v :: ys) (by simpa using h)
    simp only [List.drop_succ_cons, areaTo, area] at this ⊢
    rw [this, add_assoc]

theorem take_mirror (l : List K) {i : ℕ} (h : i < l.length) : (mirror l).take (l.length - i) = mirror (l.drop i) := by
  unfold mirror
  rw [List.take_reverse, List.length_map, List.map_drop]
  congr 2
  omega

/-- the area up to a grid point of the mirrored PDF -/
theorem areaTo_mirror (xs ys : List K) (h : xs.length = ys.length) {i : ℕ} (hi : i < xs.length) :
    areaTo (xs.length - 1 - i) (mirror xs) ys.reverse = area xs ys - areaTo i xs ys := by
  rw [areaTo_eq, show xs.length - 1 - i + 1 = xs.length - i by omega, take_mirror xs hi, h, List.take_reverse,
    show ys.length - (ys.length - i) = i by omega, area_mirror _ _ (by simp [h]), area_split i xs ys h]
  ring

/-- **C131 (partial): interpolated PDFs.** The density of the mirrored PDF (grid negated, both lists in the opposite order) is the mirrored density everywhere; its CDF is one
minus the CDF at every grid point but the first and the last. Missing: these two, where it is false (`C131_interp_ends_not_mirrored`). -/
theorem C131_interp_partial {xs row ys c : List K} (hg : XGrid xs row.length) (hc : interpNormRow xs row = .ok (some (ys, c))) :
    ∃ c', interpNormRow (mirror xs) row.reverse = .ok (some (ys.reverse, c')) ∧ (∀ x, interpPdf (mirror xs) ys.reverse (-x) = interpPdf xs ys x) ∧
      ∀ (i : ℕ) (x : K), 0 < i → i + 1 < xs.length → xs[i]? = some x → ∃ F, interpCdf xs c x = some F ∧ interpCdf (mirror xs) c' (-x) = some (1 - F) := by
  have hg' : XGrid (mirror xs) row.reverse.length := ⟨mirror_strict hg.strict, by rw [length_mirror, List.length_reverse]; exact hg.size, by rw [List.length_reverse]; exact hg.two⟩
  have har := area_mirror xs row hg.size
  have h0 : area xs row ≠ 0 := fun h0 => by rw [(C12_interp_normalises xs row hg).1 h0] at hc; simp at hc
  obtain ⟨ys1, c1, e1, e2, e3, e4⟩ := (C12_interp_normalises xs row hg).2 h0
  rw [hc] at e1
  obtain ⟨rfl, rfl⟩ : ys = ys1 ∧ c = c1 := by simpa using e1
  obtain ⟨ys2, c2, f1, f2, f3, f4⟩ := (C12_interp_normalises _ row.reverse hg').2 (by rw [har]; exact h0)
  have hy : ys2 = ys.reverse := by rw [f3, har, e3, List.map_reverse]
  subst hy
  have hlen : xs.length = ys.length := by rw [e3, List.length_map]; exact hg.size
  refine ⟨c2, f1, fun x => ?_, fun i x hi hi' hx => ?_⟩
  · have := interp_mirror (strictX_zip (ys := ys) hg.strict) 0 1 0 0 0 x
    have hk : mirrorKnots 0 1 0 (xs.zip ys) = (mirror xs).zip ys.reverse := by
      show ((List.zipWith Prod.mk xs ys).map fun p => ((0 : K) - p.1, 1 * p.2 + 0)).reverse = List.zipWith Prod.mk (xs.map (-·)).reverse ys.reverse
      rw [← List.reverse_zipWith (by rw [List.length_map]; exact hlen), List.zipWith_map_left, List.map_zipWith]
      simp
    rw [hk] at this
    simpa [interpPdf] using this
  · have k1 := (C13_cdf_at_grid xs ys c ⟨row, hg, hc⟩).1 (i - 1) x (by rw [show i - 1 + 1 = i by omega]; exact hx)
    have hx' := getElem?_mirror (l := xs) (i := i) (by omega)
    rw [hx] at hx'
    have k2 := (C13_cdf_at_grid _ _ c2 ⟨row.reverse, hg', f1⟩).1 (xs.length - 1 - i - 1) (-x) (by rw [show xs.length - 1 - i - 1 + 1 = xs.length - 1 - i by omega]; exact hx')
    rw [show xs.length - 1 - i - 1 + 1 = xs.length - 1 - i by omega, areaTo_mirror xs ys hlen (by omega), e2] at k2
    rw [show i - 1 + 1 = i by omega] at k1
    exact ⟨_, k1, k2⟩

/-- **C131: the ends of the grid.** The CDF of the uniform PDF on `[0, 1]` is 1/2 at 0, and the CDF of the mirrored PDF is 1 there. -/
theorem C131_interp_ends_not_mirrored : ∃ c c' : List ℚ, interpNormRow (K := ℚ) [0, 1] [1, 1] = .ok (some ([1, 1], c)) ∧
    interpNormRow (K := ℚ) (mirror [0, 1]) [1, 1] = .ok (some ([1, 1], c')) ∧ interpCdf [0, 1] c 0 = some (1 / 2) ∧ interpCdf (mirror [0, 1]) c' 0 = some 1 :=
  ⟨[1/2, 1], [1/2, 1], by decide +kernel⟩

/-- **C131: irregular grids.** Values 0 and 2 on the grid `[0, 1]` are stored as 0 and 1 (mass 1); mirrored they have no finite normalisation (rectangles are taken on one
side only). -/
theorem C131_irregular_not_mirrored : irrNormRow (K := ℚ) [0, 1] [0, 2] = some [0, 1] ∧ irrNormRow (K := ℚ) (mirror [0, 1]) [2, 0] = none := by
  decide +kernel

/-! ## mixtures -/

section Mixtures

open MeasureTheory ProbabilityTheory Verif.Props.MixReal

/-- a mixture with negated means -/
def mirrorMix (r : GMix) : GMix := ⟨r.w, r.μs.map (-·), r.σs⟩

theorem normPdf_mirror (m s x : ℝ) : normPdf (-m) s (-x) = normPdf m s x := by
  unfold normPdf
  rw [show (-x - -m) / s = -((x - m) / s) by ring, neg_sq]

theorem normCdf_mirror (m s x : ℝ) : normCdf (-m) s (-x) = -1 * normCdf m s x + 1 := by
  unfold normCdf
  rw [show (-x - -m) / s = -((x - m) / s) by ring]
  generalize (x - m) / s = z
  have h1 : (gaussianReal 0 1).real (Set.Iic (-z)) = (gaussianReal 0 1).real (Set.Ici z) := by
    have := gaussianReal_map_neg (μ := 0) (v := 1)
    rw [neg_zero] at this
    conv_lhs => rw [← this]
    rw [measureReal_def, Measure.map_apply measurable_neg measurableSet_Iic, measureReal_def]
    congr 2
    ext t
    simp
  have h2 : (gaussianReal 0 1).real (Set.Ici z) = 1 - (gaussianReal 0 1).real (Set.Iio z) := by
    rw [← probReal_compl_eq_one_sub measurableSet_Iio, Set.compl_Iio]
  have : NullSingletonClass (gaussianReal 0 1) := nullSingletonClass_gaussianReal one_ne_zero
  have h3 : (gaussianReal 0 1).real (Set.Iio z) = (gaussianReal 0 1).real (Set.Iic z) := by
    rw [measureReal_def, measureReal_def, Iio_ae_eq_Iic.measure_eq]
  rw [h1, h2, h3]
  ring

/-- weighted sums of component values that change by an affine map -/
theorem mixEval_affine (A B : ℝ → ℝ → ℝ → ℝ) (c d x y : ℝ) (h : ∀ m s, A (-m) s y = c * B m s x + d) : ∀ (w μs σs : List ℝ), μs.length = w.length → σs.length = w.length →
    mixEval w (List.zipWith A (μs.map (-·)) σs) y = c * mixEval w (List.zipWith B μs σs) x + d * w.sum
  | [], [], [], _, _ => by simp [mixEval, Np.sum]
  | v :: w, m :: μs, s :: σs, h1, h2 => by
    have ih := mixEval_affine A B c d x y h w μs σs (by simpa using h1) (by simpa using h2)
    unfold mixEval at ih ⊢
    rw [Refine.sum_eq, Refine.sum_eq] at ih ⊢
    simp only [List.map_cons, List.zipWith_cons_cons, List.sum_cons] at ih ⊢
    rw [ih, h]
    ring

theorem minmax_neg (l : List ℝ) : (l.map (-·)).min? = l.max?.map (-·) ∧ (l.map (-·)).max? = l.min?.map (-·) := by
  constructor
  · cases h : l.max? with
    | none => rw [List.max?_eq_none_iff] at h; subst h; rfl
    | some a =>
      obtain ⟨h1, h2⟩ := List.max?_eq_some_iff.1 h
      exact List.min?_eq_some_iff.2 ⟨List.mem_map.2 ⟨a, h1, rfl⟩, fun b hb => by
        obtain ⟨c, hc, rfl⟩ := List.mem_map.1 hb
        exact neg_le_neg (h2 c hc)⟩
  · cases h : l.min? with
    | none => rw [List.min?_eq_none_iff] at h; subst h; rfl
    | some a =>
      obtain ⟨h1, h2⟩ := List.min?_eq_some_iff.1 h
      exact List.max?_eq_some_iff.2 ⟨List.mem_map.2 ⟨a, h1, rfl⟩, fun b hb => by
        obtain ⟨c, hc, rfl⟩ := List.mem_map.1 hb
        exact neg_le_neg (h2 c hc)⟩

theorem range_mirror (rows : List GMix) : gmixLo (rows.map mirrorMix) = -gmixHi rows ∧ gmixHi (rows.map mirrorMix) = -gmixLo rows := by
  have key : ∀ (f g : ℝ → ℝ → ℝ), (∀ m s, f (-m) s = -g m s) → ((rows.map mirrorMix).flatMap fun r => List.zipWith f r.μs r.σs) =
      (rows.flatMap fun r => List.zipWith g r.μs r.σs).map (-·) := by
    intro f g h
    rw [List.flatMap_map, List.map_flatMap]
    congr 1
    funext r
    simp only [mirrorMix, List.zipWith_map_left, List.map_zipWith, h]
  unfold gmixLo gmixHi
  rw [key (fun m s => m - 6 * s) (fun m s => m + 6 * s) (fun m s => by ring), key (fun m s => m + 6 * s) (fun m s => m - 6 * s) (fun m s => by ring), (minmax_neg _).1, (minmax_neg _).2]
  constructor
  · cases (rows.flatMap fun r => List.zipWith (fun m s => m + 6 * s) r.μs r.σs).max? <;> simp
  · cases (rows.flatMap fun r => List.zipWith (fun m s => m - 6 * s) r.μs r.σs).min? <;> simp

theorem linspace_mirror (lo hi : K) (n : ℕ) (hn : 2 ≤ n) : linspace (-hi) (-lo) n = mirror (linspace lo hi n) := by
  apply List.ext_getElem?
  intro i
  by_cases h : i < n
  · have hm := getElem?_mirror (l := linspace lo hi n) (i := n - 1 - i) (by rw [length_linspace]; omega)
    rw [length_linspace, show n - 1 - (n - 1 - i) = i by omega, getElem?_linspace _ _ _ (by omega) _ (by omega)] at hm
    rw [hm, getElem?_linspace _ _ _ (by omega) _ h, Option.map_some]
    have h1 : ((n - 1 - i : ℕ) : K) = (n : K) - 1 - i := by rw [Nat.cast_sub (by omega), Nat.cast_sub (by omega)]; simp
    have h0 : (n : K) - 1 ≠ 0 := by
      have : (1 : K) < n := by exact_mod_cast (show 1 < n by omega)
      exact (sub_pos.2 this).ne'
    rw [h1]
    congr 1
    field_simp
    ring
  · rw [List.getElem?_eq_none (by rw [length_linspace]; omega), List.getElem?_eq_none (by rw [length_mirror, length_linspace]; omega)]

/-- **C131: mixtures.** With all means of the ensemble negated the density is mirrored, the CDF is one minus the CDF and the quantiles are negated, everywhere. -/
theorem C131_mixture (rows : List GMix) (r : GMix) (hr : r ∈ rows) (h : MixOK r.w r.μs r.σs) :
    MixOK (mirrorMix r).w (mirrorMix r).μs (mirrorMix r).σs ∧
    (∀ x, gmixPdf (mirrorMix r).w (mirrorMix r).μs (mirrorMix r).σs (-x) = gmixPdf r.w r.μs r.σs x) ∧
    (∀ x, gmixCdf (mirrorMix r).w (mirrorMix r).μs (mirrorMix r).σs (-x) = 1 - gmixCdf r.w r.μs r.σs x) ∧
    ∀ q, ∃ x, gmixPpfIn rows r q = some x ∧ gmixPpfIn (rows.map mirrorMix) (mirrorMix r) (1 - q) = some (-x) := by
  have hcdf : ∀ x, gmixCdf (mirrorMix r).w (mirrorMix r).μs (mirrorMix r).σs (-x) = 1 - gmixCdf r.w r.μs r.σs x := by
    intro x
    have := mixEval_affine normCdf normCdf (-1) 1 x (-x) (fun m s => normCdf_mirror m s x) r.w r.μs r.σs h.means h.stds
    rw [h.one] at this
    unfold gmixCdf
    simp only [mirrorMix]
    rw [this]
    ring
  refine ⟨⟨by simpa [mirrorMix] using h.means, h.stds, h.nonneg, h.one, h.pos⟩, fun x => ?_, hcdf, fun q => ?_⟩
  · have := mixEval_affine normPdf normPdf 1 0 x (-x) (fun m s => by rw [normPdf_mirror]; ring) r.w r.μs r.σs h.means h.stds
    unfold gmixPdf
    simp only [mirrorMix]
    rw [this]
    ring
  · have hlh : gmixLo rows < gmixHi rows := by
      obtain ⟨p, hp⟩ : ∃ p, p ∈ r.μs.zip r.σs := by
        have hw : r.w ≠ [] := fun hn => by have := h.one; rw [hn] at this; simp at this
        match hm : r.μs, hs : r.σs, h.means, h.stds with
        | [], _, e, _ => exact absurd (List.length_eq_zero_iff.1 e.symm) hw
        | _ :: _, [], _, e => exact absurd (List.length_eq_zero_iff.1 e.symm) hw
        | m :: _, s :: _, _, _ => exact ⟨(m, s), by simp⟩
      have := h.pos p.2 (List.of_mem_zip hp).2
      linarith [gmixLo_le hr hp, le_gmixHi hr hp]
    have hlin := linspace_pairwise (gmixLo rows) (gmixHi rows) 201 (by norm_num) hlh
    have hX : StrictX (((gmixGrid (gmixLo rows) (gmixHi rows)).map (gmixCdf r.w r.μs r.σs)).zip (gmixGrid (gmixLo rows) (gmixHi rows))) := by
      apply strictX_zip
      rw [List.pairwise_map]
      exact hlin.imp fun hab => (C90_density _ _ _ h).2.2.2.2 _ _ hab
    have hm := interp_mirror hX 1 (-1) 0 (gmixLo rows) (gmixHi rows) q
    have hk : mirrorKnots 1 (-1) 0 (((gmixGrid (gmixLo rows) (gmixHi rows)).map (gmixCdf r.w r.μs r.σs)).zip (gmixGrid (gmixLo rows) (gmixHi rows))) =
        ((gmixGrid (-gmixHi rows) (-gmixLo rows)).map (gmixCdf (mirrorMix r).w (mirrorMix r).μs (mirrorMix r).σs)).zip (gmixGrid (-gmixHi rows) (-gmixLo rows)) := by
      unfold gmixGrid
      rw [linspace_mirror _ _ _ (by norm_num)]
      unfold mirrorKnots mirror
      generalize linspace (gmixLo rows) (gmixHi rows) 201 = g
      rw [List.map_reverse, List.map_map]
      show ((List.zipWith Prod.mk (g.map (gmixCdf r.w r.μs r.σs)) g).map _).reverse = List.zipWith Prod.mk _ _
      rw [← List.reverse_zipWith (by simp), List.map_zipWith, List.zipWith_map_left, List.zipWith_map]
      congr 1
      congr 1
      funext a b
      rw [Function.comp_apply, hcdf]
      simp
    obtain ⟨x, hx⟩ : ∃ x, gmixPpfIn rows r q = some x := by
      unfold gmixPpfIn gmixPpf interp
      have hne : ((gmixGrid (gmixLo rows) (gmixHi rows)).map (gmixCdf r.w r.μs r.σs)).zip (gmixGrid (gmixLo rows) (gmixHi rows)) ≠ [] := by
        intro hn
        have := congrArg List.length hn
        simp [gmixGrid, length_linspace] at this
      match ((gmixGrid (gmixLo rows) (gmixHi rows)).map (gmixCdf r.w r.μs r.σs)).zip (gmixGrid (gmixLo rows) (gmixHi rows)), hne with
      | (x0, y0) :: t, _ => simp only; split_ifs <;> exact ⟨_, rfl⟩
    refine ⟨x, hx, ?_⟩
    rw [hk] at hm
    unfold gmixPpfIn gmixPpf at hx ⊢
    rw [(range_mirror rows).1, (range_mirror rows).2]
    rw [hx] at hm
    simpa using hm

end Mixtures

/-! ## goodness of fit -/

theorem sort_mirror (data : List K) : Np.sort (data.map (-·)) = mirror (Np.sort data) := by
  symm
  apply eq_sort
  · exact (List.reverse_perm _).trans ((sort_perm data).map _)
  · rw [mirror, List.pairwise_reverse, List.pairwise_map]
    exact (sort_pairwise data).imp fun h => neg_le_neg h

theorem rowMax_reverse (l : List K) : rowMax l.reverse = rowMax l := by
  cases h : rowMax l with
  | ok m => exact (rowMax_ok_iff _ _).2 (by simpa using (rowMax_ok_iff _ _).1 h)
  | error e =>
    match l with
    | [] => exact h
    | a :: t => cases h

/-- numbered values in the opposite order -/
theorem zipWith_range_mirror {α β γ : Type} (g : α → β) (f : ℕ → α → γ) (f' : ℕ → β → γ) (c : List α) (h : ∀ i < c.length, ∀ v, f' (c.length - 1 - i) (g v) = f i v) :
    (List.range c.length).zipWith f' (c.map g).reverse = ((List.range c.length).zipWith f c).reverse := by
  apply List.ext_getElem
  · simp
  · intro i h1 h2
    have hi : i < c.length := by simpa using h1
    simp only [List.getElem_zipWith, List.getElem_reverse, List.getElem_range, List.getElem_map, List.length_zipWith, List.length_range, List.length_map, min_self]
    have := h (c.length - 1 - i) (by omega) (c[c.length - 1 - i]'(by omega))
    rw [show c.length - 1 - (c.length - 1 - i) = i by omega] at this
    exact this

/-- **C131: goodness of fit.** Every statistic (`"ad"`, `"cvm"`, `"ks"`) of mirrored data under the mirrored PDF is the statistic of the data. -/
theorem C131_gof (R R' : RefPdf K) (hc : ∀ x, R'.cdf (-x) = 1 - R.cdf x) (hl : ∀ x, R'.logcdf (-x) = R.logsf x) (hs : ∀ x, R'.logsf (-x) = R.logcdf x)
    (name : String) (stat : RefPdf K → List K → Except Err K) (hn : gofStat name = some stat) (data : List K) : stat R' (data.map (-·)) = stat R data := by
  have hmap : (mirror (Np.sort data)).map R'.cdf = (((Np.sort data).map R.cdf).map (1 - ·)).reverse := by
    unfold mirror
    rw [List.map_reverse, List.map_map, List.map_map]
    congr 1
    exact List.map_congr_left fun x _ => hc x
  have hcast : ∀ (n i : ℕ), i < n → ((n - 1 - i : ℕ) : K) = (n : K) - 1 - i := fun n i h => by rw [Nat.cast_sub (by omega), Nat.cast_sub (by omega)]; simp
  have hpos : ∀ n i : ℕ, i < n → (n : K) ≠ 0 := fun n i h => by exact_mod_cast (show n ≠ 0 by omega)
  have hplus : ∀ c : List K, dPlus (c.map (1 - ·)).reverse = dMinus c := by
    intro c
    unfold dPlus dMinus
    rw [List.length_reverse, List.length_map, zipWith_range_mirror (fun v => 1 - v) (fun i v => v - (i : K) / (c.length : K)), rowMax_reverse]
    intro i hi v
    rw [hcast _ _ hi]
    have := hpos _ _ hi
    field_simp
    ring
  have hminus : ∀ c : List K, dMinus (c.map (1 - ·)).reverse = dPlus c := by
    intro c
    unfold dPlus dMinus
    rw [List.length_reverse, List.length_map, zipWith_range_mirror (fun v => 1 - v) (fun i v => ((i : K) + 1) / (c.length : K) - v), rowMax_reverse]
    intro i hi v
    rw [hcast _ _ hi]
    have := hpos _ _ hi
    field_simp
    ring
  unfold gofStat at hn
  split_ifs at hn with h1 h2 h3
  · obtain rfl := Option.some.inj hn
    simp only [Except.ok.injEq]
    unfold adStat
    rw [sort_mirror]
    simp only [List.length_map]
    congr 2
    have hlen := length_sort data
    apply List.ext_getElem
    · simp [length_mirror, hlen]
    · intro i h1 h2
      have hi : i < data.length := by simp at h2; omega
      have hi' : i < (Np.sort data).length := by omega
      simp only [List.getElem_zipWith, List.getElem_range, List.getElem_zip, mirror, List.getElem_reverse, List.getElem_map, List.length_map, List.reverse_reverse, hl, hs]
      ring
  · obtain rfl := Option.some.inj hn
    simp only
    unfold cvmStat
    rw [sort_mirror, hmap]
    simp only [List.length_map]
    split_ifs with h0
    · rfl
    · have hlen : data.length = ((Np.sort data).map R.cdf).length := by rw [List.length_map, length_sort]
      rw [hlen, zipWith_range_mirror (fun v => 1 - v) (fun i v => ((2 * ((i : K) + 1) - 1) / (2 * (((Np.sort data).map R.cdf).length : K)) - v) ^ 2), Refine.sum_eq, Refine.sum_eq, List.sum_reverse]
      intro i hi v
      rw [hcast _ _ hi]
      have := hpos _ _ hi
      field_simp
      ring
  · obtain rfl := Option.some.inj hn
    simp only
    unfold ksStat
    rw [sort_mirror, hmap]
    simp only [hplus, hminus]
    cases h1 : dPlus ((Np.sort data).map R.cdf) with
    | error e =>
      cases h2 : dMinus ((Np.sort data).map R.cdf) with
      | error e' =>
        have he : ∀ (l : List K) (e : Err), rowMax l = .error e → e = .ValueError := by
          intro l e h
          match l with
          | [] => cases h; rfl
          | _ :: _ => cases h
        rw [he _ _ h1, he _ _ h2]
      | ok b =>
        exfalso
        have hb := (rowMax_ok_iff _ _).1 h2
        have hne : (Np.sort data).map R.cdf ≠ [] := by
          intro hnil
          rw [hnil] at hb
          simp at hb
        cases hd : (Np.sort data).map R.cdf with
        | nil => exact hne hd
        | cons a t => rw [hd] at h1; simp [dPlus, rowMax, List.range_succ_eq_map] at h1
    | ok a =>
      cases h2 : dMinus ((Np.sort data).map R.cdf) with
      | error e' =>
        exfalso
        have hb := (rowMax_ok_iff _ _).1 h1
        cases hd : (Np.sort data).map R.cdf with
        | nil => rw [hd] at hb; simp at hb
        | cons a t => rw [hd] at h2; simp [dMinus, rowMax, List.range_succ_eq_map] at h2
      | ok b =>
        show Except.ok (max b a) = Except.ok (max a b)
        rw [max_comm]

/-! ## examples -/

/-- three bins, mirrored -/
example : mirror (K := ℚ) [0, 1, 3] = [-3, -1, 0] := by decide +kernel

example := C131_hist (K := ℚ) (edges := [0, 1, 3]) (row := [1, 2]) (p := [1/5, 2/5]) ⟨by decide +kernel, rfl, by decide⟩ (by decide +kernel)

example := C131_interp_partial (K := ℚ) (xs := [0, 2, 3]) (row := [0, 2, 0]) (ys := [0, 2/3, 0]) (c := [0, 2/3, 1]) ⟨by decide +kernel, rfl, by decide⟩ (by decide +kernel)

example := C131_mixture [⟨[1/4, 3/4], [0, 5], [1, 2]⟩] ⟨[1/4, 3/4], [0, 5], [1, 2]⟩ (by simp) ⟨rfl, rfl, by norm_num, by norm_num, by norm_num⟩

/-- a PDF on `[0, 1]` with distribution function `x²` and its mirror image (logarithms left out) -/
example : (∀ x : ℚ, (fun y : ℚ => if y < -1 then (0 : ℚ) else if 0 < y then 1 else 1 - y ^ 2) (-x) = 1 - (fun y : ℚ => if y < 0 then (0 : ℚ) else if 1 < y then 1 else y ^ 2) x) ∧
    ksStat (K := ℚ) (fun y => if y < -1 then 0 else if 0 < y then 1 else 1 - y ^ 2) [-1/2, -1/3] =
      ksStat (K := ℚ) (fun y => if y < 0 then 0 else if 1 < y then 1 else y ^ 2) [1/2, 1/3] := by
  refine ⟨fun x => ?_, by decide +kernel⟩
  simp only
  split_ifs <;> first | (exfalso; linarith) | norm_num

end Verif.Props.Mirror
