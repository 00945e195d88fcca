import Verif.Props.ConvertError
import Verif.Props.Refine
import Verif.Props.Dominance

/-!
# Rebinning (C136)

What happens to a PDF when an ensemble is converted to histograms more than once, to finer edges, or next to another PDF with which it is ordered.
-/

set_option linter.unusedSectionVars false
set_option autoImplicit false

namespace Verif.Props.Rebin

open Verif Verif.Np Verif.Model Verif.Lemmas Verif.Spec Verif.Props.Convert Verif.Props.Hist Verif.Props.Bins Verif.Props.ConvertError Verif.Props.Refine

variable {K : Type} [Field K] [LinearOrder K] [IsStrictOrderedRing K]

/-! ## one PDF -/

theorem diff_affine (F : K → K) (α β : K) (c : List K) : Np.diff (c.map fun x => α * F x + β) = (Np.diff (c.map F)).map (α * ·) := by
  induction c with
  | nil => rfl
  | cons a t ih =>
    match t, ih with
    | [], _ => rfl
    | d :: t, ih =>
      simp only [List.map_cons, Np.diff] at ih ⊢
      rw [ih]
      simp only [List.cons.injEq, and_true]
      ring

/-- only the proportions of the CDF over the edges count -/
theorem converted_affine (c : List K) (F : K → K) (α β : K) (hα : α ≠ 0) : converted c (fun x => α * F x + β) = converted c F := by
  unfold converted
  rw [diff_affine, C07_scale_invariant _ _ _ hα]

theorem converted_congr (c : List K) (F G : K → K) (h : ∀ x ∈ c, F x = G x) : converted c F = converted c G := by
  unfold converted
  rw [List.map_congr_left h]

theorem diff_nonneg (F : K → K) (hF : Monotone F) (l : List K) (hl : l.Pairwise (· < ·)) : ∀ v ∈ Np.diff (l.map F), 0 ≤ v := by
  induction l with
  | nil => intro v hv; simp [Np.diff] at hv
  | cons a t ih =>
    intro v hv
    match t, hl with
    | [], _ => simp [Np.diff] at hv
    | c :: t, hl =>
      have hl' := List.pairwise_cons.1 hl
      rw [List.map_cons, List.map_cons, Np.diff] at hv
      rcases List.mem_cons.1 hv with rfl | hv
      · exact sub_nonneg.2 (hF (hl'.1 c (by simp)).le)
      · exact ih hl'.2 v hv

/-- one PDF put into equal bins: its CDF at the edges is that of the PDF restricted to the range of the bins -/
theorem row_general (b : List K) (F : K → K) (h2 : 2 ≤ b.length) (hs : b.Pairwise (· < ·)) (hu : Uniform b) (hF : Monotone F) (a z : K)
    (ha : b.head? = some a) (hz : b.getLast? = some z) (hm : F a < F z) :
    ∃ p, converted b F = some p ∧ p.length = b.length - 1 ∧ totalMass b p = 1 ∧ (∀ v ∈ p, 0 ≤ v) ∧ ∀ x ∈ b, histCdf b p x = some ((F x - F a) / (F z - F a)) := by
  have hne : F z - F a ≠ 0 := (sub_pos.2 hm).ne'
  have haf : (fun x => (F x - F a) / (F z - F a)) = fun x => (F z - F a)⁻¹ * F x + -(F a / (F z - F a)) := by
    funext x; field_simp; ring
  obtain ⟨p, hp, hk⟩ := C57_equal_bins_partial b (fun x => (F x - F a) / (F z - F a)) h2 hs hu
    (fun u hu' => by obtain rfl := Option.some.inj (ha.symm.trans hu'); simp)
    (fun u hu' => by obtain rfl := Option.some.inj (hz.symm.trans hu'); exact div_self hne)
  rw [haf, converted_affine _ _ _ _ (inv_ne_zero hne)] at hp
  have hlen : p.length = b.length - 1 := by
    rw [(histNormRow_idem b _ _ hp).2, Np.length_diff, List.length_map]
  have h0 : totalMass b (Np.diff (b.map F)) ≠ 0 := by
    intro h0
    rw [show converted b F = none from (C07_row_normalised b _).1 h0] at hp
    simp at hp
  obtain ⟨p', hp', h1, -, hpos⟩ := (C07_row_normalised b _).2 h0
  obtain rfl : p' = p := by rw [show converted b F = some p' from hp'] at hp; simpa using hp
  exact ⟨p', hp, hlen, h1, hpos hs (diff_nonneg F hF b hs), hk⟩

/-- in increasing bins, equal or not, the conversion of a PDF that has mass inside them gives numbers -/
theorem converted_some (c : List K) (F : K → K) (hc : c.Pairwise (· < ·)) (hF : Monotone F) (u v : K) (hu : c.head? = some u) (hv : c.getLast? = some v) (hm : F u < F v) :
    ∃ q, converted c F = some q := by
  have hnn : ∀ (t : List K) (a : K), (a :: t).Pairwise (· < ·) → 0 ≤ totalMass (a :: t) (Np.diff ((a :: t).map F)) := by
    intro t
    induction t with
    | nil => intro a _; simp [totalMass]
    | cons d t ih =>
      intro a ha
      have ha' := List.pairwise_cons.1 ha
      have hd := ha'.1 d (by simp)
      simp only [List.map_cons, Np.diff, totalMass] at ih ⊢
      exact add_nonneg (mul_nonneg (sub_nonneg.2 (hF hd.le)) (sub_nonneg.2 hd.le)) (ih d ha'.2)
  have hpos : ∀ (t : List K) (a v : K), (a :: t).Pairwise (· < ·) → (a :: t).getLast? = some v → F a < F v → 0 < totalMass (a :: t) (Np.diff ((a :: t).map F)) := by
    intro t
    induction t with
    | nil =>
      intro a v _ hl hm
      obtain rfl : a = v := by simpa using hl
      exact absurd hm (lt_irrefl _)
    | cons d t ih =>
      intro a v ha hl hm
      have ha' := List.pairwise_cons.1 ha
      have hd := ha'.1 d (by simp)
      have h0 := hnn t d ha'.2
      have ih' := ih d v ha'.2 (by simpa using hl)
      simp only [List.map_cons, Np.diff, totalMass] at h0 ih' ⊢
      rcases (hF hd.le).lt_or_eq with h | h
      · exact add_pos_of_pos_of_nonneg (mul_pos (sub_pos.2 h) (sub_pos.2 hd)) h0
      · exact add_pos_of_nonneg_of_pos (mul_nonneg (sub_nonneg.2 h.le) (sub_nonneg.2 hd.le)) (ih' (h ▸ hm))
  obtain ⟨a, t, rfl⟩ := List.exists_cons_of_ne_nil (show c ≠ [] by rintro rfl; simp at hu)
  obtain rfl : a = u := by simpa using hu
  obtain ⟨q, hq, -⟩ := (C07_row_normalised (a :: t) (Np.diff ((a :: t).map F))).2 (hpos t a v hc hv hm).ne'
  exact ⟨q, hq⟩

/-- two steps for one PDF -/
theorem row_steps (b c : List K) (F : K → K) (h2 : 2 ≤ b.length) (hb : b.Pairwise (· < ·)) (hub : Uniform b) (hcb : ∀ x ∈ c, x ∈ b) (hF : Monotone F) (a z : K)
    (ha : b.head? = some a) (hz : b.getLast? = some z) (hm : F a < F z) :
    ∃ p, converted b F = some p ∧ p.length = b.length - 1 ∧ totalMass b p = 1 ∧ converted c (massUpTo b p) = converted c F := by
  obtain ⟨p, h3, h4, h5, h6, h7⟩ := row_general b F h2 hb hub hF a z ha hz hm
  have hne : F z - F a ≠ 0 := (sub_pos.2 hm).ne'
  refine ⟨p, h3, h4, h5, ?_⟩
  have hg : Grid b p.length := ⟨hb, by omega, by omega⟩
  rw [converted_congr c _ (fun x => (F z - F a)⁻¹ * F x + -(F a / (F z - F a))), converted_affine _ _ _ _ (inv_ne_zero hne)]
  intro x hx
  have := h7 x (hcb x hx)
  rw [C08_cdf_is_mass b p hg h5 x] at this
  rw [Option.some.inj this]
  field_simp; ring

/-! ## two steps -/

/-- the function that answers `cdf` of an ensemble at increasing points with the values of `F` -/
def Answers (cdf : Frozen K → Val K → Except Err (Arr (Elem K))) (fr : Frozen K) (F : ℕ → K → K) : Prop :=
  ∀ x : List K, x.Pairwise (· < ·) →
    cdf fr (.arr (vec x)) = .ok ⟨fr.shape ++ [x.length], nums ((List.range fr.shape.prod).map fun i => x.map (F i)).flatten⟩

/-- **C136: in two steps.** An ensemble of any class with distribution functions `F i` is converted to histograms on the equal bins `b`, and the result to histograms on wider
bins `c` (equal or not), all edges of which are among those of `b`. The result is the one that the conversion to `c` gives at once. The bins need not cover the PDFs.
Missing: unequal bins `b` (false, `C136_unequal_wrong`). -/
theorem C136_two_steps_partial (ev : Evals K) (e : Ens K) (b c : List K) (h2 : 2 ≤ b.length) (hb : b.Pairwise (· < ·)) (hub : Uniform b) (h2c : 2 ≤ c.length) (hc : c.Pairwise (· < ·))
    (hcb : ∀ x ∈ c, x ∈ b) (F : ℕ → K → K) (hs : e.frozen.shape ≠ []) (hcdf : Answers ev.cdf e.frozen F) (hF : ∀ i, Monotone (F i)) (u v : K)
    (hu : c.head? = some u) (hv : c.getLast? = some v) (hm : ∀ i, F i u < F i v) (g h : Frozen K → Val K → Except Err (Arr (Elem K))) :
    ∃ e1 e2, convertTo (histPy ev) e none [("bins", .arr (vec b))] = .ok e1 ∧
      convertTo (histPy ⟨g, ensArr histCdfElem, h⟩) e1 none [("bins", .arr (vec c))] = .ok e2 ∧
      convertTo (histPy ev) e none [("bins", .arr (vec c))] = .ok e2 := by
  have hbne : b ≠ [] := by rintro rfl; simp at h2
  have hcne : c ≠ [] := by rintro rfl; simp at h2c
  have ha := List.head?_eq_some_head hbne
  have hz := List.getLast?_eq_some_getLast hbne
  have hle : ∀ i, F i (b.head hbne) < F i (b.getLast hbne) := fun i => by
    have h1 : b.head hbne ≤ u := by
      have hmem := hcb u (List.mem_of_mem_head? hu)
      obtain ⟨b0, t, rfl⟩ := List.exists_cons_of_ne_nil hbne
      rcases List.mem_cons.1 hmem with rfl | hmem
      · exact le_rfl
      · exact ((List.pairwise_cons.1 hb).1 u hmem).le
    have h2 : v ≤ b.getLast hbne := last_mem_max hb hbne v (hcb v (List.mem_of_mem_getLast? hv))
    exact lt_of_le_of_lt (hF i h1) (lt_of_lt_of_le (hm i) (hF i h2))
  have hrow := fun i => row_steps b c (F i) h2 hb hub hcb (hF i) _ _ ha hz (hle i)
  choose P hP1 hP2 hP3 hP4 using hrow
  have hcrow := fun i => converted_some c (F i) hc (hF i) u v hu hv (hm i)
  choose Q hQ1 using hcrow
  have e1 := hist_conversion ev e b h2 F hs (hcdf b hb) P fun i _ => hP1 i
  have e2 := hist_conversion ev e c h2c F hs (hcdf c hc) Q fun i _ => hQ1 i
  refine ⟨_, _, e1, ?_, e2⟩
  have hg : ∀ i, Grid b (P i).length := fun i => ⟨hb, by rw [hP2 i]; omega, by rw [hP2 i]; omega⟩
  have hat := histCdf_at b c hc e.frozen.shape P (fun i => massUpTo b (P i)) (fun i _ => hP2 i) fun i _ v => C08_cdf_is_mass b (P i) (hg i) (hP3 i) v
  exact hist_conversion ⟨g, ensArr histCdfElem, h⟩ ⟨rowCreate histCls, rowCreate histCls, frozenOf histCls [("bins", vec b)] [b.length - 1]
    ((List.range e.frozen.shape.prod).map fun i => [nums (P i)]) e.frozen.shape, none⟩ c h2c (fun i => massUpTo b (P i)) hs hat Q fun i _ => (hP4 i).trans (hQ1 i)

/-! ## finer edges -/

/-- edges that include all of those of a histogram, with the same ends, divide its bins -/
theorem finer_exists : ∀ (c' : List K) (c0 : K) (a r : List K), (c0 :: c').Pairwise (· < ·) → a.Pairwise (· < ·) → a.length = r.length + 1 → a.head? = some c0 →
    a.getLast? = (c0 :: c').getLast? → (∀ x ∈ a, x ∈ c0 :: c') → ∃ r', Finer (a, r) (c0 :: c', r') := by
  intro c'
  induction c' with
  | nil =>
    intro c0 a r hc ha hl hh hlast hsub
    match a, r, hl, hh with
    | [x], [], _, hh => obtain rfl : x = c0 := by simpa using hh
                        exact ⟨[], Relation.ReflTransGen.refl⟩
    | x :: y :: a, r, _, hh =>
      exfalso
      have h1 : x = c0 := by simpa using hh
      have h2 : y = c0 := by simpa using hsub y (by simp)
      have := (List.pairwise_cons.1 ha).1 y (by simp)
      rw [h1, h2] at this
      exact lt_irrefl _ this
  | cons c1 c' ih =>
    intro c0 a r hc ha hl hh hlast hsub
    have hc' := List.pairwise_cons.1 hc
    match a, r, hl, hh with
    | [x], [], _, hh =>
      exfalso
      have h1 : x = c0 := by simpa using hh
      rw [List.getLast?_singleton, List.getLast?_cons_cons, List.getLast?_eq_some_getLast (by simp)] at hlast
      have := hc'.1 _ (List.getLast_mem (l := c1 :: c') (by simp))
      rw [← Option.some.inj hlast, h1] at this
      exact lt_irrefl _ this
    | x :: y :: a, v :: r, hl, hh =>
      obtain rfl : x = c0 := by simpa using hh
      have ha' := List.pairwise_cons.1 ha
      have hxy := ha'.1 y (by simp)
      have hsub' : ∀ t ∈ y :: a, t ∈ c1 :: c' := fun t ht => by
        rcases List.mem_cons.1 (hsub t (List.mem_cons_of_mem _ ht)) with rfl | h
        · exact absurd (ha'.1 _ ht) (lt_irrefl _)
        · exact h
      by_cases hy : y = c1
      · subst hy
        obtain ⟨r', hr'⟩ := ih y (y :: a) r hc'.2 ha'.2 (by simpa using hl) rfl (by simpa using hlast) hsub'
        refine ⟨v :: r', ?_⟩
        have : ∀ {h h' : List K × List K}, Finer h h' → Finer (x :: h.1, v :: h.2) (x :: h'.1, v :: h'.2) := by
          intro h h' hf
          induction hf with
          | refl => exact Relation.ReflTransGen.refl
          | tail _ h2 ih => exact ih.tail (OneCut.later _ _ _ _ _ _ h2)
        exact this hr'
      · have hy1 : c1 < y := by
          rcases List.mem_cons.1 (hsub' y (by simp)) with h | h
          · exact absurd h hy
          · exact (List.pairwise_cons.1 hc'.2).1 y h
        obtain ⟨r', hr'⟩ := ih c1 (c1 :: y :: a) (v :: r) hc'.2 (List.pairwise_cons.2 ⟨fun t ht => by
            rcases List.mem_cons.1 ht with rfl | ht
            · exact hy1
            · exact hy1.trans ((List.pairwise_cons.1 ha'.2).1 t ht), ha'.2⟩) (by simpa using hl) rfl (by simpa using hlast)
          (fun t ht => by rcases List.mem_cons.1 ht with rfl | ht
                          · simp
                          · exact hsub' t ht)
        refine ⟨v :: r', ?_⟩
        have : ∀ {h h' : List K × List K}, Finer h h' → Finer (x :: h.1, v :: h.2) (x :: h'.1, v :: h'.2) := by
          intro h h' hf
          induction hf with
          | refl => exact Relation.ReflTransGen.refl
          | tail _ h2 ih => exact ih.tail (OneCut.later _ _ _ _ _ _ h2)
        exact (Relation.ReflTransGen.single (OneCut.here x c1 y v a r (hc'.1 c1 (by simp)) hy1)).trans (this hr')

/-- a histogram with equal bins whose CDF is cut at its own edges -/
theorem converted_self (c p : List K) (hc : c.Pairwise (· < ·)) (huc : Uniform c) (h2 : 2 ≤ c.length) (hl : p.length = c.length - 1) (hn : histNormRow c p = some p) :
    converted c (massUpTo c p) = some p := by
  obtain ⟨w, hw⟩ := huc
  have hw0 : w ≠ 0 := width_ne c w h2 hc hw
  have hd : Np.diff (c.map fun x => massUpTo c p x) = p.map (w * ·) := by
    apply List.ext_getElem?
    intro j
    by_cases hj : j < c.length - 1
    · have hu1 : c[j]? = some c[j] := List.getElem?_eq_getElem (by omega)
      have hu2 : c[j + 1]? = some c[j + 1] := List.getElem?_eq_getElem (by omega)
      have hm : p[j]? = some (p[j]'(by omega)) := List.getElem?_eq_getElem (by omega)
      have := (diff_getElem? (c.map fun x => massUpTo c p x) j (massUpTo c p c[j + 1] - massUpTo c p c[j])).2
        ⟨_, _, by rw [List.getElem?_map, hu1]; rfl, by rw [List.getElem?_map, hu2]; rfl, rfl⟩
      rw [this, List.getElem?_map, hm]
      simp only [Option.map_some]
      congr 1
      rw [massUpTo_step c p hc j _ _ _ hu1 hu2 hm, hw j _ _ hu1 hu2]
      ring
    · rw [List.getElem?_eq_none (by rw [Np.length_diff, List.length_map]; omega), List.getElem?_eq_none (by rw [List.length_map, hl]; omega)]
  rw [converted, hd, C07_scale_invariant _ _ _ hw0, hn]

/-- the table of a histogram ensemble without `nan` -/
theorem hist_rows (e : Ens K) (hr : Reach .hist e) (b : List K) (hb : metaGrid e.frozen.metadata "bins" = b)
    (hfin : ∀ i < e.frozen.npdf, finites (tableRow e.frozen i "pdfs") ≠ none) :
    ∃ P : ℕ → List K, e.frozen = frozenOf histCls [("bins", vec b)] [b.length - 1] ((List.range e.frozen.shape.prod).map fun i => [nums (P i)]) e.frozen.shape ∧
      2 ≤ b.length ∧ ∀ i < e.frozen.shape.prod, (P i).length = b.length - 1 ∧ histNormRow b (P i) = some (P i) ∧ totalMass b (P i) = 1 := by
  have hnp := reach_npdf hr
  obtain ⟨b', out, hfr, h2, hrows⟩ := hist_stored hr
  obtain rfl : b' = b := by rw [← hb, hfr, metaGrid_hist]
  have hnp' : out.length = e.frozen.shape.prod := by
    rw [← hnp]
    conv_rhs => rw [hfr]
    rfl
  have hex : ∀ i, ∃ p : List K, ∀ (hi : i < out.length), out[i] = [nums p] ∧ p.length = b'.length - 1 ∧ histNormRow b' p = some p := by
    intro i
    by_cases hi : i < out.length
    · obtain ⟨row, h3, h4, h5⟩ := hrows _ (List.getElem_mem hi)
      have hrow : tableRow e.frozen i "pdfs" = row := by
        rw [hfr]
        unfold tableRow
        have : Dict.get? (frozenOf histCls [("bins", vec b')] [b'.length - 1] out e.frozen.shape).objdata "pdfs"
            = some (.arr (tab out (b'.length - 1) 0)) := by
          simp [frozenOf, histCls, storeRows, get?_cons, tab]
        rw [this]
        simp only
        have hlen : ∀ r ∈ out, r.map List.length = [b'.length - 1] := by
          intro r hr'
          obtain ⟨row', rfl, h6, -⟩ := hrows r hr'
          simp [h6]
        have := tab_row hlen 0 (by simp) i hi
        simp only [List.getElem_cons_zero] at this
        rw [this, h3]
        rfl
      have hf := hfin i (by rw [hnp, ← hnp']; exact hi)
      rw [hrow] at hf
      cases hp : finites row with
      | none => exact absurd hp hf
      | some p =>
        rw [finites_some_iff] at hp
        subst hp
        have hpl : p.length = b'.length - 1 := by simpa [nums] using h4
        refine ⟨p, fun _ => ⟨h3, hpl, liftRow_num h5 ?_⟩⟩
        intro h0
        rw [h0] at hpl
        simp at hpl
        omega
    · exact ⟨[], fun h => absurd h hi⟩
  choose P hP using hex
  have hout : out = (List.range e.frozen.shape.prod).map fun i => [nums (P i)] := by
    apply List.ext_getElem
    · simp [hnp']
    · intro i h1 _
      simp only [List.getElem_map, List.getElem_range]
      exact (hP i h1).1
  refine ⟨P, by rw [← hout]; exact hfr, h2, fun i hi => ?_⟩
  obtain ⟨-, hPl, hPn⟩ := hP i (by omega)
  refine ⟨hPl, hPn, ?_⟩
  by_cases h0 : totalMass b' (P i) = 0
  · have := (C07_row_normalised b' (P i)).1 h0
    rw [hPn] at this
    simp at this
  · obtain ⟨p, h3, h4, -⟩ := (C07_row_normalised b' (P i)).2 h0
    rw [hPn] at h3
    rw [Option.some.inj h3]
    exact h4

/-- **C136: finer edges.** A histogram ensemble (any edges, no `nan`) is converted to histograms on equal bins, the edges of which include all of its edges and have the same ends.
Nothing is lost: the CDF is the same at all points, the PPF (for contents that are not negative) for all probabilities, and the density inside the new bins and outside of all of them
(where the code recognises the bins, C05). -/
theorem C136_finer [FloorRing K] (e : Ens K) (hr : Reach .hist e) (a c : List K) (ha : metaGrid e.frozen.metadata "bins" = a) (has : a.Pairwise (· < ·)) (hs : e.frozen.shape ≠ [])
    (hfin : ∀ i < e.frozen.npdf, finites (tableRow e.frozen i "pdfs") ≠ none) (hc : c.Pairwise (· < ·)) (huc : Uniform c) (hac : ∀ x ∈ a, x ∈ c) (hh : a.head? = c.head?)
    (hl : a.getLast? = c.getLast?) (g h : Frozen K → Val K → Except Err (Arr (Elem K))) :
    ∃ e', convertTo (histPy ⟨g, ensArr histCdfElem, h⟩) e none [("bins", .arr (vec c))] = .ok e' ∧ metaGrid e'.frozen.metadata "bins" = c ∧ e'.frozen.npdf = e.frozen.npdf ∧
      (∀ x : List K, x.Pairwise (· < ·) → ensArr histCdfElem e'.frozen (.arr (vec x)) = ensArr histCdfElem e.frozen (.arr (vec x))) ∧
      ∀ i < e.frozen.npdf, ∃ p p', tableRow e.frozen i "pdfs" = nums p ∧ tableRow e'.frozen i "pdfs" = nums p' ∧
        (∀ x, histCdf c p' x = histCdf a p x) ∧ ((∀ v ∈ p, 0 ≤ v) → ∀ q, histPpf c p' q = histPpf a p q) ∧
        (Uniform a ∨ DetectablyNonUniform a → ∀ x, ((∃ j, Inside c j x) ∨ (∀ u ∈ c, x < u) ∨ ∀ u ∈ c, u < x) → histPdf c p' x = histPdf a p x) := by
  have hnp := reach_npdf hr
  obtain ⟨P, hfr, h2, hP⟩ := hist_rows e hr a ha hfin
  have h2c : 2 ≤ c.length := h2.trans (List.Nodup.subperm (has.imp ne_of_lt) hac).length_le
  have hrow : ∀ i, ∃ p', i < e.frozen.shape.prod → p'.length = c.length - 1 ∧ histNormRow c p' = some p' ∧ totalMass c p' = 1 ∧ (∀ x, histCdf c p' x = histCdf a (P i) x) ∧
      ((∀ v ∈ P i, 0 ≤ v) → ∀ q, histPpf c p' q = histPpf a (P i) q) ∧
      (Uniform a ∨ DetectablyNonUniform a → ∀ x, ((∃ j, Inside c j x) ∨ (∀ u ∈ c, x < u) ∨ ∀ u ∈ c, u < x) → histPdf c p' x = histPdf a (P i) x) := by
    intro i
    by_cases hi : i < e.frozen.shape.prod
    swap
    · exact ⟨[], fun h => absurd h hi⟩
    obtain ⟨p1, p2, p3⟩ := hP i hi
    have hg : Grid a (P i).length := ⟨has, by omega, by omega⟩
    obtain ⟨c0, c', rfl⟩ := List.exists_cons_of_ne_nil (show c ≠ [] by rintro rfl; simp at h2c)
    obtain ⟨r', hf⟩ := finer_exists c' c0 a (P i) hc has (by omega) hh hl hac
    obtain ⟨hg', p', hp', f1, f2, f3⟩ := C130_hist hf hg p2
    obtain ⟨i1, i2⟩ := histNormRow_idem _ _ _ hp'
    refine ⟨p', fun _ => ⟨by have := hg'.size; omega, i1, ?_, f1, f2, fun hu => f3 hu (Or.inl huc)⟩⟩
    by_cases h0 : totalMass (c0 :: c') p' = 0
    · rw [(C07_row_normalised _ p').1 h0] at i1
      simp at i1
    · obtain ⟨p, h3, h4, -⟩ := (C07_row_normalised _ p').2 h0
      rw [i1] at h3
      rw [Option.some.inj h3]
      exact h4
  choose Q hQ using hrow
  have hga : ∀ i < e.frozen.shape.prod, Grid a (P i).length := fun i hi => ⟨has, by rw [(hP i hi).1]; omega, by rw [(hP i hi).1]; omega⟩
  have hgc : ∀ i < e.frozen.shape.prod, Grid c (Q i).length := fun i hi => ⟨hc, by rw [(hQ i hi).1]; omega, by rw [(hQ i hi).1]; omega⟩
  have hma : ∀ i < e.frozen.shape.prod, ∀ x, histCdf a (P i) x = some (massUpTo a (P i) x) := fun i hi x => C08_cdf_is_mass a (P i) (hga i hi) (hP i hi).2.2 x
  have hmc : ∀ i < e.frozen.shape.prod, ∀ x, histCdf c (Q i) x = some (massUpTo c (Q i) x) := fun i hi x => C08_cdf_is_mass c (Q i) (hgc i hi) (hQ i hi).2.2.1 x
  have hsame : ∀ i < e.frozen.shape.prod, ∀ x, massUpTo c (Q i) x = massUpTo a (P i) x := fun i hi x => by
    have := (hQ i hi).2.2.2.1 x
    rw [hma i hi, hmc i hi] at this
    exact Option.some.inj this
  have hat := fun (x : List K) (hx : x.Pairwise (· < ·)) => histCdf_at a x hx e.frozen.shape P (fun i => massUpTo a (P i)) (fun i hi => (hP i hi).1) hma
  have hconv := hist_conversion ⟨g, ensArr histCdfElem, h⟩ e c h2c (fun i => massUpTo a (P i)) hs (by conv_lhs => rw [hfr]
                                                                                                      exact hat c hc) Q fun i hi => by
    rw [← converted_self c (Q i) hc huc h2c (hQ i hi).1 (hQ i hi).2.1]
    exact converted_congr c _ _ fun x _ => (hsame i hi x).symm
  refine ⟨_, hconv, metaGrid_hist _ _ _ _, ?_, ?_, ?_⟩
  · rw [hnp]; simp [frozenOf]
  · intro x hx
    conv_rhs => rw [hfr]
    rw [hat x hx]
    exact histCdf_at c x hx e.frozen.shape Q (fun i => massUpTo a (P i)) (fun i hi => (hQ i hi).1) fun i hi v => by rw [hmc i hi, hsame i hi]
  · intro i hi
    rw [hnp] at hi
    refine ⟨P i, Q i, ?_, tableRow_hist c _ Q _ (fun j hj => (hQ j hj).1) i hi, (hQ i hi).2.2.2⟩
    conv_lhs => rw [hfr]
    exact tableRow_hist a _ P _ (fun j hj => (hP j hj).1) i hi

/-! ## order -/

/-- two CDFs of histograms on common edges are ordered if they are at the edges -/
theorem order_of_edges (b p p' : List K) (hg : Grid b p.length) (hl' : p'.length = p.length) (h1 : totalMass b p = 1) (h1' : totalMass b p' = 1)
    (hp : ∀ v ∈ p, 0 ≤ v) (hp' : ∀ v ∈ p', 0 ≤ v) (h : ∀ x ∈ b, massUpTo b p' x ≤ massUpTo b p x) (x : K) : massUpTo b p' x ≤ massUpTo b p x := by
  have hg' : Grid b p'.length := by rw [hl']; exact hg
  have hbne : b ≠ [] := by rintro rfl; exact absurd hg.size (by simp)
  obtain ⟨l1, r1, -⟩ := C08_cdf_shape b p hg h1 hp
  obtain ⟨l2, r2, -⟩ := C08_cdf_shape b p' hg' h1' hp'
  have m1 := C08_cdf_is_mass b p hg h1
  have m2 := C08_cdf_is_mass b p' hg' h1'
  have hmin : ∀ v ∈ b, b.head hbne ≤ v := fun v hv => by
    obtain ⟨b0, t, rfl⟩ := List.exists_cons_of_ne_nil hbne
    rcases List.mem_cons.1 hv with rfl | hv
    · exact le_rfl
    · exact ((List.pairwise_cons.1 hg.strict).1 v hv).le
  rcases le_or_gt x (b.head hbne) with hx | hx
  · have e1 := l1 x fun v hv => hx.trans (hmin v hv)
    have e2 := l2 x fun v hv => hx.trans (hmin v hv)
    rw [m1] at e1; rw [m2] at e2
    rw [Option.some.inj e1, Option.some.inj e2]
  rcases le_or_gt (b.getLast hbne) x with hx2 | hx2
  · have e1 := r1 x fun v hv => (last_mem_max hg.strict hbne v hv).trans hx2
    have e2 := r2 x fun v hv => (last_mem_max hg.strict hbne v hv).trans hx2
    rw [m1] at e1; rw [m2] at e2
    rw [Option.some.inj e1, Option.some.inj e2]
  obtain ⟨j, u, v, hu, hv, hux, hxv⟩ := bracket b x _ _ (List.head?_eq_some_head hbne) (List.getLast?_eq_some_getLast hbne) hx.le hx2
  have hj : j + 1 < b.length := (List.getElem?_eq_some_iff.1 hv).1
  have hsz := hg.size
  have hpj : p[j]? = some (p[j]'(by omega)) := List.getElem?_eq_getElem (by omega)
  have hpj' : p'[j]? = some (p'[j]'(by omega)) := List.getElem?_eq_getElem (by omega)
  have slope : ∀ (q : List K) (hgq : Grid b q.length) (hq1 : totalMass b q = 1) (k : K), q[j]? = some k →
      massUpTo b q x - massUpTo b q u = k * (x - u) ∧ massUpTo b q v - massUpTo b q u = k * (v - u) := by
    intro q hgq hq1 k hk
    obtain ⟨y1, y2, e1, e2, e3⟩ := C08_cdf_slope b q hgq hq1 j u v k u x hu hv hk le_rfl hux hxv.le
    obtain ⟨z1, z2, e4, e5, e6⟩ := C08_cdf_slope b q hgq hq1 j u v k u v hu hv hk le_rfl (hux.trans hxv.le) le_rfl
    rw [C08_cdf_is_mass b q hgq hq1] at e1 e2 e4 e5
    cases e1; cases e2; cases e4; cases e5
    exact ⟨e3, e6⟩
  obtain ⟨s1, s2⟩ := slope p hg h1 _ hpj
  obtain ⟨t1, t2⟩ := slope p' hg' h1' _ hpj'
  have hu' := h u (List.mem_of_getElem? hu)
  have hv' := h v (List.mem_of_getElem? hv)
  have huv : 0 < v - u := sub_pos.2 (lt_of_le_of_lt hux hxv)
  have key : (massUpTo b p x - massUpTo b p' x) * (v - u) = (massUpTo b p u - massUpTo b p' u) * (v - x) + (massUpTo b p v - massUpTo b p' v) * (x - u) := by
    have a1 : massUpTo b p x = massUpTo b p u + p[j]'(by omega) * (x - u) := by linarith
    have a2 : massUpTo b p v = massUpTo b p u + p[j]'(by omega) * (v - u) := by linarith
    have a3 : massUpTo b p' x = massUpTo b p' u + p'[j]'(by omega) * (x - u) := by linarith
    have a4 : massUpTo b p' v = massUpTo b p' u + p'[j]'(by omega) * (v - u) := by linarith
    rw [a1, a2, a3, a4]; ring
  have : 0 ≤ (massUpTo b p x - massUpTo b p' x) * (v - u) := by
    rw [key]
    exact add_nonneg (mul_nonneg (sub_nonneg.2 hu') (sub_nonneg.2 hxv.le)) (mul_nonneg (sub_nonneg.2 hv') (sub_nonneg.2 hux))
  exact sub_nonneg.1 (nonneg_of_mul_nonneg_left this huv)

/-- **C136: order.** Two ensembles of any classes are converted to histograms on common equal bins that cover their PDFs. If the CDF of PDF `i` of the first is at no edge below that
of PDF `j` of the second, the same holds for the histograms at all points, and no quantile of the first histogram exceeds that of the second. -/
theorem C136_order (ev ev' : Evals K) (e e' : Ens K) (b : List K) (h2 : 2 ≤ b.length) (hb : b.Pairwise (· < ·)) (hub : Uniform b) (F F' : ℕ → K → K)
    (hs : e.frozen.shape ≠ []) (hs' : e'.frozen.shape ≠ []) (hcdf : Answers ev.cdf e.frozen F) (hcdf' : Answers ev'.cdf e'.frozen F')
    (hF : ∀ i, Monotone (F i)) (hF' : ∀ i, Monotone (F' i)) (a z : K) (ha : b.head? = some a) (hz : b.getLast? = some z)
    (h0 : ∀ i, F i a = 0 ∧ F i z = 1) (h0' : ∀ i, F' i a = 0 ∧ F' i z = 1) :
    ∃ d d', convertTo (histPy ev) e none [("bins", .arr (vec b))] = .ok d ∧ convertTo (histPy ev') e' none [("bins", .arr (vec b))] = .ok d' ∧
      ∀ i j, i < e.frozen.shape.prod → j < e'.frozen.shape.prod → (∀ x ∈ b, F' j x ≤ F i x) →
        ∃ p p', tableRow d.frozen i "pdfs" = nums p ∧ tableRow d'.frozen j "pdfs" = nums p' ∧ Dominance.Left (histCdf b p) (histCdf b p') ∧
          ∀ q x x', 0 ≤ q → q < 1 → histPpf b p q = some x → histPpf b p' q = some x' → x ≤ x' := by
  have hr := fun i => row_general b (F i) h2 hb hub (hF i) a z ha hz (by rw [(h0 i).1, (h0 i).2]; exact zero_lt_one)
  have hr' := fun i => row_general b (F' i) h2 hb hub (hF' i) a z ha hz (by rw [(h0' i).1, (h0' i).2]; exact zero_lt_one)
  choose P hP1 hP2 hP3 hP4 hP5 using hr
  choose Q hQ1 hQ2 hQ3 hQ4 hQ5 using hr'
  refine ⟨_, _, hist_conversion ev e b h2 F hs (hcdf b hb) P fun i _ => hP1 i, hist_conversion ev' e' b h2 F' hs' (hcdf' b hb) Q fun i _ => hQ1 i, fun i j hi hj hij => ?_⟩
  refine ⟨P i, Q j, tableRow_hist b _ P _ (fun k _ => hP2 k) i hi, tableRow_hist b _ Q _ (fun k _ => hQ2 k) j hj, ?_⟩
  have hg : Grid b (P i).length := ⟨hb, by rw [hP2 i]; omega, by rw [hP2 i]; omega⟩
  have hg' : Grid b (Q j).length := ⟨hb, by rw [hQ2 j]; omega, by rw [hQ2 j]; omega⟩
  have hle := order_of_edges b (P i) (Q j) hg (by rw [hP2, hQ2]) (hP3 i) (hQ3 j) (hP4 i) (hQ4 j) fun x hx => by
    have e1 := hP5 i x hx
    have e2 := hQ5 j x hx
    rw [C08_cdf_is_mass b _ hg (hP3 i), (h0 i).1, (h0 i).2] at e1
    rw [C08_cdf_is_mass b _ hg' (hQ3 j), (h0' j).1, (h0' j).2] at e2
    rw [Option.some.inj e1, Option.some.inj e2]
    simpa using hij x hx
  have hL : Dominance.Left (histCdf b (P i)) (histCdf b (Q j)) := by
    intro x u v hu hv
    rw [C08_cdf_is_mass b _ hg (hP3 i)] at hu
    rw [C08_cdf_is_mass b _ hg' (hQ3 j)] at hv
    cases hu; cases hv
    exact hle x
  exact ⟨hL, (Dominance.C134_hist b (P i) b (Q j) hg (hP3 i) (hP4 i) hg' (hQ3 j) (hQ4 j)).1 hL⟩

/-! ## unequal bins, and examples -/

/-- the four evaluations of a histogram ensemble that conversions use -/
def histEv : Evals ℚ := ⟨ensArr histCdfElem, ensArr histCdfElem, ensArr histCdfElem⟩

/-- two PDFs on the edges 0, 1, 2: uniform, and all in the first bin -/
def exEns : Ens ℚ := ⟨rowCreate histCls, rowCreate histCls, eqFrozen, none⟩

/-- the heights of PDF 0 after a list of conversions to histograms -/
def heightsAfter (e : Ens ℚ) : List (List ℚ) → Option (List (Elem ℚ))
  | [] => some (tableRow e.frozen 0 "pdfs")
  | b :: t => ((convertTo (histPy histEv) e none [("bins", .arr (vec b))]).toOption).bind fun e' => heightsAfter e' t

/-- **C136 is violated if the first bins are unequal**: the uniform PDF on [0, 2] put into the bins 0, 1/2, 1, 2 and then into 0, 1, 2 has heights 1/3 and 2/3 instead of 1/2 and 1/2. -/
theorem C136_unequal_wrong : heightsAfter exEns [[0, 1]] = some (nums [1]) ∧ heightsAfter exEns [[0, 1, 2]] = some (nums [1/2, 1/2]) ∧
    heightsAfter exEns [[0, 1/2, 1, 2], [0, 1, 2]] = some (nums [1/3, 2/3]) := by
  refine ⟨by decide +kernel, by decide +kernel, by decide +kernel⟩

/-- equal bins first: nothing changes, also with unequal bins in the end -/
example : heightsAfter exEns [[0, 1/2, 1, 3/2, 2], [0, 1, 2]] = some (nums [1/2, 1/2]) ∧
    heightsAfter exEns [[0, 1/2, 1, 3/2, 2], [0, 1/2, 2]] = heightsAfter exEns [[0, 1/2, 2]] := by
  refine ⟨by decide +kernel, by decide +kernel⟩

/-- the CDFs of the two PDFs -/
def exCdf (i : ℕ) : ℚ → ℚ := if i = 0 then massUpTo [0, 1, 2] [1/2, 1/2] else massUpTo [0, 1, 2] [1, 0]

theorem exCdf_mono (i : ℕ) : Monotone (exCdf i) := by
  intro x y h
  unfold exCdf
  split <;> simp only [massUpTo] <;> gcongr

theorem exAnswers : Answers histEv.cdf exEns.frozen exCdf := by
  intro x hx
  have := histCdf_at [0, 1, 2] x hx [2] (fun i => if i = 0 then [1/2, 1/2] else [1, 0]) exCdf (by intro i _; split <;> rfl) (by
    intro i _ v
    dsimp only [exCdf]
    split
    · exact C08_cdf_is_mass _ _ ⟨by decide +kernel, by decide, by decide⟩ (by decide +kernel) v
    · exact C08_cdf_is_mass _ _ ⟨by decide +kernel, by decide, by decide⟩ (by decide +kernel) v)
  exact this

theorem uniformHalf : Uniform ([0, 1/2, 1, 3/2, 2] : List ℚ) := ⟨1/2, fun i a b ha hb => by
    match i with
    | 0 | 1 | 2 | 3 => simp at ha hb; subst ha hb; norm_num
    | i + 4 => simp at hb⟩

example := C136_two_steps_partial histEv exEns [0, 1/2, 1, 3/2, 2] [0, 1/2, 2] (by decide) (by decide +kernel) uniformHalf (by decide) (by decide +kernel) (by decide +kernel) exCdf (by decide)
  exAnswers exCdf_mono 0 2 rfl rfl (by intro i; unfold exCdf; split <;> decide +kernel) histEv.pdf histEv.ppf

example := C136_finer exEns eqReach [0, 1, 2] [0, 1/2, 1, 3/2, 2] (by decide +kernel) (by decide +kernel) (by decide)
  (by
    intro i hi
    match i, hi with
    | 0, _ => decide +kernel
    | 1, _ => decide +kernel
    | i + 2, hi => exact absurd hi (by simp [exEns, eqFrozen, frozenOf]))
  (by decide +kernel) uniformHalf (by decide +kernel) rfl rfl histEv.pdf histEv.ppf

example : ∃ d d', convertTo (histPy histEv) exEns none [("bins", .arr (vec [0, 1/2, 1, 3/2, 2]))] = .ok d ∧
    convertTo (histPy histEv) exEns none [("bins", .arr (vec [0, 1/2, 1, 3/2, 2]))] = .ok d' ∧
    ∃ p p', tableRow d.frozen 1 "pdfs" = nums p ∧ tableRow d'.frozen 0 "pdfs" = nums p' ∧ Dominance.Left (histCdf [0, 1/2, 1, 3/2, 2] p) (histCdf [0, 1/2, 1, 3/2, 2] p') := by
  obtain ⟨d, d', h1, h2, h3⟩ := C136_order histEv histEv exEns exEns [0, 1/2, 1, 3/2, 2] (by decide) (by decide +kernel) uniformHalf exCdf exCdf (by decide) (by decide) exAnswers exAnswers
    exCdf_mono exCdf_mono 0 2 rfl rfl (by intro i; unfold exCdf; split <;> decide +kernel) (by intro i; unfold exCdf; split <;> decide +kernel)
  obtain ⟨p, p', h4, h5, h6, -⟩ := h3 1 0 (by decide) (by decide) (by decide +kernel)
  exact ⟨d, d', h1, h2, p, p', h4, h5, h6⟩

end Verif.Props.Rebin
