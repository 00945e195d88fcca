import Verif.Model.Convert
import Verif.Lemmas.Reach
import Verif.Props.Hist
import Verif.Props.InterpPdf
import Verif.Props.Evaluation
import Verif.Props.ExEns

/-!
# C56 Conversion entry points agree, C57 Conversion to a histogram, C58 Conversion on the same grid
-/

set_option linter.unusedSectionVars false
set_option autoImplicit false

namespace Verif.Props.Convert

open Verif Verif.Np Verif.Model Verif.Spec Verif.Lemmas Verif.Props.ExEns Verif.Props.Bins Verif.Props.Hist

/-! ## C56 -/

section
variable {K : Type}

/-- **C56.** A name that is not registered is a `KeyError`, for every ensemble, method and keywords. -/
theorem C56_unknown_class (r : ClsReg K) (e : Ens K) (name : String) (method : Option String) (kwds : Dict K)
    (h : ∀ c, (name, c) ∉ r) : convert r e name method kwds = .error .KeyError := by
  have : r.lookup name = none := by
    rw [List.lookup_eq_none_iff]
    intro p hp
    rw [bne_iff_ne]
    rintro rfl
    exact h p.2 hp
  simp [convert, this]

/-- **C56.** A class without the extraction method is a `KeyError` on both ways. -/
theorem C56_no_extraction (r : ClsReg K) (c : PyCls K) (e : Ens K) (name : String) (method : Option String) (kwds : Dict K)
    (hc : r.lookup name = some c) (hx : c.extraction.get method = none) :
    convert r e name method kwds = .error .KeyError ∧ convertTo c e method kwds = .error .KeyError := by
  constructor
  · simp [convert, hc, hx]
  · unfold convertTo
    cases c.creation.get method <;> simp [hx]

/-- **C56, exact.** For a registered class the two ways agree (same ensemble or same error) if and only if the class has a creation method
for the requested method, or has no extraction method, or its extraction raises `KeyError` anyway. -/
theorem C56_agree_iff (r : ClsReg K) (c : PyCls K) (e : Ens K) (name : String) (method : Option String) (kwds : Dict K)
    (hc : r.lookup name = some c) :
    convert r e name method kwds = convertTo c e method kwds ↔
      c.creation.get method ≠ none ∨ c.extraction.get method = none ∨
        ∃ x, c.extraction.get method = some x ∧ x e kwds = .error .KeyError := by
  unfold convert convertTo factoryCreate
  simp only [hc]
  cases hx : c.extraction.get method with
  | none => cases c.creation.get method <;> simp
  | some x =>
    cases hg : c.creation.get method with
    | none =>
      cases hd : x e kwds with
      | error err => simp [Bind.bind, Except.bind, hd]
      | ok d => simp [Bind.bind, Except.bind, hd]
    | some g => simp

/-- **C56 (partial).** The two ways agree for every class that has a creation method for the request, as all classes of qp do (they
register a default one). Without that they differ: `C56_no_creation_differs`. -/
theorem C56_agree_partial (r : ClsReg K) (c : PyCls K) (e : Ens K) (name : String) (method : Option String) (kwds : Dict K)
    (hc : r.lookup name = some c) (hg : ∃ g, (none, g) ∈ c.creation) :
    convert r e name method kwds = convertTo c e method kwds := by
  rw [C56_agree_iff r c e name method kwds hc]
  left
  obtain ⟨g, hg⟩ := hg
  have : (c.creation.lookup none).isSome := by
    rw [Option.isSome_iff_ne_none, ne_eq, List.lookup_eq_none_iff]
    push Not
    exact ⟨_, hg, by simp⟩
  unfold Methods.get
  split
  · next h => exact Option.isSome_iff_ne_none.1 h
  · exact Option.isSome_iff_ne_none.1 this

/-- **C56.** A converted ensemble never has ancillary data, whatever the original had. -/
theorem C56_no_ancil (c : PyCls K) (e e' : Ens K) (method : Option String) (kwds : Dict K) (h : convertTo c e method kwds = .ok e') :
    e'.ancil = none := by
  unfold convertTo at h
  cases hg : c.creation.get method with
  | none => simp [hg] at h
  | some g =>
    cases hx : c.extraction.get method with
    | none => simp [hg, hx] at h
    | some x =>
      simp only [hg, hx] at h
      obtain ⟨d, -, h⟩ := bind_ok h
      unfold mkEns at h
      obtain ⟨fr, -, h⟩ := bind_ok h
      obtain ⟨_, -, h⟩ := bind_ok h
      rw [← Except.ok.inj h]

end

section
variable {K : Type} [Field K] [LinearOrder K] [IsStrictOrderedRing K]

/-- What the evaluation methods return for a 1-D list of points: the shape of the ensemble followed by the number of points. -/
structure Shaped (ev : Evals K) : Prop where
  pdf : ∀ fr v m a, v.toArr.shape = [m] → ev.pdf fr v = .ok a → a.shape = fr.shape ++ [m]
  cdf : ∀ fr v m a, v.toArr.shape = [m] → ev.cdf fr v = .ok a → a.shape = fr.shape ++ [m]
  ppf : ∀ fr v m a, v.toArr.shape = [m] → ev.ppf fr v = .ok a → a.shape = fr.shape ++ [m]

theorem ensArr_shape (f : Dict K → (String → List (Elem K)) → K → Elem K) (fr : Frozen K) (v : Val K) (m : ℕ) (a : Arr (Elem K))
    (hs : v.toArr.shape = [m]) (h : ensArr f fr v = .ok a) : a.shape = fr.shape ++ [m] := by
  unfold ensArr at h
  rw [hs] at h
  cases hf : finites v.toArr.data with
  | none => simp [hf] at h
  | some x =>
    simp only [hf] at h
    obtain ⟨rows, -, h⟩ := bind_ok h
    rw [← Except.ok.inj h]

/-- the evaluation of the row classes is of this kind -/
theorem shaped_rows (f g h : Dict K → (String → List (Elem K)) → K → Elem K) : Shaped ⟨ensArr f, ensArr g, ensArr h⟩ where
  pdf := fun fr v m a => ensArr_shape f fr v m a
  cdf := fun fr v m a => ensArr_shape g fr v m a
  ppf := fun fr v m a => ensArr_shape h fr v m a

theorem get_single {α : Type} (f : α) (method : Option String) : Methods.get [(none, f)] method = some f := by
  cases method <;> simp [Methods.get, List.lookup]

theorem create_lead {c : RowCls K} {data : Dict K} {fr : Frozen K} {k : String} {ks : List String} (hk : c.rowArgs = k :: ks) {a : Arr (Elem K)}
    (ha : Dict.get? data k = some (.arr a)) (h : rowCreate c data = .ok fr) : fr.shape = a.shape.dropLast ∧ fr.npdf = a.shape.dropLast.prod := by
  obtain ⟨m, rs, mo, ws, out, -, hrs, -, -, -, -, -, rfl⟩ := rowCreate_inv h
  rw [hk, mapM_ok_iff] at hrs
  cases hrs with
  | cons h1 _ =>
    unfold rowArr at h1
    rw [ha] at h1
    simp only at h1
    split_ifs at h1
    obtain rfl := Except.ok.inj h1
    exact ⟨rfl, rfl⟩

/-- **C56.** The converted ensemble has the PDFs of the original, in the same arrangement: for the classes hist, interp,
interp_irregular, quant and packed_interp, every ensemble (whose number of PDFs is the product of its shape), every method name and
all keywords with a 1-D grid. -/
theorem C56_npdf (ev : Evals K) (hev : Shaped ev) (pack : Val K → List (Elem K) → Except Err (List (Elem K) × Elem K))
    (c : PyCls K) (key : String)
    (hc : (c, key) ∈ [(histPy ev, "bins"), (interpPy ev, "xvals"), (irrPy ev, "xvals"), (quantPy ev, "quants"), (packedPy pack ev, "xvals")])
    (e e' : Ens K) (he : e.frozen.npdf = e.frozen.shape.prod) (method : Option String) (kwds : Dict K) (v : Val K) (m : ℕ)
    (hk : Dict.get? kwds key = some v) (hv : v.toArr.shape = [m]) (h : convertTo c e method kwds = .ok e') :
    e'.frozen.npdf = e.frozen.npdf ∧ e'.frozen.shape = e.frozen.shape := by
  have hdrop : (e.frozen.shape ++ [m]).dropLast = e.frozen.shape := by simp
  simp only [List.mem_cons, Prod.mk.injEq, List.not_mem_nil, or_false] at hc
  rcases hc with ⟨rfl, rfl⟩ | ⟨rfl, rfl⟩ | ⟨rfl, rfl⟩ | ⟨rfl, rfl⟩ | ⟨rfl, rfl⟩
  · simp only [convertTo, histPy, get_single] at h
    obtain ⟨d, hd, h⟩ := bind_ok h
    obtain ⟨fr, hfr, -, rfl⟩ := mkEns_inv h
    simp only [extractHistValues, needKwd, hk] at hd
    obtain ⟨b, hb, hd⟩ := bind_ok hd
    obtain rfl := Except.ok.inj hb
    obtain ⟨cc, hcc, hd⟩ := bind_ok hd
    have hs := hev.cdf _ _ _ _ hv hcc
    cases v with
    | py _ => simp at hd
    | lst _ => simp at hd
    | arr ba =>
      simp only at hd
      cases h1 : finites ba.data with
      | none => simp [h1] at hd
      | some bs =>
        cases h2 : finites cc.data with
        | none => simp [h1, h2] at hd
        | some cs =>
          simp only [h1, h2] at hd
          obtain ⟨p, hp, hd⟩ := bind_ok hd
          obtain rfl := Except.ok.inj hd
          have hps : p.shape.dropLast = e.frozen.shape := by
            unfold histogramize at hp
            obtain ⟨c2, hc2, hp⟩ := bind_ok hp
            split_ifs at hp
            unfold reshapeToPdfShape at hp
            split_ifs at hp
            unfold Arr.reshape at hp
            split_ifs at hp
            rw [← Except.ok.inj hp]
            simp
          have := create_lead (c := histCls) (k := "pdfs") (ks := []) rfl (a := ⟨p.shape, nums p.data⟩) (by simp [get?_cons]) hfr
          simp only [hps] at this
          exact ⟨by rw [this.2, he], this.1⟩
  · simp only [convertTo, interpPy, get_single] at h
    obtain ⟨d, hd, h⟩ := bind_ok h
    obtain ⟨fr, hfr, -, rfl⟩ := mkEns_inv h
    simp only [extractValsAtX, needKwd, hk] at hd
    obtain ⟨b, hb, hd⟩ := bind_ok hd
    obtain rfl := Except.ok.inj hb
    obtain ⟨y, hy, hd⟩ := bind_ok hd
    have hs := hev.pdf _ _ _ _ hv hy
    obtain rfl := Except.ok.inj hd
    have := create_lead (c := interpCls) (k := "yvals") (ks := []) rfl (a := y) (by simp [get?_cons]) hfr
    rw [hs, hdrop] at this
    exact ⟨by rw [this.2, he], this.1⟩
  · simp only [convertTo, irrPy, get_single] at h
    obtain ⟨d, hd, h⟩ := bind_ok h
    obtain ⟨fr, hfr, -, rfl⟩ := mkEns_inv h
    simp only [extractXyVals, needKwd, hk] at hd
    obtain ⟨b, hb, hd⟩ := bind_ok hd
    obtain rfl := Except.ok.inj hb
    obtain ⟨y, hy, hd⟩ := bind_ok hd
    have hs := hev.pdf _ _ _ _ hv hy
    obtain ⟨x, hx, hd⟩ := bind_ok hd
    obtain rfl := Except.ok.inj hd
    have hxs : x.shape = y.shape := by
      unfold expandX at hx
      split_ifs at hx
      rw [← Except.ok.inj hx]
    have := create_lead (c := irrCls) (k := "xvals") (ks := ["yvals"]) rfl (a := x) (by simp [get?_cons]) hfr
    rw [hxs, hs, hdrop] at this
    exact ⟨by rw [this.2, he], this.1⟩
  · simp only [convertTo, quantPy, get_single] at h
    obtain ⟨d, hd, h⟩ := bind_ok h
    obtain ⟨fr, hfr, -, rfl⟩ := mkEns_inv h
    simp only [extractQuantiles, needKwd, hk] at hd
    obtain ⟨b, hb, hd⟩ := bind_ok hd
    obtain rfl := Except.ok.inj hb
    obtain ⟨y, hy, hd⟩ := bind_ok hd
    have hs := hev.ppf _ _ _ _ hv hy
    obtain rfl := Except.ok.inj hd
    have := create_lead (c := quantCls) (k := "locs") (ks := []) rfl (a := y) (by simp [get?_cons]) hfr
    rw [hs, hdrop] at this
    exact ⟨by rw [this.2, he], this.1⟩
  · simp only [convertTo, packedPy, get_single] at h
    obtain ⟨d, hd, h⟩ := bind_ok h
    obtain ⟨fr, hfr, -, rfl⟩ := mkEns_inv h
    simp only [extractPacked, hk] at hd
    cases hp : Dict.get? kwds "packing_type" with
    | none => simp [hp] at hd
    | some p =>
      simp only [hp] at hd
      obtain ⟨y, hy, hd⟩ := bind_ok hd
      have hs := hev.pdf _ _ _ _ hv hy
      cases hys : y.shape with
      | nil => simp [hys] at hd
      | cons n t =>
        cases t with
        | nil => simp [hys] at hd
        | cons m' t' =>
          cases t' with
          | cons _ _ => simp [hys] at hd
          | nil =>
            simp only [hys] at hd
            obtain ⟨rows, -, hd⟩ := bind_ok hd
            obtain rfl := Except.ok.inj hd
            have := create_lead (c := packedCls) (k := "ypacked") (ks := ["ymax"]) rfl (a := ⟨[n, m'], (rows.map (·.1)).flatten⟩)
              (by simp [get?_cons]) hfr
            rw [hys] at hs
            simp only [hs, hdrop] at this
            exact ⟨by rw [this.2, he], this.1⟩

/-- a class that can extract data but not create from them -/
def noCreate : PyCls ℚ := ⟨"half", rowCreate histCls, [], [(none, fun _ _ => .ok [])]⟩

/-- **C56 is violated** for a class without a creation method: `convert` raises `TypeError`, `convert_to` raises `KeyError`. -/
theorem C56_no_creation_differs : ∃ (r : ClsReg ℚ) (c : PyCls ℚ) (e : Ens ℚ), r.lookup "half" = some c ∧
    convert r e "half" none [] = .error .TypeError ∧ convertTo c e none [] = .error .KeyError :=
  ⟨[("half", noCreate)], noCreate, histEns none, rfl, rfl, rfl⟩

/-! ## C57 -/

/-- mass up to an edge is the mass of the bins to its left -/
theorem massUpTo_edge (e : List K) : ∀ (a : K) (p : List K) (j : ℕ) (x : K), (a :: e).Pairwise (· < ·) → (a :: e)[j]? = some x →
    massUpTo (a :: e) p x = totalMass ((a :: e).take (j + 1)) p := by
  induction e with
  | nil =>
    intro a p j x _ hx
    cases p <;> simp [massUpTo, totalMass]
  | cons b e ih =>
    intro a p j x hs hx
    cases j with
    | zero =>
      have : a = x := by simpa using hx
      subst this
      rw [Lemmas.Hist.massUpTo_left _ _ _ _ hs le_rfl]
      cases p <;> simp [totalMass]
    | succ j =>
      have hs' := List.pairwise_cons.1 hs
      have hx' : (b :: e)[j]? = some x := by simpa using hx
      cases p with
      | nil => simp [massUpTo, totalMass]
      | cons q p =>
        have hbx : b ≤ x := by
          rcases List.mem_cons.1 (List.mem_of_getElem? hx') with rfl | h
          · exact le_rfl
          · exact ((List.pairwise_cons.1 hs'.2).1 x h).le
        have hab := hs'.1 b (by simp)
        have h1 := ih b p j x hs'.2 hx'
        simp only [List.take_succ_cons] at h1 ⊢
        simp only [massUpTo, totalMass]
        rw [h1, min_eq_right hbx, max_eq_right (by linarith)]

/-- the mass of one more bin -/
theorem totalMass_take_succ (e : List K) : ∀ (p : List K) (j : ℕ) (u v m : K), e[j]? = some u → e[j + 1]? = some v → p[j]? = some m →
    totalMass (e.take (j + 2)) p = totalMass (e.take (j + 1)) p + m * (v - u) := by
  induction e with
  | nil => intro p j u v m h; simp at h
  | cons a e ih =>
    intro p j u v m hu hv hm
    cases p with
    | nil => simp at hm
    | cons q p =>
      cases e with
      | nil => simp at hv
      | cons b e =>
        cases j with
        | zero =>
          simp at hu hv hm
          subst hu hv hm
          simp [totalMass]
        | succ j =>
          have := ih p j u v m (by simpa using hu) (by simpa using hv) (by simpa using hm)
          simp only [List.take_succ_cons] at this ⊢
          simp only [totalMass]
          rw [this]; ring

theorem diff_getElem? (l : List K) : ∀ (i : ℕ) (m : K), (Np.diff l)[i]? = some m ↔ ∃ u v, l[i]? = some u ∧ l[i + 1]? = some v ∧ m = v - u := by
  induction l with
  | nil => intro i m; simp [Np.diff]
  | cons a l ih =>
    intro i m
    cases l with
    | nil => simp [Np.diff]
    | cons b l =>
      cases i with
      | zero => simp only [Np.diff]; simp [eq_comm]
      | succ i => simp only [Np.diff, List.getElem?_cons_succ]; exact ih i m

theorem length_diff (l : List K) : (Np.diff l).length = l.length - 1 := by
  induction l with
  | nil => rfl
  | cons a l ih =>
    cases l with
    | nil => rfl
    | cons b l => simp only [Np.diff, List.length_cons]; simp only [List.length_cons] at ih; omega

/-- total probability of the bins -/
theorem sum_diff (l : List K) : ∀ (a b : K), l.head? = some a → l.getLast? = some b → Np.sum (Np.diff l) = b - a := by
  induction l with
  | nil => intro a b h; simp at h
  | cons x l ih =>
    intro a b ha hb
    cases l with
    | nil =>
      simp at ha hb
      simp [Np.diff, Np.sum, ← ha, ← hb]
    | cons y l =>
      have := ih y b rfl (by simpa using hb)
      simp at ha
      simp only [Np.diff]
      show (y - x) + Np.sum (Np.diff (y :: l)) = _
      rw [this, ← ha]; ring

/-- What conversion makes of one CDF: the bin probabilities are handed to the constructor as if they were densities. -/
def converted (edges : List K) (F : K → K) : Option (List K) := histNormRow edges (Np.diff (edges.map F))

/-- the mean bin width, weighted with the probabilities -/
def meanWidth (edges : List K) (F : K → K) : K := totalMass edges (Np.diff (edges.map F))

/-- **C57, exact.** For every CDF `F` (indeed any function), the converted histogram has the same probability in every bin if
and only if every bin with non-zero probability has the mean width. -/
theorem C57_exact (edges p : List K) (F : K → K) (h2 : 2 ≤ edges.length) (hs : edges.Pairwise (· < ·))
    (hp : converted edges F = some p) :
    (∀ (i : ℕ) u v, edges[i]? = some u → edges[i + 1]? = some v →
      ∃ cu cv, histCdf edges p u = some cu ∧ histCdf edges p v = some cv ∧ cv - cu = F v - F u) ↔
    ∀ (i : ℕ) u v, edges[i]? = some u → edges[i + 1]? = some v → F v - F u ≠ 0 → v - u = meanWidth edges F := by
  have hd : (Np.diff (edges.map F)).length = edges.length - 1 := by rw [length_diff, List.length_map]
  have h0 : meanWidth edges F ≠ 0 := by
    intro h
    rw [converted, (C07_row_normalised _ _).1 h] at hp
    simp at hp
  obtain ⟨p', hp', h1, hpe, -⟩ := (C07_row_normalised edges (Np.diff (edges.map F))).2 h0
  obtain rfl : p' = p := Option.some.inj (hp'.symm.trans hp)
  have hg : Grid edges p'.length := ⟨hs, by rw [hpe, List.length_map, hd]; omega, by rw [hpe, List.length_map, hd]; omega⟩
  have key : ∀ (i : ℕ) u v, edges[i]? = some u → edges[i + 1]? = some v →
      massUpTo edges p' v - massUpTo edges p' u = (F v - F u) / meanWidth edges F * (v - u) := by
    intro i u v hu hv
    match edges, h2, hs with
    | a :: e, _, hs =>
      rw [massUpTo_edge e a p' i u hs hu, massUpTo_edge e a p' (i + 1) v hs hv]
      rw [totalMass_take_succ (a :: e) p' i u v ((F v - F u) / meanWidth (a :: e) F) hu hv]
      · ring
      · rw [hpe, List.getElem?_map]
        have : (Np.diff ((a :: e).map F))[i]? = some (F v - F u) :=
          (diff_getElem? _ i _).2 ⟨F u, F v, by rw [List.getElem?_map, hu]; rfl, by rw [List.getElem?_map, hv]; rfl, rfl⟩
        rw [this]
        rfl
  constructor
  · intro h i u v hu hv hne
    obtain ⟨cu, cv, h3, h4, h5⟩ := h i u v hu hv
    rw [C08_cdf_is_mass edges p' hg h1] at h3 h4
    rw [← Option.some.inj h3, ← Option.some.inj h4, key i u v hu hv] at h5
    field_simp at h5
    exact h5
  · intro h i u v hu hv
    refine ⟨_, _, C08_cdf_is_mass edges p' hg h1 u, C08_cdf_is_mass edges p' hg h1 v, ?_⟩
    rw [key i u v hu hv]
    by_cases hz : F v - F u = 0
    · rw [hz]; simp
    · rw [h i u v hu hv hz, div_mul_cancel₀ _ h0]

theorem meanWidth_uniform (edges : List K) (w : K) (hw : ∀ (i : ℕ) a b, edges[i]? = some a → edges[i + 1]? = some b → b - a = w)
    (row : List K) (hl : row.length = edges.length - 1) : totalMass edges row = w * Np.sum row := by
  induction edges generalizing row with
  | nil => simp at hl; subst hl; simp [totalMass, Np.sum]
  | cons a e ih =>
    cases e with
    | nil => simp at hl; subst hl; simp [totalMass, Np.sum]
    | cons b e =>
      cases row with
      | nil => simp at hl
      | cons q row =>
        simp only [totalMass]
        rw [ih (fun i u v hu hv => hw (i + 1) u v (by simpa using hu) (by simpa using hv)) row (by simpa using hl), hw 0 a b rfl rfl]
        show _ = w * (q + Np.sum row)
        ring

/-- **C57 (partial).** Equal bins: for every CDF with all its mass inside, the CDF of the converted histogram agrees with the original
at every bin edge. Bins of different width give wrong masses: `C57_unequal_bins_wrong`, exactly when is said by `C57_exact`. -/
theorem C57_equal_bins_partial (edges : List K) (F : K → K) (h2 : 2 ≤ edges.length) (hs : edges.Pairwise (· < ·)) (hu : Uniform edges)
    (hF0 : ∀ a, edges.head? = some a → F a = 0) (hF1 : ∀ b, edges.getLast? = some b → F b = 1) :
    ∃ p, converted edges F = some p ∧ ∀ x ∈ edges, histCdf edges p x = some (F x) := by
  obtain ⟨w, hw⟩ := hu
  have hd : (Np.diff (edges.map F)).length = edges.length - 1 := by rw [length_diff, List.length_map]
  have hsum : Np.sum (Np.diff (edges.map F)) = 1 := by
    match edges, h2 with
    | a :: e, _ =>
      have := sum_diff ((a :: e).map F) (F a) (F ((a :: e).getLast (by simp))) rfl
        (by rw [List.getLast?_map, List.getLast?_eq_some_getLast (by simp)]; rfl)
      rw [this, hF0 a rfl, hF1 _ (List.getLast?_eq_some_getLast (by simp))]
      ring
  have hmean : meanWidth edges F = w := by
    unfold meanWidth
    rw [meanWidth_uniform edges w hw _ hd, hsum, mul_one]
  have hwpos : w ≠ 0 := by
    match edges, h2, hs with
    | a :: b :: e, _, hs =>
      have := hw 0 a b rfl rfl
      have := (List.pairwise_cons.1 hs).1 b (by simp)
      intro h
      linarith
  obtain ⟨p, hp, h1, hpe, -⟩ := (C07_row_normalised edges (Np.diff (edges.map F))).2 (by rw [← meanWidth, hmean]; exact hwpos)
  refine ⟨p, hp, ?_⟩
  have hg : Grid edges p.length := ⟨hs, by rw [hpe, List.length_map, hd]; omega, by rw [hpe, List.length_map, hd]; omega⟩
  have ex := (C57_exact edges p F h2 hs hp).2 (fun i u v hu hv _ => by rw [hmean]; exact hw i u v hu hv)
  intro x hx
  obtain ⟨i, hi⟩ := List.mem_iff_getElem?.1 hx
  induction i generalizing x with
  | zero =>
    match edges, h2 with
    | a :: e, _ =>
      have : a = x := by simpa using hi
      subst this
      rw [C08_cdf_is_mass _ p hg h1, Lemmas.Hist.massUpTo_left e a p a hs le_rfl, hF0 a rfl]
  | succ i ih =>
    have hlt := (List.getElem?_eq_some_iff.1 hi).1
    have hu : edges[i]? = some edges[i] := List.getElem?_eq_getElem (by omega)
    have h3 := ih edges[i] (List.getElem_mem _) hu
    obtain ⟨cu, cv, h4, h5, h6⟩ := ex i _ x hu hi
    rw [h3] at h4
    rw [h5]
    have := Option.some.inj h4
    congr 1
    linarith

/-- **C57 is violated** for bins of different width: the uniform distribution on [0, 3] has probability 1/3 in the bin [0, 1], its
conversion to a histogram with edges 0, 1, 3 has 1/5. -/
theorem C57_unequal_bins_wrong : ∃ (edges : List ℚ) (F : ℚ → ℚ) (p : List ℚ), edges.Pairwise (· < ·) ∧ edges = [0, 1, 3] ∧
    (∀ x, F x = max 0 (min 1 (x / 3))) ∧ converted edges F = some p ∧ F 1 - F 0 = 1 / 3 ∧ histCdf edges p 0 = some 0 ∧
    histCdf edges p 1 = some (1 / 5) :=
  ⟨[0, 1, 3], fun x => max 0 (min 1 (x / 3)), [1 / 5, 2 / 5], by decide +kernel, rfl, fun _ => rfl, by decide +kernel, by decide +kernel,
    by decide +kernel, by decide +kernel⟩

/-- equal bins: the uniform distribution on [0, 3] -/
example : ∃ p, converted ([0, 1, 2, 3] : List ℚ) (fun x => max 0 (min 1 (x / 3))) = some p ∧
    ∀ x ∈ ([0, 1, 2, 3] : List ℚ), histCdf [0, 1, 2, 3] p x = some (max 0 (min 1 (x / 3))) := by
  refine C57_equal_bins_partial _ _ (by decide) (by decide +kernel) ⟨1, ?_⟩ ?_ ?_
  · intro i a b ha hb
    match i with
    | 0 | 1 | 2 => simp at ha hb; subst ha hb; norm_num
    | i + 3 => simp at hb
  · rintro a ⟨⟩; decide +kernel
  · rintro b ⟨⟩; decide +kernel

/-! ## C58: conversion to irregular grids -/

theorem flatten_replicate_get {α : Type} (l : List α) : ∀ (n i j : ℕ), i < n → j < l.length → ((List.replicate n l).flatten)[i * l.length + j]? = l[j]? := by
  intro n
  induction n with
  | zero => intro i j h; omega
  | succ n ih =>
    intro i j hi hj
    rw [List.replicate_succ, List.flatten_cons]
    cases i with
    | zero => rw [Nat.zero_mul, Nat.zero_add, List.getElem?_append_left hj]
    | succ i =>
      rw [List.getElem?_append_right (by rw [Nat.succ_mul]; omega), show (i + 1) * l.length + j - l.length = i * l.length + j by rw [Nat.succ_mul]; omega]
      exact ih i j (by omega) hj

/-- **C58, irregular grids**: converting to an irregularly interpolated ensemble stores, for every PDF, the requested abscissae in their order, beside the
densities of the input there. -/
theorem C58_irregular_grid (ev : Evals K) (e : Ens K) (kwds : Dict K) (xs : List (Elem K)) (y : Arr (Elem K)) (d : Dict K)
    (hk : Dict.get? kwds "xvals" = some (.arr ⟨[xs.length], xs⟩)) (hy : ev.pdf e.frozen (.arr ⟨[xs.length], xs⟩) = .ok y)
    (h : extractXyVals ev e kwds = .ok d) :
    Dict.get? d "yvals" = some (.arr y) ∧ ∃ x, Dict.get? d "xvals" = some (.arr x) ∧ x.shape = y.shape ∧
      ∀ (i j : ℕ), i < y.shape.dropLast.prod → j < xs.length → x.data[i * xs.length + j]? = xs[j]? := by
  simp only [extractXyVals, needKwd, hk] at h
  obtain ⟨b, hb, h⟩ := bind_ok h
  obtain rfl := Except.ok.inj hb
  rw [hy] at h
  obtain ⟨y', hy', h⟩ := bind_ok h
  obtain rfl := Except.ok.inj hy'
  obtain ⟨x, hx, h⟩ := bind_ok h
  obtain rfl := Except.ok.inj h
  refine ⟨by simp [Dict.get?], x, by simp [Dict.get?], ?_⟩
  unfold expandX at hx
  split_ifs at hx
  obtain rfl := Except.ok.inj hx
  exact ⟨rfl, fun i j hi hj => flatten_replicate_get xs _ i j hi hj⟩

end

end Verif.Props.Convert
