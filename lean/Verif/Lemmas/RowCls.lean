import Verif.Model.Ensemble
import Verif.Lemmas.Dict

/-!
# Row classes: rebuilding an object from what it stores

`Fixed c mo ws out` says that metadata `mo` and per-PDF tables `out` (widths `ws`) are what the constructor of `c` makes of
themselves. `rebuild` is then the fact behind slicing, appending and re-reading.
-/

set_option linter.unusedSectionVars false
set_option autoImplicit false

namespace Verif.Lemmas

open Verif Verif.Np Verif.Model

variable {K : Type} [IntCast K]

/-- metadata as keyword arguments -/
def metaDict (mo : List (String × Arr (Elem K))) : Dict K := mo.map fun p => (p.1, .arr p.2)

/-- the names of the constructor arguments are distinct, there is a row argument, and none is called `pdf_name`/`pdf_version` -/
structure Names (c : RowCls K) : Prop where
  nd : (c.metaArgs.map (·.1) ++ c.rowArgs).Nodup
  name : "pdf_name" ∉ c.metaArgs.map (·.1) ++ c.rowArgs
  version : "pdf_version" ∉ c.metaArgs.map (·.1) ++ c.rowArgs
  rne : c.rowArgs ≠ []

/-- the metadata and the tables are reproduced by the constructor -/
structure Fixed (c : RowCls K) (mo : List (String × Arr (Elem K))) (ws : List ℕ) (out : List (List (List (Elem K)))) : Prop where
  names : Names c
  mok : ∀ p ∈ mo, p.1 ∈ c.metaArgs.map (·.1)
  mnd : (mo.map (·.1)).Nodup
  sq : ∀ p ∈ mo, p.2.expand0.squeeze = p.2
  wl : ws.length = c.rowArgs.length
  fix : ∃ m', c.metaArgs.mapM (argVal (metaDict mo)) = .ok m' ∧ c.metaOut m' = .ok mo ∧ c.widths m' ws = .ok ws ∧
    ∀ r ∈ out, c.norm m' r = .ok r
  len : ∀ r ∈ out, r.map List.length = ws

/-- the frozen object made of metadata `mo` and tables `out` -/
def frozenOf (c : RowCls K) (mo : List (String × Arr (Elem K))) (ws : List ℕ) (out : List (List (List (Elem K))))
    (shape : List ℕ) : Frozen K :=
  { metadata := classMeta c.name c.version ++ mo.map fun p => (p.1, .arr p.2.expand0)
    objdata := storeRows c.rowArgs ws out
    npdf := out.length
    shape := shape }

/-- column `j` of the tables -/
def tab (out : List (List (List (Elem K)))) (w j : ℕ) : Arr (Elem K) := .ofRows [w] (out.map fun r => r.getD j [])

theorem storeRows_eq (names : List String) (ws : List ℕ) (out : List (List (List (Elem K)))) :
    storeRows names ws out = (names.zip ws).zipIdx.map fun p => (p.1.1, .arr (tab out p.1.2 p.2)) := rfl

theorem keys_storeRows (names : List String) (ws : List ℕ) (out : List (List (List (Elem K))))
    (h : ws.length = names.length) : Dict.keys (storeRows names ws out) = names := by
  apply List.ext_getElem
  · simp [Dict.keys, storeRows, h]
  · intro i h1 h2
    simp [Dict.keys, storeRows]

theorem get?_storeRows (names : List String) (ws : List ℕ) (out : List (List (List (Elem K))))
    (h : ws.length = names.length) (hn : names.Nodup) (j : ℕ) (hj : j < names.length) :
    Dict.get? (storeRows names ws out) names[j] = some (.arr (tab out (ws[j]'(by omega)) j)) := by
  apply get?_of_mem
  · rw [keys_storeRows _ _ _ h]; exact hn
  · rw [storeRows_eq, List.mem_map]
    refine ⟨((names[j], ws[j]'(by omega)), j), ?_, rfl⟩
    rw [List.mem_iff_getElem]
    refine ⟨j, by simp [h, hj], by simp⟩

theorem tab_len {ws : List ℕ} {out : List (List (List (Elem K)))} (hlen : ∀ r ∈ out, r.map List.length = ws) (j : ℕ)
    (hj : j < ws.length) : ∀ x ∈ out.map (fun r => r.getD j []), x.length = ([ws[j]] : List ℕ).prod := by
  intro x hx
  obtain ⟨r, hr, rfl⟩ := List.mem_map.1 hx
  have hl := hlen r hr
  have hjr : j < r.length := by rw [← hl] at hj; simpa using hj
  rw [List.getD_eq_getElem?_getD, List.getElem?_eq_getElem hjr]
  simp only [Option.getD_some, List.prod_cons, List.prod_nil, mul_one]
  have : (r.map List.length)[j]'(by simpa using hjr) = ws[j] := by simp only [hl]
  simpa using this

theorem tab_wf {ws : List ℕ} {out : List (List (List (Elem K)))} (hlen : ∀ r ∈ out, r.map List.length = ws) (j : ℕ)
    (hj : j < ws.length) : (tab out ws[j] j).Wf := Arr.wf_ofRows _ _ (tab_len hlen j hj)

theorem tab_rows {ws : List ℕ} {out : List (List (List (Elem K)))} (hlen : ∀ r ∈ out, r.map List.length = ws) (j : ℕ)
    (hj : j < ws.length) : (tab out ws[j] j).rows = out.map fun r => r.getD j [] := Arr.rows_ofRows _ _ (tab_len hlen j hj)

theorem tab_row {ws : List ℕ} {out : List (List (List (Elem K)))} (hlen : ∀ r ∈ out, r.map List.length = ws) (j : ℕ)
    (hj : j < ws.length) (i : ℕ) (hi : i < out.length) : (tab out ws[j] j).row i = out[i].getD j [] := by
  have := Arr.row_ofRows [ws[j]] (out.map fun r => r.getD j []) (tab_len hlen j hj) i (by simpa using hi)
  rw [tab, this, List.getElem_map]

theorem tab_shape (out : List (List (List (Elem K)))) (w j : ℕ) : (tab out w j).shape = [out.length, w] := by
  simp [tab, Arr.ofRows]

theorem flat2_tab (out : List (List (List (Elem K)))) (w j : ℕ) : flat2 (tab out w j) = tab out w j := by
  have h := tab_shape out w j
  unfold flat2
  rw [h]
  generalize tab out w j = a at h ⊢
  obtain ⟨s, d⟩ := a
  simp only at h
  subst h
  simp

/-- the arrays handed to the constructor when it is rebuilt -/
def tabs (ws : List ℕ) (out : List (List (List (Elem K)))) : List (Arr (Elem K)) := ws.zipIdx.map fun p => tab out p.1 p.2

theorem tabs_length (ws : List ℕ) (out : List (List (List (Elem K)))) : (tabs ws out).length = ws.length := by simp [tabs]

theorem tabs_getElem (ws : List ℕ) (out : List (List (List (Elem K)))) (j : ℕ) (h : j < (tabs ws out).length) :
    (tabs ws out)[j] = tab out (ws[j]'(by simpa [tabs] using h)) j := by simp [tabs]

theorem rowArr_congr {d e : Dict K} (k : String) (h : Dict.get? d k = Dict.get? e k) : rowArr d k = rowArr e k := by
  unfold rowArr; rw [h]

theorem argVal_congr {d e : Dict K} (p : String × Option (Val K)) (h : Dict.get? d p.1 = Dict.get? e p.1) :
    argVal d p = argVal e p := by
  unfold argVal; rw [h]

theorem get?_metaDict_none (mo : List (String × Arr (Elem K))) (k : String) (h : k ∉ mo.map (·.1)) :
    Dict.get? (metaDict mo) k = none := by
  rw [get?_eq_none_iff]
  simpa [metaDict, Dict.keys, Function.comp_def] using h

theorem keys_metaDict (mo : List (String × Arr (Elem K))) : Dict.keys (metaDict mo) = mo.map (·.1) := by
  simp [metaDict, Dict.keys, Function.comp_def]

/-- **the second pass**: what the constructor does with metadata `mo` and tables `out` as they are stored -/
theorem reread {c : RowCls K} {mo : List (String × Arr (Elem K))} {ws : List ℕ} {out : List (List (List (Elem K)))}
    (names : Names c) (mok : ∀ p ∈ mo, p.1 ∈ c.metaArgs.map (·.1)) (wl : ws.length = c.rowArgs.length)
    (len : ∀ r ∈ out, r.map List.length = ws) {m' : Dict K} (hm' : c.metaArgs.mapM (argVal (metaDict mo)) = .ok m') (data : Dict K)
    (hd : ∀ k, Dict.get? data k = Dict.get? (metaDict mo ++ storeRows c.rowArgs ws out) k) :
    rowCreate c data = if c.needsRows = true ∧ out.length * ws.headD 0 = 0 then .error .ValueError
      else (do
        let mo' ← c.metaOut m'
        let ws' ← c.widths m' ws
        let out' ← out.mapM (c.norm m')
        .ok { metadata := classMeta c.name c.version ++ mo'.map fun p => (p.1, .arr p.2.expand0)
              objdata := storeRows c.rowArgs ws' out'
              npdf := out.length
              shape := [out.length] }) := by
  have hnd := List.nodup_append.1 names.nd
  have hkeys : data.keys.any (fun k => k ∉ c.metaArgs.map (·.1) ++ c.rowArgs) = false := by
    rw [List.any_eq_false]
    intro k hk
    simp only [decide_eq_true_eq, not_not]
    obtain ⟨v, hv⟩ := (get?_isSome_iff data k).2 hk
    rw [hd, get?_append] at hv
    have : k ∈ Dict.keys (metaDict mo) ∨ k ∈ Dict.keys (storeRows c.rowArgs ws out) := by
      by_contra hcon
      rw [not_or, ← get?_eq_none_iff, ← get?_eq_none_iff] at hcon
      rw [hcon.1, hcon.2] at hv
      simp at hv
    rw [keys_metaDict, keys_storeRows _ _ _ wl] at this
    rcases this with h | h
    · obtain ⟨p, hp, rfl⟩ := List.mem_map.1 h
      exact List.mem_append_left _ (mok p hp)
    · exact List.mem_append_right _ h
  have hmeta : c.metaArgs.mapM (argVal data) = .ok m' := by
    rw [← hm']
    apply mapM_congr
    intro p hp
    apply argVal_congr
    rw [hd, get?_append]
    have : Dict.get? (storeRows c.rowArgs ws out) p.1 = none := by
      rw [get?_eq_none_iff, keys_storeRows _ _ _ wl]
      intro hc
      exact hnd.2.2 p.1 (List.mem_map.2 ⟨p, hp, rfl⟩) p.1 hc rfl
    rw [this, Option.or_none]
  have hrows : c.rowArgs.mapM (rowArr data) = .ok (tabs ws out) := by
    rw [mapM_ok_iff, List.forall₂_iff_get]
    refine ⟨by rw [tabs_length, wl], ?_⟩
    intro j h1 h2
    simp only [List.get_eq_getElem]
    have hnone : Dict.get? (metaDict mo) c.rowArgs[j] = none := by
      apply get?_metaDict_none
      intro hc
      obtain ⟨p, hp, he⟩ := List.mem_map.1 hc
      exact hnd.2.2 p.1 (mok p hp) c.rowArgs[j] (List.getElem_mem h1) he
    have hget := get?_storeRows c.rowArgs ws out wl hnd.2.1 j h1
    unfold rowArr
    rw [hd, get?_append, hnone, Option.none_or, hget]
    simp only
    rw [if_neg (by rw [tab_shape]; simp), tabs_getElem]
  have hwne : ws ≠ [] := by
    intro e
    have := wl
    rw [e] at this
    exact names.rne (List.length_eq_zero_iff.1 this.symm)
  have hlead : ∀ a ∈ tabs ws out, a.shape.dropLast = [out.length] := by
    intro a ha
    obtain ⟨p, _, rfl⟩ := List.mem_map.1 ha
    rw [tab_shape]; rfl
  have hhead : ((tabs ws out).headD ⟨[], []⟩).shape.dropLast = [out.length] := by
    cases hts : tabs ws out with
    | nil => have := tabs_length ws out; rw [hts] at this; simp at this; exact absurd (List.length_eq_zero_iff.1 this.symm) hwne
    | cons a t =>
      simp only [List.headD_cons]
      exact hlead a (by rw [hts]; simp)
  have hlast : (tabs ws out).map (fun a => a.shape.getLastD 0) = ws := by
    apply List.ext_getElem
    · simp [tabs]
    · intro i h1 h2
      rw [List.getElem_map, tabs_getElem, tab_shape]
      simp
  have hpr : ∀ i (hi : i < out.length), pdfRows (tabs ws out) i = out[i] := by
    intro i hi
    have hl := len out[i] (List.getElem_mem hi)
    have hl' : out[i].length = ws.length := by rw [← hl]; simp
    apply List.ext_getElem
    · simp [pdfRows, tabs, hl']
    · intro j h1 h2
      simp only [pdfRows, List.getElem_map, tabs_getElem]
      rw [flat2_tab, tab_row len j (by omega) i hi, List.getD_eq_getElem?_getD, List.getElem?_eq_getElem h2]
      rfl
  have hout : (List.range ([out.length] : List ℕ).prod).mapM (fun i => c.norm m' (pdfRows (tabs ws out) i)) = out.mapM (c.norm m') := by
    simp only [List.prod_cons, List.prod_nil, mul_one]
    have e : out = (List.range out.length).map (pdfRows (tabs ws out)) := by
      apply List.ext_getElem
      · simp
      · intro i h1 h2
        simp only [List.getElem_map, List.getElem_range]
        exact (hpr i h1).symm
    conv_rhs => rw [e, List.mapM_map]
    rfl
  have hne : ((tabs ws out).headD ⟨[], []⟩).size = out.length * ws.headD 0 := by
    cases hw : ws with
    | nil => exact absurd hw hwne
    | cons w t => simp [tabs, Arr.size, tab_shape]
  unfold rowCreate
  rw [hkeys]
  simp only [Bool.false_eq_true, if_false, hmeta, hrows, Bind.bind, Except.bind, hhead]
  rw [if_neg, if_neg (show ¬(c.rank2 = true ∧ ([out.length] : List ℕ).length ≠ 1) by simp), hne]
  · simp only [hlast, hout]
    simp
  · simp only [List.any_eq_true, decide_eq_true_eq, not_exists, not_and, not_not]
    exact hlead

/-- **rebuilding**: the constructor, given the stored metadata and stored tables, makes the same object (flat shape); only the
classes that take `np.min` of an empty table raise. -/
theorem rebuild {c : RowCls K} {mo : List (String × Arr (Elem K))} {ws : List ℕ} {out : List (List (List (Elem K)))}
    (hf : Fixed c mo ws out) (data : Dict K)
    (hd : ∀ k, Dict.get? data k = Dict.get? (metaDict mo ++ storeRows c.rowArgs ws out) k) :
    rowCreate c data = if c.needsRows = true ∧ out.length * ws.headD 0 = 0 then .error .ValueError
      else .ok (frozenOf c mo ws out [out.length]) := by
  obtain ⟨m', hm', hmo, hws, hnorm⟩ := hf.fix
  have hout : out.mapM (c.norm m') = .ok out := by
    rw [mapM_ok_iff, List.forall₂_iff_get]
    exact ⟨rfl, fun i h1 _ => hnorm _ (List.getElem_mem h1)⟩
  rw [reread hf.names hf.mok hf.wl hf.len hm' data hd, hmo, hws, hout]
  rfl

theorem rebuild_ok {c : RowCls K} {mo : List (String × Arr (Elem K))} {ws : List ℕ} {out : List (List (List (Elem K)))}
    (hf : Fixed c mo ws out) (hne : c.needsRows = true → out.length * ws.headD 0 ≠ 0) (data : Dict K)
    (hd : ∀ k, Dict.get? data k = Dict.get? (metaDict mo ++ storeRows c.rowArgs ws out) k) :
    rowCreate c data = .ok (frozenOf c mo ws out [out.length]) := by
  rw [rebuild hf data hd, if_neg]
  rintro ⟨h1, h2⟩
  exact hne h1 h2

end Verif.Lemmas
