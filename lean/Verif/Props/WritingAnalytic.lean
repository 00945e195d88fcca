import Verif.Props.Writing
import Verif.Props.Stack

/-!
# Chunks of ensembles of analytic classes: reading (C48), writing (C50)

The classes that qp takes over from scipy store their parameters as they are given; qp recommends one row per PDF, arrays of shape
`(n, 1)`.
-/

set_option linter.unusedSectionVars false
set_option autoImplicit false

namespace Verif.Props.WritingAnalytic

open Verif Verif.Np Verif.Model Verif.Spec Verif.Lemmas Verif.Props.State Verif.Props.ExEns Verif.Props.Chunks Verif.Props.Writing
  Verif.Props.Select Verif.Props.Stack

section
variable {K : Type} [Field K] [LinearOrder K] [IsStrictOrderedRing K]

/-- parameters as `(n, 1)` arrays: one or more, each named once, none with the name of a metadata entry -/
structure Params (data : Dict K) (n : ℕ) : Prop where
  ne : data ≠ []
  nodup : (Dict.keys data).Nodup
  cols : ∀ p ∈ data, ∃ c : Arr (Elem K), p.2 = .arr c ∧ c.Wf ∧ c.shape = [n, 1]
  name : "pdf_name" ∉ Dict.keys data
  version : "pdf_version" ∉ Dict.keys data

/-- rows `s, ..., t - 1` of the parameters -/
def chunkDict (s t : ℕ) (data : Dict K) : Dict K := data.map fun p => (p.1, chunkCol s t p.2)

/-- the ensemble made of such parameters -/
def colEns (name : String) (v : ℤ) (data : Dict K) (n : ℕ) (anc : Option (Dict K)) : Ens K :=
  ⟨analyticCreate name v, analyticCreate name v, ⟨classMeta name v, data, n, [n]⟩, anc⟩

theorem Params.ancilCols {data : Dict K} {n : ℕ} (h : Params data n) : AncilCols data n := fun p hp => by
  obtain ⟨c, h1, h2, h3⟩ := h.cols p hp
  exact ⟨c, h1, h2, by rw [h3]; rfl⟩

theorem Params.chunk {data : Dict K} {n : ℕ} (h : Params data n) {s t : ℕ} (ht : t ≤ n) : Params (chunkDict s t data) (t - s) := by
  refine ⟨by simpa [chunkDict] using h.ne, by rw [chunkDict, keys_chunk]; exact h.nodup, ?_, by rw [chunkDict, keys_chunk]; exact h.name,
    by rw [chunkDict, keys_chunk]; exact h.version⟩
  intro q hq
  obtain ⟨p, hp, rfl⟩ := List.mem_map.1 hq
  obtain ⟨c, h1, h2, h3⟩ := h.cols p hp
  refine ⟨_, by simp [h1, chunkCol]; rfl, ?_, ?_⟩
  · apply Arr.wf_takeRows _ h2
    intro i hi
    rw [List.mem_range'_1] at hi
    simp only [Arr.nrows, h3, List.headD_cons]
    omega
  · simp [Arr.takeRows, Arr.ofRows, h3]

theorem create_params {data : Dict K} {n : ℕ} (h : Params data n) (name : String) (v : ℤ) :
    analyticCreate name v data = .ok ⟨classMeta name v, data, n, [n]⟩ := by
  apply analyticCreate_col _ _ _ _ h.ne
  intro p hp
  obtain ⟨c, h1, -, h3⟩ := h.cols p hp
  rw [h1]; exact h3

theorem mkEns_params {data : Dict K} {n : ℕ} (h : Params data n) (name : String) (v : ℤ) (anc : Option (Dict K)) {e : Ens K}
    (hok : mkEns (analyticCreate name v) (analyticCreate name v) data anc = .ok e) : e = colEns name v data n anc := by
  unfold mkEns at hok
  rw [create_params h] at hok
  simp only [Bind.bind, Except.bind] at hok
  split at hok
  · simp at hok
  · exact (Except.ok.inj hok).symm

theorem getItem_params {data : Dict K} {n : ℕ} (h : Params data n) (name : String) (v : ℤ) {anc : Option (Dict K)} (ha : FileAncil anc n)
    {s t : ℕ} (hst : s ≤ t) (ht : t ≤ n) :
    getItem (colEns name v data n anc) (.slice (some (s : ℤ)) (some (t : ℤ)) none) =
      .ok (colEns name v (chunkDict s t data) (t - s) (anc.map fun _ => chunkAncil anc s t)) := by
  have hres := C32_slice_key n s t hst ht
  have hp := h.chunk (s := s) ht
  have hmeta : squeezedMeta (classMeta name v : Dict K) = .ok [] := rfl
  have hdd : ((data.map fun p => (p.1, Val.arr (selArr (.many (List.range' s (t - s))) p.2.toArr))).map fun p => (p.1, expandRow p.2)) =
      chunkDict s t data := by
    rw [List.map_map]
    apply List.map_congr_left
    intro p hm
    obtain ⟨c, h1, h2, h3⟩ := h.cols p hm
    simp only [Function.comp, h1, chunkCol, Val.toArr, selArr, Prod.mk.injEq, true_and]
    unfold expandRow
    rw [if_neg]
    simp [Val.shape, Val.toArr, Arr.takeRows, Arr.ofRows, h3]
  have hup : Dict.update ([] : Dict K) (chunkDict s t data) = chunkDict s t data := update_nil hp.nodup
  simp only [getItem, colEns, hmeta, index_cols_ok h.ancilCols hres, Bind.bind, Except.bind, hdd, hup]
  cases anc with
  | none =>
    simp only [sliceAncil, mkEns, create_params hp, Bind.bind, Except.bind, checkArrayShapes]
    rfl
  | some a =>
    have hcols := (ha a rfl).1
    have hsame : (a.map fun p => (p.1, Val.arr (selArr (.many (List.range' s (t - s))) p.2.toArr))) = chunkAncil (some a) s t := by
      simp only [chunkAncil]
      apply List.map_congr_left
      intro p hp
      obtain ⟨cc, hcc, -⟩ := hcols p hp
      simp [hcc, chunkCol, selArr, Val.toArr]
    simp only [sliceAncil, index_cols_ok hcols hres, Except.map, hsame, mkEns, create_params hp, Bind.bind, Except.bind, chunkAncil_ok ha]
    rfl

/-! ### C50 -/

theorem params_tabs {data : Dict K} {n : ℕ} (h : Params data n) (name : String) (v : ℤ) {anc : Option (Dict K)} (ha : FileAncil anc n) :
    TabsOk (dataTabs (colEns name v data n anc)) n := by
  rw [dataTabs_eq]
  cases anc with
  | none => exact ⟨by simp [colEns], by simpa [colEns] using h.nodup, by simpa [colEns] using h.ancilCols⟩
  | some a =>
    obtain ⟨h1, h2⟩ := ha a rfl
    refine ⟨by simp [colEns], ?_, ?_⟩
    · intro g hg
      simp only [colEns, List.mem_cons, List.not_mem_nil, or_false] at hg
      rcases hg with rfl | rfl
      · exact h.nodup
      · exact h2
    · intro g hg
      simp only [colEns, List.mem_cons, List.not_mem_nil, or_false] at hg
      rcases hg with rfl | rfl
      · exact h.ancilCols
      · exact h1

theorem params_chunkTabs (name : String) (v : ℤ) (data : Dict K) (n : ℕ) (anc : Option (Dict K)) (s t : ℕ) :
    dataTabs (colEns name v (chunkDict s t data) (t - s) (anc.map fun _ => chunkAncil anc s t)) =
      chunkTabs (dataTabs (colEns name v data n anc)) s t := by
  rw [dataTabs_eq, dataTabs_eq]
  cases anc <;> rfl

/-- reading depends only on what is found under the three names -/
theorem fromTables_congr (r : Reg K) {t t' : Tabs K} (h : ∀ x ∈ ["meta", "data", "ancil"], t.lookup x = t'.lookup x) :
    fromTables r t = fromTables r t' := by
  simp only [fromTables, Tabs.get, h "meta" (by simp), h "data" (by simp), h "ancil" (by simp)]

/-- **C50** for the analytic classes, parameters given as `(n, 1)` arrays: the slices `[start:end]` of the ensemble, for ranges that
together contain all its rows, are written in any order and interleaving after one of them has allocated the file; once finalised by any
of them, the file reads back as the ensemble, for any registry that knows the class. (A slice may also be empty here.) -/
theorem C50_analytic {r : Reg K} {name : String} {v : ℤ} (hr : r.lookup name = some (analyticCreate name v)) (fill : Elem K) {data : Dict K}
    {n : ℕ} (h : Params data n) {anc : Option (Dict K)} (ha : FileAncil anc n) {e : Ens K}
    (hok : mkEns (analyticCreate name v) (analyticCreate name v) data anc = .ok e) {rs : List (ℕ × ℕ)} {es : List (Ens K)}
    (hrs : ∀ rg ∈ rs, rg.1 ≤ rg.2 ∧ rg.2 ≤ n)
    (hes : List.Forall₂ (fun rg x => getItem e (.slice (some (rg.1 : ℤ)) (some (rg.2 : ℤ)) none) = .ok x) rs es)
    (hcov : ∀ i < n, ∃ rg ∈ rs, rg.1 ≤ i ∧ i < rg.2) {os : List (Put K)}
    (hos : ∀ o, o ∈ os ↔ o ∈ (rs.zip es).flatMap fun p => chunkOps p.2 p.1.1 p.1.2) {e0 e1 : Ens K} (h0 : e0 ∈ es) (h1 : e1 ∈ es) :
    ∃ f0 f1 f2, initWrite fill e0 n = .ok f0 ∧ runOps f0 os = .ok f1 ∧ finalizeWrite f1 e1 = .ok f2 ∧ fromTables r f2 = .ok e := by
  have hmk := hok
  obtain rfl := mkEns_params h name v anc hok
  set e := colEns name v data n anc with he
  have hall : List.Forall₂ (fun (rg : ℕ × ℕ) x => (rg.1 ≤ rg.2 ∧ rg.2 ≤ n) ∧ dataTabs x = chunkTabs (dataTabs e) rg.1 rg.2 ∧
      x.frozen.metadata = e.frozen.metadata) rs es := by
    clear hcov hos h0 h1
    induction hes with
    | nil => exact .nil
    | @cons rg x _ _ hx _ ih =>
      have hb := hrs rg (by simp)
      refine .cons ⟨hb, ?_⟩ (ih fun y hy => hrs y (by simp [hy]))
      rw [getItem_params h name v ha hb.1 hb.2] at hx
      obtain rfl := Except.ok.inj hx
      exact ⟨params_chunkTabs name v data n anc _ _, rfl⟩
  have hmem : ∀ x ∈ es, ∃ s t, dataTabs x = chunkTabs (dataTabs e) s t ∧ x.frozen.metadata = e.frozen.metadata := by
    intro x hx
    obtain ⟨rg, -, hrg⟩ := forall₂_mem_right hall hx
    exact ⟨_, _, hrg.2⟩
  obtain ⟨s0, t0, hd0, -⟩ := hmem e0 h0
  obtain ⟨_, _, -, hm1⟩ := hmem e1 h1
  obtain ⟨f0, hi, hrun⟩ := C50_tables fill (params_tabs h name v ha) hd0 (hall.imp fun _ _ hh => ⟨hh.1.1, hh.1.2, hh.2.1⟩) hcov hos
  have hno : (dataTabs e).lookup "meta" = none := by
    rw [dataTabs_eq]
    cases e.ancil <;> rfl
  refine ⟨f0, _, dataTabs e ++ [("meta", e.frozen.metadata)], hi, hrun, ?_, ?_⟩
  · have : finalizeWrite (dataTabs e) e1 = .ok (dataTabs e ++ [("meta", e.frozen.metadata)]) := by
      simp only [finalizeWrite, hno, hm1]
      rfl
    exact this
  · rw [← Tables.C46_analytic hr hmk h.nodup h.name h.version (fun p hp => by
      obtain ⟨c, h1, -, h3⟩ := h.cols p hp
      exact ⟨c, h1, by simp [h3]⟩)]
    apply fromTables_congr
    intro x hx
    rw [dataTabs_eq]
    simp only [List.mem_cons, List.not_mem_nil, or_false] at hx
    rcases hx with rfl | rfl | rfl <;> (cases hc : e.ancil <;> simp [buildTables, hc, List.lookup])

/-! ### C48 -/

theorem iterLoop_params {data : Dict K} {n : ℕ} (h : Params data n) (name : String) (v : ℤ) {anc : Option (Dict K)} (ha : FileAncil anc n)
    (rs : List (ℕ × ℕ)) (hr : ∀ r ∈ rs, r.1 < r.2 ∧ r.2 ≤ n) (st : IterState K)
    (hd : st.data = [] ∨ Dict.keys st.data = Dict.keys data)
    (hi : st.ancil = [] ∨ ∃ a, anc = some a ∧ Dict.keys st.ancil = Dict.keys a) :
    ∃ st', iterLoop (analyticCreate name v) data anc st rs = .ok (rs.map (fun r => ⟨r.1, r.2,
      colEns name v (chunkDict r.1 r.2 data) (r.2 - r.1) (some (chunkAncil anc r.1 r.2))⟩), st') := by
  induction rs generalizing st with
  | nil => exact ⟨st, rfl⟩
  | cons r rs ih =>
    obtain ⟨s, t⟩ := r
    obtain ⟨h1, h2⟩ := hr (s, t) (by simp)
    have hp := h.chunk (s := s) h2
    have hup : Dict.update st.data (data.map fun p => (p.1, chunkCol s t p.2)) = chunkDict s t data := by
      rcases hd with hd | hd
      · rw [hd]; exact update_nil hp.nodup
      · apply update_same_keys _ hp.nodup
        rw [hd, ← keys_chunk data s t]
        rfl
    have hna : nextAncil anc st (s, t) = chunkAncil anc s t := by
      cases anc with
      | none =>
        rcases hi with hi | ⟨a, hc, -⟩
        · simp [nextAncil, chunkAncil, hi]
        · simp at hc
      | some a =>
        simp only [nextAncil, chunkAncil]
        have hn : (Dict.keys (a.map fun p => (p.1, chunkCol s t p.2))).Nodup := by rw [keys_chunk]; exact (ha a rfl).2
        rcases hi with hi | ⟨a', hc, hk⟩
        · rw [hi]; exact update_nil hn
        · obtain rfl := Option.some.inj hc
          apply update_same_keys _ hn
          rw [hk, keys_chunk]
    have hstep : iterStep (analyticCreate name v) data anc st (s, t) = .ok (⟨s, t,
        colEns name v (chunkDict s t data) (t - s) (some (chunkAncil anc s t))⟩, ⟨chunkDict s t data, chunkAncil anc s t⟩) := by
      simp only [iterStep, hup, hna, mkEns, create_params hp, Bind.bind, Except.bind, chunkAncil_ok ha]
      rfl
    obtain ⟨st', hst'⟩ := ih (fun r hm => hr r (by simp [hm])) ⟨chunkDict s t data, chunkAncil anc s t⟩
      (.inr (by simp only [chunkDict]; rw [keys_chunk])) (by
        cases anc with
        | none => left; rfl
        | some a => right; exact ⟨a, rfl, by simp only [chunkAncil]; rw [keys_chunk]⟩)
    refine ⟨st', ?_⟩
    simp only [iterLoop, hstep, hst', Bind.bind, Except.bind, List.map_cons]

theorem iterOpen_params {r : Reg K} {name : String} {v : ℤ} (hr : r.lookup name = some (analyticCreate name v)) {data : Dict K} {n : ℕ}
    (h : Params data n) {t : Tabs K} (hm : t.lookup "meta" = some (classMeta name v))
    (hd : t.lookup "data" = some data) : iterOpen r t = .ok (analyticCreate name v, data, n, ⟨[], []⟩) := by
  have hlen : dataLength data = .ok n := by
    obtain ⟨p0, t0, rfl⟩ := List.exists_cons_of_ne_nil h.ne
    obtain ⟨c, h1, -, h3⟩ := h.cols p0 (by simp)
    have : ∀ q ∈ t0, q.2.shape.head? = some n := by
      intro q hq
      obtain ⟨c', h1', -, h3'⟩ := h.cols q (by simp [hq])
      rw [h1']
      simp [Val.shape, Val.toArr, h3']
    have hall : t0.all (fun q => q.2.shape.head? = some n) = true := by
      rw [List.all_eq_true]
      intro q hq
      simpa using this q hq
    have h0 : p0.2.shape = [n, 1] := by rw [h1]; exact h3
    simp only [dataLength, h0, hall, if_true]
  have h1 : Dict.popVal (classMeta (K := K) name v) "pdf_name" =
      .ok (.arr ⟨[1], [.bytes name]⟩, [("pdf_version", .arr ⟨[1], [.num (some (v : K))]⟩)]) := by
    simp [Dict.popVal, classMeta, get?_cons]
  have h2 : Dict.popVal [("pdf_version", (.arr ⟨[1], [.num (some (v : K))]⟩ : Val K))] "pdf_version" =
      .ok (.arr ⟨[1], [.num (some (v : K))]⟩, []) := by
    simp [Dict.popVal, get?_cons]
  have h3 : metaCol (.arr ⟨[1], [.bytes name]⟩ : Val K) = .ok (.py (.str name)) := by simp [metaCol, decodeVal]
  have h4 : Reg.find r (.py (.str name)) = .ok (analyticCreate name v) := by simp only [Reg.find, hr]
  have h5 : buildDataDict ([] : Dict K) [] = .ok [] := rfl
  simp only [iterOpen, Tabs.get, hm, hd, h1, h2, h3, h4, h5, hlen, Bind.bind, Except.bind]

/-- **C48** for the analytic classes, parameters given as `(n, 1)` arrays: each item that `iterator` hands out, for every chunk size, number
of ranks and rank, is the slice `[start:end]` of the ensemble in the file; its ancillary data are those of the slice, or an empty
dictionary where the file has none. -/
theorem C48_analytic {r : Reg K} {name : String} {v : ℤ} (hr : r.lookup name = some (analyticCreate name v)) {data : Dict K} {n : ℕ}
    (h : Params data n) {anc : Option (Dict K)} (ha : FileAncil anc n) {e : Ens K}
    (hok : mkEns (analyticCreate name v) (analyticCreate name v) data anc = .ok e) (c rank size steps : ℕ) (hc : 0 < c) :
    ∃ cs st, iterRun r (buildTables e) c rank size steps = .ok (cs, st) ∧
      List.Forall₂ (fun rg x => x.start = rg.1 ∧ x.stop = rg.2 ∧ ∃ y, getItem e (.slice (some (rg.1 : ℤ)) (some (rg.2 : ℤ)) none) = .ok y ∧
        x.ens = { y with ancil := some (y.ancil.getD []) }) ((dataRanges n c size rank).take steps) cs := by
  obtain rfl := mkEns_params h name v anc hok
  have hopen := iterOpen_params hr h (t := buildTables (colEns name v data n anc)) rfl (by cases anc <;> rfl)
  have hl : (buildTables (colEns name v data n anc)).lookup "ancil" = anc := by
    cases anc <;> rfl
  obtain ⟨st, hst⟩ := iterLoop_params h name v ha ((dataRanges n c size rank).take steps)
    (fun rg hm => by
      have hb := C48_range_bounds _ _ _ _ _ _ hc (List.mem_of_mem_take hm)
      exact ⟨hb.1, hb.2.1⟩) ⟨[], []⟩ (.inl rfl) (.inl rfl)
  refine ⟨_, st, (?_ : _ = Except.ok (_, st)).trans (congrArg Except.ok (rfl : (((dataRanges n c size rank).take steps).map fun r =>
    (⟨r.1, r.2, colEns name v (chunkDict r.1 r.2 data) (r.2 - r.1) (some (chunkAncil anc r.1 r.2))⟩ : Chunk K), st) = _)), ?_⟩
  · simp only [iterRun, hopen, Bind.bind, Except.bind, hl]
    rw [if_neg (by omega)]
    exact hst
  · rw [List.forall₂_map_right_iff, List.forall₂_same]
    rintro ⟨s, t⟩ hm
    have hb := C48_range_bounds _ _ _ _ _ _ hc (List.mem_of_mem_take hm)
    refine ⟨rfl, rfl, _, getItem_params h name v ha hb.1.le hb.2.1, ?_⟩
    cases anc <;> rfl

end

/-! ### an example -/

/-- three Gaussians with a redshift column -/
def normAncil : Dict ℚ := [("zs", qarr [3] [4, 5, 6])]

theorem normParams : Params Tables.normData 3 := by
  refine ⟨by simp [Tables.normData], by decide, ?_, by decide, by decide⟩
  intro p hp
  simp only [Tables.normData, List.mem_cons, List.not_mem_nil, or_false] at hp
  rcases hp with rfl | rfl <;> exact ⟨_, rfl, by decide +kernel, rfl⟩

theorem normFile : FileAncil (some normAncil) 3 := by
  intro a h
  obtain rfl := Option.some.inj h
  refine ⟨?_, by decide⟩
  intro p hp
  simp only [normAncil, List.mem_cons, List.not_mem_nil, or_false] at hp
  subst hp
  exact ⟨_, rfl, by decide +kernel, rfl⟩

/-- two chunks, the second one (one row) written first; the second one allocates, the first one finalises -/
example : ∃ f0 f1 f2, let e := colEns "norm" 0 Tables.normData 3 (some normAncil)
    let x0 := colEns "norm" 0 (chunkDict 0 2 Tables.normData) 2 (some (chunkAncil (some normAncil) 0 2))
    let x1 := colEns "norm" 0 (chunkDict 2 3 Tables.normData) 1 (some (chunkAncil (some normAncil) 2 3))
    initWrite (.num (some 0)) x1 3 = .ok f0 ∧ runOps f0 (chunkOps x1 2 3 ++ chunkOps x0 0 2) = .ok f1 ∧ finalizeWrite f1 x0 = .ok f2 ∧
      fromTables [("norm", analyticCreate "norm" 0)] f2 = .ok e :=
  C50_analytic (r := [("norm", analyticCreate "norm" 0)]) rfl (.num (some 0)) normParams normFile (rs := [(0, 2), (2, 3)]) rfl
    (by simp)
    (.cons (getItem_params normParams "norm" 0 normFile (by decide) (by decide))
      (.cons (getItem_params normParams "norm" 0 normFile (by decide) (by decide)) .nil))
    (by
      intro i hi
      rcases Nat.lt_or_ge i 2 with h | h
      · exact ⟨(0, 2), by simp, by simp, h⟩
      · exact ⟨(2, 3), by simp, h, hi⟩)
    (by
      intro o
      simp only [List.zip_cons_cons, List.zip_nil_left, List.flatMap_cons, List.flatMap_nil, List.append_nil, List.mem_append]
      exact or_comm) (by simp) (by simp)

example := C48_analytic (r := [("norm", analyticCreate "norm" 0)]) (name := "norm") (v := 0) rfl normParams normFile rfl 2 0 1 5 (by decide)

end Verif.Props.WritingAnalytic
