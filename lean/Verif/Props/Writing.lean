import Verif.Lemmas.H5
import Verif.Props.Chunks

/-!
# Writing in chunks: C50, C51; is it a qp file: C52
-/

set_option linter.unusedSectionVars false
set_option autoImplicit false

namespace Verif.Props.Writing

open Verif Verif.Np Verif.Model Verif.Spec Verif.Lemmas Verif.Props.State Verif.Props.ExEns Verif.Props.Chunks

section
variable {K : Type}

/-! ### C50 for arbitrary assignments and arbitrary tables -/

/-- **C50**, order independence: assignments to rows of data sets that touch different data sets or different rows give the same file
in every order, whatever they write -/
theorem C50_any_order {os os' : List (Put K)} (hp : os.Perm os') (hw : ∀ o ∈ os, o.val.toArr.Wf) (hd : os.Pairwise Put.Apart) {f f' : Tabs K}
    (hf : FileWf f) : runOps f os = .ok f' ↔ runOps f os' = .ok f' := by
  constructor
  · exact run_perm hp hw hd hf
  · exact run_perm hp.symm (fun o ho => hw o (hp.mem_iff.2 ho)) ((hp.pairwise_iff fun h => Put.Apart.symm h).1 hd) hf

theorem mapM_alloc {D : Tabs K} {s t : ℕ} (n : ℕ) (hD : ∀ g ∈ D, AncilCols g.2 n) :
    ((chunkTabs D s t).mapM fun g => (g.2.mapM fun p => (allocShape n p.2).map fun s => (p.1, s)).map fun cs => (g.1, cs)) =
      .ok (D.map fun g => (g.1, g.2.map fun p => (p.1, p.2.toArr.shape))) := by
  unfold chunkTabs
  rw [List.mapM_map, mapM_ok_map _ (fun g => (g.1, g.2.map fun p => (p.1, p.2.toArr.shape)))]
  rintro ⟨g, d⟩ hg
  simp only [Function.comp]
  rw [List.mapM_map, mapM_ok_map _ (fun p => (p.1, p.2.toArr.shape))]
  · rfl
  · rintro ⟨c, v⟩ hp
    obtain ⟨a, rfl, ha, hh⟩ := hD _ hg _ hp
    simp only [Function.comp, chunkCol, allocShape, Arr.shape_takeRows, Val.toArr, Except.map]
    cases hs : a.shape with
    | nil => rw [hs] at hh; simp at hh
    | cons m r => rw [hs] at hh; simp only [List.head?_cons, Option.some.injEq] at hh; simp [hh]

theorem alloc_masked (fill : Elem K) {D : Tabs K} {n : ℕ} (hD : ∀ g ∈ D, AncilCols g.2 n) :
    allocFile fill (D.map fun g => (g.1, g.2.map fun p => (p.1, p.2.toArr.shape))) = masked fill D [] := by
  unfold allocFile masked
  rw [List.map_map]
  apply List.map_congr_left
  rintro ⟨g, d⟩ hg
  simp only [Function.comp, List.map_map, Prod.mk.injEq, true_and]
  apply List.map_congr_left
  rintro ⟨c, v⟩ hp
  obtain ⟨a, rfl, ha, hh⟩ := hD _ hg _ hp
  have hs : a.shape ≠ [] := by intro h0; rw [h0] at hh; simp at hh
  simp only [Function.comp, Prod.mk.injEq, true_and, Val.arr.injEq]
  show _ = maskArr fill _ a
  rw [mask_none fill (covered [] g c) hs (fun i _ => rfl)]
  rfl

/-- **C50** for any class, in terms of tables. `e0` (the ensemble used to allocate) and the chunks hold rows of the tables `D` with `n`
rows; the rows of the chunks together are all rows. Then the allocation succeeds, all assignments of all chunks succeed in every order
and every interleaving (also within a chunk, and repeated), and the data sets of the file are the tables `D`. -/
theorem C50_tables (fill : Elem K) {D : Tabs K} {n : ℕ} (hD : TabsOk D n) {e0 : Ens K} {s0 t0 : ℕ} (h0 : dataTabs e0 = chunkTabs D s0 t0)
    {rs : List (ℕ × ℕ)} {es : List (Ens K)}
    (hes : List.Forall₂ (fun rg x => rg.1 ≤ rg.2 ∧ rg.2 ≤ n ∧ dataTabs x = chunkTabs D rg.1 rg.2) rs es)
    (hcov : ∀ i < n, ∃ rg ∈ rs, rg.1 ≤ i ∧ i < rg.2) {os : List (Put K)}
    (hos : ∀ o, o ∈ os ↔ o ∈ (rs.zip es).flatMap fun p => chunkOps p.2 p.1.1 p.1.2) :
    ∃ f0, initWrite fill e0 n = .ok f0 ∧ runOps f0 os = .ok D := by
  refine ⟨masked fill D [], ?_, ?_⟩
  · unfold initWrite allocKwds
    rw [h0, mapM_alloc n hD.arrs]
    simp only [Except.map]
    rw [alloc_masked fill hD.arrs]
  · have hzip : ∀ p ∈ rs.zip es, p.1.1 ≤ p.1.2 ∧ p.1.2 ≤ n ∧ dataTabs p.2 = chunkTabs D p.1.1 p.1.2 := by
      intro p hp
      clear hcov hos
      induction hes with
      | nil => simp at hp
      | cons h _ ih =>
        rw [List.zip_cons_cons] at hp
        rcases List.mem_cons.1 hp with rfl | hp
        · exact h
        · exact ih hp
    rw [run_masked hD [] os, List.nil_append, masked_all hD]
    · intro g hg p hp i hi
      obtain ⟨rg, hrg, h1, h2⟩ := hcov i hi
      obtain ⟨x, hx⟩ : ∃ x, (rg, x) ∈ rs.zip es := by
        clear hos hzip hcov
        induction hes with
        | nil => simp at hrg
        | @cons a b l l' h _ ih =>
          rcases List.mem_cons.1 hrg with rfl | hrg
          · exact ⟨b, by simp⟩
          · obtain ⟨x, hx⟩ := ih hrg
            exact ⟨x, by rw [List.zip_cons_cons]; exact List.mem_cons_of_mem _ hx⟩
      obtain ⟨-, -, h3⟩ := hzip _ hx
      unfold covered
      rw [List.any_eq_true]
      refine ⟨⟨g.1, p.1, rg.1, rg.2, chunkCol rg.1 rg.2 p.2⟩, (hos _).2 ?_, by simp [h1, h2]⟩
      rw [List.mem_flatMap]
      refine ⟨_, hx, ?_⟩
      unfold chunkOps
      simp only at h3 ⊢
      rw [h3, mem_tabOps]
      exact ⟨g, hg, p, hp, rfl⟩
    · intro o ho
      obtain ⟨p, hp, ho'⟩ := List.mem_flatMap.1 ((hos o).1 ho)
      obtain ⟨h1, h2, h3⟩ := hzip p hp
      unfold chunkOps at ho'
      rw [h3] at ho'
      exact ⟨_, _, h1, h2, ho'⟩

theorem dataTabs_eq (e : Ens K) : dataTabs e = ("data", e.frozen.objdata) :: match e.ancil with
    | none => []
    | some a => [("ancil", a)] := by
  unfold dataTabs buildTables
  cases e.ancil <;> rfl

end

section
variable {K : Type} [Field K] [LinearOrder K] [IsStrictOrderedRing K]

/-! ### C50 for the row classes -/

theorem dataTabs_ok {k : RowKind} {e : Ens K} {mo : List (String × Arr (Elem K))} {ws : List ℕ} {out : List (List (List (Elem K)))}
    (hs : Stored k e mo ws out) (ha : FileAncil e.ancil out.length) : TabsOk (dataTabs e) out.length := by
  have hf := hs.fixed
  have hnd := (List.nodup_append.1 hf.names.nd).2.1
  have hob : e.frozen.objdata = storeRows (k.cls (K := K)).rowArgs ws out := by rw [hs.frozen]; rfl
  have hcols : AncilCols e.frozen.objdata out.length := by
    intro p hp
    have hk : p.1 ∈ (k.cls (K := K)).rowArgs := by
      rw [← keys_storeRows _ ws out hf.wl, ← hob]
      exact List.mem_map.2 ⟨p, hp, rfl⟩
    obtain ⟨j, hj, hjp⟩ := List.mem_iff_getElem.1 hk
    have h1 := get?_storeRows (k.cls (K := K)).rowArgs ws out hf.wl hnd j hj
    have h2 : Dict.get? e.frozen.objdata p.1 = some p.2 := by
      apply get?_of_mem _ hp
      rw [hob, keys_storeRows _ _ _ hf.wl]; exact hnd
    rw [hob, ← hjp, h1] at h2
    refine ⟨_, (Option.some.inj h2).symm, tab_wf hf.len j (by rw [hf.wl]; exact hj), ?_⟩
    rw [tab_shape]; rfl
  have hkd : (Dict.keys e.frozen.objdata).Nodup := by rw [hob, keys_storeRows _ _ _ hf.wl]; exact hnd
  rw [dataTabs_eq]
  cases he : e.ancil with
  | none =>
    exact ⟨by simp, by simpa using hkd, by simpa using hcols⟩
  | some a =>
    obtain ⟨h1, h2⟩ := ha a he
    refine ⟨by simp, ?_, ?_⟩
    · intro g hg
      simp only [List.mem_cons, List.not_mem_nil, or_false] at hg
      rcases hg with rfl | rfl
      · exact hkd
      · exact h2
    · intro g hg
      simp only [List.mem_cons, List.not_mem_nil, or_false] at hg
      rcases hg with rfl | rfl
      · exact hcols
      · exact h1

theorem storeRows_chunk {k : RowKind} {e : Ens K} {mo : List (String × Arr (Elem K))} {ws : List ℕ} {out : List (List (List (Elem K)))}
    (hs : Stored k e mo ws out) {s t : ℕ} (ht : t ≤ out.length) :
    storeRows (k.cls (K := K)).rowArgs ws (pick out (List.range' s (t - s))) =
      e.frozen.objdata.map fun p => (p.1, chunkCol s t p.2) := by
  have hf := hs.fixed
  have hob : e.frozen.objdata = storeRows (k.cls (K := K)).rowArgs ws out := by rw [hs.frozen]; rfl
  have hnd := (List.nodup_append.1 hf.names.nd).2.1
  apply dict_ext
  · rw [keys_storeRows _ _ _ hf.wl, keys_chunk, hob, keys_storeRows _ _ _ hf.wl]
  · rw [keys_storeRows _ _ _ hf.wl]; exact hnd
  · intro x
    rw [get?_chunk hf (by rw [hob]) ht]

theorem dataTabs_chunk {k : RowKind} {e : Ens K} {mo : List (String × Arr (Elem K))} {ws : List ℕ} {out : List (List (List (Elem K)))}
    (hs : Stored k e mo ws out) (ha : FileAncil e.ancil out.length) {s t : ℕ} (hst : s < t) (ht : t ≤ out.length) {x : Ens K}
    (hx : getItem e (.slice (some (s : ℤ)) (some (t : ℤ)) none) = .ok x) :
    dataTabs x = chunkTabs (dataTabs e) s t ∧ x.frozen.metadata = e.frozen.metadata := by
  rw [getItem_chunk hs ha hst ht] at hx
  obtain rfl := Except.ok.inj hx
  constructor
  · rw [dataTabs_eq, dataTabs_eq]
    simp only [chunkOf, frozenOf, storeRows_chunk hs ht]
    cases he : e.ancil with
    | none => rfl
    | some a => rfl
  · rw [hs.frozen]
    rfl

/-- **C50** for the row classes: let the slices `[start:end]` of an ensemble, for ranges that together contain all its rows, be written by
`writeHdf5Chunk`, after `initializeHdf5Write` by one of its slices. In every order of the assignments (also interleaved) the file, once
finalised by one of the slices, is the same, and reads back as the ensemble. -/
theorem C50_any_schedule_partial {r : Reg K} (hr : Registered r) (fill : Elem K) {k : RowKind} {e : Ens K} (h : Reach k e)
    (ha : FileAncil e.ancil e.frozen.npdf) {rs : List (ℕ × ℕ)} {es : List (Ens K)} (hrs : ∀ rg ∈ rs, rg.1 < rg.2 ∧ rg.2 ≤ e.frozen.npdf)
    (hes : List.Forall₂ (fun rg x => getItem e (.slice (some (rg.1 : ℤ)) (some (rg.2 : ℤ)) none) = .ok x) rs es)
    (hcov : ∀ i < e.frozen.npdf, ∃ rg ∈ rs, rg.1 ≤ i ∧ i < rg.2) {os : List (Put K)}
    (hos : ∀ o, o ∈ os ↔ o ∈ (rs.zip es).flatMap fun p => chunkOps p.2 p.1.1 p.1.2) {e0 e1 : Ens K} (h0 : e0 ∈ es) (h1 : e1 ∈ es) :
    ∃ f0 f1, initWrite fill e0 e.frozen.npdf = .ok f0 ∧ runOps f0 os = .ok f1 ∧
      finalizeWrite f1 e1 = .ok (dataTabs e ++ [("meta", e.frozen.metadata)]) ∧
      fromTables r (dataTabs e ++ [("meta", e.frozen.metadata)]) = .ok (flatEns e) := by
  obtain ⟨mo, ws, out, hs⟩ := reach_stored h
  have hn : e.frozen.npdf = out.length := by rw [hs.frozen]; rfl
  have ha' := ha
  rw [hn] at ha hrs hcov ⊢
  have hall : List.Forall₂ (fun (rg : ℕ × ℕ) x => (rg.1 < rg.2 ∧ rg.2 ≤ out.length) ∧ dataTabs x = chunkTabs (dataTabs e) rg.1 rg.2 ∧
      x.frozen.metadata = e.frozen.metadata) rs es := by
    clear hcov hos h0 h1
    induction hes with
    | nil => exact .nil
    | @cons rg x _ _ hx _ ih =>
      have hb := hrs rg (by simp)
      exact .cons ⟨hb, dataTabs_chunk hs ha hb.1 hb.2 hx⟩ (ih fun y hy => hrs y (by simp [hy]))
  have hmem : ∀ x ∈ es, ∃ s t, dataTabs x = chunkTabs (dataTabs e) s t ∧ x.frozen.metadata = e.frozen.metadata := by
    intro x hx
    obtain ⟨rg, -, hrg⟩ := forall₂_mem_right hall hx
    exact ⟨_, _, hrg.2⟩
  obtain ⟨s0, t0, hd0, -⟩ := hmem e0 h0
  obtain ⟨_, _, -, hm1⟩ := hmem e1 h1
  obtain ⟨f0, hi, hrun⟩ := C50_tables fill (dataTabs_ok hs ha) hd0 (hall.imp fun _ _ hh => ⟨hh.1.1.le, hh.1.2, hh.2.1⟩) hcov hos
  refine ⟨f0, _, hi, hrun, ?_, ?_⟩
  · have hno : (dataTabs e).lookup "meta" = none := by
      rw [dataTabs_eq]
      cases e.ancil <;> rfl
    simp only [finalizeWrite, hno, hm1]
    rfl
  · apply Tables.C46_round_trip_partial hr h
    · intro a hea p hp
      obtain ⟨c, hc, -, hh⟩ := (ha' a hea).1 p hp
      rw [hc]
      left
      exact hh
    · refine ⟨⟨_, ?_, .refl _⟩, ⟨_, ?_, .refl _⟩, ?_⟩
      · rw [dataTabs_eq]
        cases e.ancil <;> rfl
      · rw [dataTabs_eq]
        rfl
      · rw [dataTabs_eq]
        cases e.ancil <;> rfl

end

section
variable {K : Type}

/-! ### C51 -/

theorem lookup_onFile (o : Put K) (f : Tabs K) (g : String) (h : f.lookup g = none) : (o.onFile f).lookup g = none := by
  rw [onFile_eq, lookup_map_pair f (fun g d => if g = o.group then d.map fun p => (p.1, if p.1 = o.col then o.onCol p.2 else p.2) else d) g, h]
  rfl

theorem runOps_lookup {f f' : Tabs K} {os : List (Put K)} (h : runOps f os = .ok f') {g : String} (hg : f.lookup g = none) :
    f'.lookup g = none := by
  induction os generalizing f with
  | nil =>
    obtain rfl := Except.ok.inj h
    exact hg
  | cons o os ih =>
    unfold runOps at h
    cases ho : writeOp f o with
    | error e => rw [ho] at h; simp at h
    | ok f1 =>
      rw [ho] at h
      obtain ⟨-, rfl⟩ := (writeOp_ok_iff _ _ _).1 ho
      exact ih h (lookup_onFile o f g hg)

theorem alloc_groups {e : Ens K} {n : ℕ} {al : Alloc} (h : allocKwds e n = .ok al) : ∀ g ∈ al, g.1 ≠ "meta" := by
  intro g hg
  unfold allocKwds at h
  rw [mapM_ok_iff] at h
  obtain ⟨t, ht, htg⟩ := forall₂_mem_right h hg
  have : t.1 ≠ "meta" := by
    have := (List.mem_filter.1 ht).2
    simpa using this
  cases hm : (t.2.mapM fun p => (allocShape n p.2).map fun s => (p.1, s)) with
  | error err => rw [hm] at htg; simp [Except.map] at htg
  | ok cs =>
    rw [hm] at htg
    obtain rfl := Except.ok.inj htg
    exact this

theorem noMeta_not_qp {f : Tabs K} (h : f.lookup "meta" = none) (r : Reg K) :
    isQpFile (.ok f) = .ok false ∧ fromTables r f = .error .KeyError := by
  constructor
  · simp [isQpFile, hasName, Tabs.get, h, Bind.bind, Except.bind]
  · simp [fromTables, Tabs.get, h, Bind.bind, Except.bind]

/-- **C51**, before the finalisation: whatever ensemble (of any class) the file was allocated for, however much of the allocation has been
done (`al'`: the groups and data sets created so far), and whatever assignments have been made since, the file is not a qp file and cannot
be read -/
theorem C51_unfinished (fill : Elem K) {e : Ens K} {n : ℕ} {al al' : Alloc} (hal : allocKwds e n = .ok al)
    (hpre : ∀ g ∈ al', ∃ g' ∈ al, g'.1 = g.1) {os : List (Put K)} {f : Tabs K} (hrun : runOps (allocFile fill al') os = .ok f) (r : Reg K) :
    isQpFile (.ok f) = .ok false ∧ fromTables r f = .error .KeyError := by
  apply noMeta_not_qp
  apply runOps_lookup hrun
  unfold allocFile
  rw [List.lookup_eq_none_iff]
  rintro ⟨g, d⟩ hg
  obtain ⟨g0, hg0, heq⟩ := List.mem_map.1 hg
  obtain ⟨g1, hg1, hn⟩ := hpre g0 hg0
  have := alloc_groups hal g1 hg1
  simp only [Prod.mk.injEq] at heq
  rw [bne_iff_ne]
  rw [← heq.1, ← hn]
  exact this.symm

/-- the metadata of an ensemble start with a class name -/
def Named (e : Ens K) : Prop := ∃ s rest, e.frozen.metadata = ("pdf_name", .arr ⟨[1], [.bytes s]⟩) :: rest

/-- **C51**, after the finalisation: the file is a qp file -/
theorem C51_finished {f f' : Tabs K} {e : Ens K} (hn : Named e) (h : finalizeWrite f e = .ok f') : isQpFile (.ok f') = .ok true := by
  obtain ⟨s, rest, hm⟩ := hn
  unfold finalizeWrite at h
  split_ifs at h with h1
  obtain rfl := Except.ok.inj h
  have hl : (f ++ [("meta", e.frozen.metadata)]).lookup "meta" = some e.frozen.metadata := by
    rw [List.lookup_append]
    simp only [Option.not_isSome_iff_eq_none] at h1
    rw [h1]
    rfl
  have hg : Dict.get? e.frozen.metadata "pdf_name" = some (.arr ⟨[1], [.bytes s]⟩) := by rw [hm, get?_cons]; simp
  simp [isQpFile, hasName, Tabs.get, hl, Bind.bind, Except.bind, hg, pyLen, Except.map]

theorem named_row {K : Type} [Field K] [LinearOrder K] [IsStrictOrderedRing K] {k : RowKind} {e : Ens K} (h : Reach k e) : Named e := by
  obtain ⟨mo, ws, out, hs⟩ := reach_stored h
  rw [Named, hs.frozen]
  exact ⟨_, _, rfl⟩

theorem named_analytic [IntCast K] {name : String} {v : ℤ} {data : Dict K} {fr : Frozen K} (h : analyticCreate name v data = .ok fr) (c g : GenFunc K)
    (a : Option (Dict K)) : Named (⟨c, g, fr, a⟩ : Ens K) := by
  unfold analyticCreate at h
  simp only at h
  split_ifs at h <;> · obtain rfl := Except.ok.inj h; exact ⟨_, _, rfl⟩

end

/-- the file of three histograms whose finalisation was interrupted after the first column: it already passes for a qp file, but it cannot
be read -/
theorem C51_interrupted_finalisation :
    isQpFile (.ok (finalizeAt (dataTabs (histEns none)) (histEns none) 1)) = .ok true ∧
      (fromTables stdReg (finalizeAt (dataTabs (histEns none)) (histEns none) 1)).map Ens.frozen = .error .KeyError := by
  decide +kernel

/-- a file finalised although the third row was never written is a qp file and can be read: the third PDF is the fill value -/
theorem C51_missing_rows :
    ((initWrite (.num (some 0)) (histEns none) 3).bind fun f0 =>
      (getItem (histEns none) (.slice (some 0) (some 2) none)).bind fun x =>
      (writeChunk f0 x 0 2).bind fun f1 => (finalizeWrite f1 x).bind fun f2 =>
      (fromTables stdReg f2).map fun y => Dict.get? y.frozen.objdata "pdfs") =
      .ok (some (.arr ⟨[3, 2], [.num (some (1/3)), .num (some (1/3)), .num (some 1), .num (some 0), .num none, .num none]⟩)) := by
  decide +kernel

section
variable {K : Type}

/-! ### C52 -/

/-- **C52**: `is_qp_file` returns a boolean whatever the reader does, unless the reader is interrupted by something that is not an
`Exception` -/
theorem C52_never_raises (o : Except Raised (Tabs K)) : (∃ b, isQpFile o = .ok b) ↔ o ≠ .error .interrupt := by
  unfold isQpFile
  cases o with
  | error e => cases e <;> simp
  | ok t => cases hh : hasName t <;> simp [hh]

/-- the length of a value, for values that have one -/
def HasLen (v : Val K) (n : ℕ) : Prop :=
  (∃ l, v = .lst l ∧ n = l.length) ∨ (∃ a, v = .arr a ∧ a.shape.head? = some n) ∨
    (∃ s, (v = .py (.str s) ∨ v = .py (.bytes s)) ∧ n = s.length)

theorem pyLen_iff (v : Val K) (n : ℕ) : pyLen v = .ok n ↔ HasLen v n := by
  unfold pyLen HasLen
  cases v with
  | lst l => simp [eq_comm]
  | arr a => cases hs : a.shape <;> simp [hs]
  | py e => cases e <;> simp [eq_comm]

/-- **C52**, exactly: it is `True` iff the reader returns tables in which the entry `pdf_name` of the table `meta` has a positive length.
Missing: files with a scalar `pdf_name`, which `read` accepts (false, `C52_scalar_name`). -/
theorem C52_true_iff_partial (o : Except Raised (Tabs K)) : isQpFile o = .ok true ↔
    ∃ t md v n, o = .ok t ∧ t.lookup "meta" = some md ∧ Dict.get? md "pdf_name" = some v ∧ HasLen v n ∧ 0 < n := by
  constructor
  · intro h
    unfold isQpFile at h
    cases o with
    | error e => cases e <;> simp at h
    | ok t =>
      simp only at h
      cases hh : hasName t with
      | error e => rw [hh] at h; simp at h
      | ok b =>
        rw [hh] at h
        obtain rfl := Except.ok.inj h
        unfold hasName Tabs.get at hh
        cases hl : t.lookup "meta" with
        | none => rw [hl] at hh; simp [Bind.bind, Except.bind] at hh
        | some md =>
          rw [hl] at hh
          simp only [Bind.bind, Except.bind] at hh
          cases hg : Dict.get? md "pdf_name" with
          | none => rw [hg] at hh; simp at hh
          | some v =>
            rw [hg] at hh
            simp only at hh
            cases hp : pyLen v with
            | error e => rw [hp] at hh; simp [Except.map] at hh
            | ok n =>
              rw [hp] at hh
              simp only [Except.map, Except.ok.injEq, decide_eq_true_eq] at hh
              exact ⟨t, md, v, n, rfl, hl, hg, (pyLen_iff v n).1 hp, hh⟩
  · rintro ⟨t, md, v, n, rfl, hl, hg, hp, hn⟩
    rw [← pyLen_iff] at hp
    simp [isQpFile, hasName, Tabs.get, hl, hg, hp, Bind.bind, Except.bind, Except.map, hn]

end

/-- a file with the class name as a scalar: `read` accepts it, `is_qp_file` says no (qp itself writes names as arrays) -/
theorem C52_scalar_name :
    let t : Tabs ℚ := [("meta", [("pdf_name", .arr ⟨[], [.bytes "hist"]⟩), ("pdf_version", qarr [1] [0]), ("bins", qarr [1, 3] [0, 1, 3])]),
      ("data", histFrozen.objdata)]
    isQpFile (.ok t) = .ok false ∧ (fromTables stdReg t).map Ens.frozen = .ok histFrozen := by
  decide +kernel

example : isQpFile (.ok (buildTables (histEns none))) = .ok true := by decide +kernel
example : isQpFile (K := ℚ) (.error (.exception .KeyError)) = .ok false := rfl

/-- C50 for the three histograms in two chunks, the second written first -/
example : ∃ x0 x1 f0 f1, getItem (histEns (some narrow)) (.slice (some ((0 : ℕ) : ℤ)) (some ((2 : ℕ) : ℤ)) none) = .ok x0 ∧
    getItem (histEns (some narrow)) (.slice (some ((2 : ℕ) : ℤ)) (some ((3 : ℕ) : ℤ)) none) = .ok x1 ∧
    initWrite (.num (some 0)) x0 3 = .ok f0 ∧ runOps f0 (chunkOps x1 2 3 ++ chunkOps x0 0 2) = .ok f1 ∧
    ∃ f2, finalizeWrite f1 x0 = .ok f2 ∧ fromTables stdReg f2 = .ok (flatEns (histEns (some narrow))) := by
  have hr := histReach (some narrow) (by decide +kernel)
  obtain ⟨mo, ws, out, hs⟩ := reach_stored hr
  have hl : out.length = 3 := by
    have := congrArg Frozen.npdf hs.frozen
    exact this.symm
  have ha : FileAncil (histEns (some narrow)).ancil 3 := by
    intro a h
    obtain rfl := Option.some.inj h
    exact ⟨narrow_cols, by decide⟩
  have g0 := getItem_chunk hs (by rw [hl]; exact ha) (s := 0) (t := 2) (by decide) (by rw [hl]; decide)
  have g1 := getItem_chunk hs (by rw [hl]; exact ha) (s := 2) (t := 3) (by decide) (by rw [hl])
  obtain ⟨f0, f1, h1, h2, h3, h4⟩ := C50_any_schedule_partial registered_std (.num (some 0)) hr ha (rs := [(0, 2), (2, 3)])
    (by simp; decide) (.cons g0 (.cons g1 .nil)) (by
      intro i hi
      have : i < 3 := hi
      rcases Nat.lt_or_ge i 2 with h | h
      · exact ⟨(0, 2), by simp, by simp, h⟩
      · exact ⟨(2, 3), by simp, h, this⟩) (os := chunkOps _ 2 3 ++ chunkOps _ 0 2) (by
      intro o
      simp only [List.zip_cons_cons, List.zip_nil_left, List.flatMap_cons, List.flatMap_nil, List.append_nil, List.mem_append]
      exact or_comm) (e0 := _) (e1 := _) (List.mem_cons_self ..) (List.mem_cons_self ..)
  exact ⟨_, _, f0, f1, g0, g1, h1, h2, _, h3, h4⟩

end Verif.Props.Writing
