import Verif.Lemmas.SharingStep
import Verif.Lemmas.Select

/-!
# C126: ensembles and arrays that share memory
-/

set_option linter.unusedSectionVars false
set_option autoImplicit false

namespace Verif.Props.Sharing

open Verif Verif.Model Verif.Spec Verif.Model.Sharing Verif.Spec.Sharing Verif.Lemmas.Sharing

variable {V : Type} [DecidableEq V]

/-! ## Operations that are not meant to change anything else -/

/-- **C126.** Whatever a program has done before: building, selecting, appending, updating, setting ancillary data and looking at columns change
nothing but the ensemble the operation is called on. All other ensembles hold what they held, and so do all arrays and dictionaries of the
program. -/
theorem C126_frame {P : Params V} {s : St V} (hs : Reachable P s) (op : Op V) (h : ¬ writesInPlace op) :
    (∀ (e : ℕ), e < s.enss.length → changes op ≠ some e → holds (step P s op).2 e = holds s e) ∧
    (∀ (a : ℕ), a < s.vars.length → arrayHolds (step P s op).2 a = arrayHolds s a) ∧
    ∀ (d : ℕ), d < s.dicts.length → dictHolds (step P s op).2 d = dictHolds s d := by
  have hg := step_grow P s op h
  have hS := reachable_sound hs
  obtain ⟨x, hx⟩ := hg.bufs
  obtain ⟨y, hy⟩ := hg.dicts
  obtain ⟨z, hz⟩ := hg.vars
  have hd : ∀ (d : ℕ), d < s.dicts.length → dictHolds (step P s op).2 d = dictHolds s d := by
    intro d hd
    simp only [dictHolds, hx, hy, List.getElem?_append_left hd]
    exact readCols_append _ _ _ fun p hp => hS.bufs _ (used_dict hp)
  refine ⟨fun e he hne => ?_, fun a ha => ?_, hd⟩
  · simp only [holds, hg.enss e he hne]
    cases ho : s.enss[e]? with
    | none => rfl
    | some o =>
      simp only [Option.map_some, Option.some.injEq, Prod.mk.injEq]
      refine ⟨?_, ?_⟩
      · rw [hx]
        exact readCols_append _ _ _ fun p hp => hS.bufs _ (used_ens ho hp (by simp))
      · cases ha : o.ancil with
        | none => rfl
        | some d =>
          simp only [Option.map_some, Option.some.injEq]
          exact hd d (hS.ancil o (List.mem_of_getElem? ho) d ha)
  · simp only [arrayHolds, hz, List.getElem?_append_left ha]
    cases hv : s.vars[a]? with
    | none => rfl
    | some r =>
      simp only [Option.map_some, Option.some.injEq]
      rw [hx]
      exact readRef_append _ _ _ (hS.bufs _ (used_var (List.mem_of_getElem? hv)))

/-! ## Writing into an array -/

omit [DecidableEq V] in
theorem readRef_modify (bufs : List (Buf V)) (b j : ℕ) (v : V) (q : Ref) (h : q.buf = b → j ∉ q.rows) :
    readRef (bufs.modify b fun b => { b with rows := b.rows.set j v }) q = readRef bufs q := by
  simp only [readRef]
  refine List.map_congr_left fun i hi => ?_
  rw [List.getElem?_modify]
  by_cases hb : b = q.buf
  · have hne : j ≠ i := fun e => h hb.symm (e ▸ hi)
    simp only [hb, if_true]
    cases bufs[q.buf]? with
    | none => rfl
    | some bb => simp [List.getElem?_set_ne hne]
  · simp [hb]

/-- **C126.** `a[i] = v` changes an array (of the program, of an ensemble or of its ancillary data) exactly at the places that are the same place
of the same buffer: nothing else changes, and every array that shares the place now has `v` there. -/
theorem C126_write (P : Params V) (s : St V) (a i : ℕ) (v : V) (r : Ref) (j : ℕ) (hr : s.vars[a]? = some r) (hj : r.rows[i]? = some j) :
    (∀ q : Ref, (q.buf = r.buf → j ∉ q.rows) → readRef (step P s (.write a i v)).2.bufs q = readRef s.bufs q) ∧
    ∀ (q : Ref) (n : ℕ) (w : V), q.buf = r.buf → q.rows[n]? = some j → (readRef s.bufs q)[n]? = some (some w) →
      (readRef (step P s (.write a i v)).2.bufs q)[n]? = some (some v) := by
  have hst : (step P s (.write a i v)).2.bufs = s.bufs.modify r.buf fun b => { b with rows := b.rows.set j v } := by simp [step, hr, hj]
  rw [hst]
  refine ⟨fun q hq => readRef_modify _ _ _ _ _ hq, fun q n w hb hn hw => ?_⟩
  simp only [readRef, List.getElem?_map, hn, Option.map_some, Option.some.injEq, hb, List.getElem?_modify] at hw ⊢
  cases hbb : s.bufs[r.buf]? with
  | none => rw [hbb] at hw; simp at hw
  | some bb =>
    rw [hbb] at hw
    simp only [Option.bind_some] at hw
    have hlt : j < bb.rows.length := by
      by_contra hge
      rw [List.getElem?_eq_none (by omega)] at hw
      simp at hw
    simp [hlt]

/-! ## Normalised values are the ensemble's own -/

/-- the ensemble an operation makes or rebuilds -/
def result (s : St V) : Op V → Option ℕ
  | .build _ _ _ _ => some s.enss.length
  | .getItem _ _ => some s.enss.length
  | .append e _ => some e
  | .update e _ _ _ => some e
  | .updateObjdata e _ _ => some e
  | _ => none

omit [DecidableEq V] in
/-- the normalised column of a new object is in a new buffer, the other columns are not -/
theorem construct_private {P : Params V} {k : RowKind} {c : String} {bufs : List (Buf V)} {cs : Cols} {out : List (Buf V) × Cols}
    {check : Bool} (hn : Normalised k c) (h : construct P k check bufs cs = some out) (hcs : ∀ p ∈ cs, p.2.buf < bufs.length) :
    ∀ q ∈ out.2, if q.1 = c then bufs.length ≤ q.2.buf else q.2.buf < bufs.length := by
  intro q hq
  obtain ⟨p, hp, h1, h2⟩ := forall₂_right (construct_spec h).2 hq
  rw [makesNew_norm P hn] at h2
  simp only [decide_eq_true_eq] at h2
  rw [h1]
  split_ifs at h2 ⊢ with hpc
  · exact h2.1
  · rw [h2]; exact hcs p hp

omit [DecidableEq V] in
/-- a column in a buffer that is newer than everything else is private -/
theorem private_of {s : St V} {h : ℕ} {c : String} {n : ℕ} {o : Obj} (ho : s.enss[h]? = some o)
    (hc : ∀ q ∈ o.cols, if q.1 = c then n ≤ q.2.buf else q.2.buf < n) (hv : ∀ r ∈ s.vars, r.buf < n)
    (hd : ∀ cs ∈ s.dicts, ∀ p ∈ cs, p.2.buf < n)
    (he : ∀ (i : ℕ) (o' : Obj), i ≠ h → s.enss[i]? = some o' → ∀ p ∈ o'.cols, p.2.buf < n) : Private s h c := by
  intro o' ho' r hr hu
  obtain rfl := Option.some.inj (ho.symm.trans ho')
  have hn := hc (c, r) hr
  simp only [if_true] at hn
  rcases hu with ⟨q, hq, hb⟩ | ⟨cs, hcs, p, hp, hb⟩ | ⟨i, o₂, ho₂, p, hp, hne, hb⟩
  · have := hv q hq; omega
  · have := hd cs hcs p hp; omega
  · by_cases hi : i = h
    · subst hi
      obtain rfl := Option.some.inj (ho.symm.trans ho₂)
      have hpc : p.1 ≠ c := fun e => hne (by rw [e])
      have := hc p hp
      rw [if_neg hpc] at this
      omega
    · have := he i o₂ hi ho₂ p hp; omega

omit [DecidableEq V] in
theorem updateAt_private {P : Params V} {s : St V} {i : ℕ} {e : Obj} {cs : Cols} {ancil : Option ℕ} {c : String} {check : Bool} (hi : i < s.enss.length)
    (hn : Normalised e.kind c) (hcs : ∀ p ∈ cs, p.2.buf < s.bufs.length) (hu : ∀ b, Used s none b → b < s.bufs.length)
    (hok : (updateAt P s i e check cs ancil).1 = true) : Private (updateAt P s i e check cs ancil).2 i c := by
  rcases updateAt_spec P s i e check cs ancil with h | ⟨out, a, ok, hc, -, h⟩
  · rw [h] at hok; simp at hok
  · rw [h]
    refine private_of (n := s.bufs.length) (o := ⟨e.kind, check, out.2, a⟩) (by simp [hi]) (construct_private hn hc hcs)
      (fun r hr => hu _ (used_var hr)) (fun cs hcs p hp => hu _ (Or.inr (Or.inl ⟨cs, hcs, p, hp, rfl⟩))) (fun j o' hj ho' p hp => ?_)
    simp only [List.getElem?_set_ne (Ne.symm hj)] at ho'
    exact hu _ (used_ens ho' hp (by simp))

/-- **C126.** The normalised column of an ensemble (histogram contents, interpolated values, mixture weights) that was built, selected, appended to
or updated, whatever `check_input` says, lives in memory of its own: no array of the program, no dictionary and no other
column of any ensemble shares it. -/
theorem C126_values_private {P : Params V} {s : St V} (hs : Reachable P s) (op : Op V) (h : ℕ) (hr : result s op = some h)
    (hok : (step P s op).1 = true) (o : Obj) (c : String) (ho : (step P s op).2.enss[h]? = some o) (hn : Normalised o.kind c) :
    Private (step P s op).2 h c := by
  have hS := reachable_sound hs
  have hcol : ∀ {i : ℕ} {o : Obj}, s.enss[i]? = some o → ∀ p ∈ o.cols, p.2.buf < s.bufs.length :=
    fun ho p hp => hS.bufs _ (used_ens ho hp (by simp))
  have hdict : ∀ cs ∈ s.dicts, ∀ p ∈ cs, p.2.buf < s.bufs.length := fun cs hcs p hp => hS.bufs _ (Or.inr (Or.inl ⟨cs, hcs, p, hp, rfl⟩))
  cases op with
  | build k check cols ancil =>
    obtain rfl := Option.some.inj hr
    simp only [step] at hok ho ⊢
    split at hok
    · rename_i cs anc hcs hanc
      simp only [hcs, hanc] at ho ⊢
      split at hok
      · simp at hok
      · rename_i out hcon
        simp only [hcon] at ho ⊢
        split_ifs at hok ho ⊢ with hf
        simp only [List.getElem?_concat_length, Option.some.injEq] at ho
        subst ho
        refine private_of (n := s.bufs.length) (o := ⟨k, check, out.2, anc⟩) (by simp)
          (construct_private hn hcon fun p hp => hS.bufs _ (used_var (mem_argCols hcs hp))) (fun r hr => hS.bufs _ (used_var hr)) hdict ?_
        intro i o' hi ho' p hp
        rw [List.getElem?_append] at ho'
        split_ifs at ho' with hlt
        · exact hcol ho' p hp
        · exfalso
          have hl := (List.getElem?_eq_some_iff.1 ho').1
          simp at hl
          omega
    · simp at hok
  | getItem e key =>
    obtain rfl := Option.some.inj hr
    simp only [step] at hok ho ⊢
    split at hok
    · simp at hok
    · rename_i o₀ ho₀
      simp only [ho₀] at ho ⊢
      have hh : getItemAt P s o₀ key = (true, (getItemAt P s o₀ key).2) := Prod.ext hok rfl
      obtain ⟨data, sub, out, h1, h2, h3, h4⟩ := getItemAt_spec hh
      rw [h4] at ho ⊢
      simp only [List.getElem?_concat_length, Option.some.injEq] at ho
      subst ho
      have l1 := (sliceCols_ext h1).le
      have l2 := (sliceAncilAt_ext h2).le
      refine private_of (n := sub.1.length) (o := ⟨o₀.kind, o₀.recheck, out.2, sub.2.map fun _ => s.dicts.length⟩) (by simp)
        (construct_private hn h3 fun p hp => ?_) (fun r hr => ?_) (fun cs hcs p hp => ?_) ?_
      · rcases List.mem_append.1 hp with hp | hp
        · have := hcol ho₀ p (List.mem_filter.1 hp).1; omega
        · rcases slice_used h1 hp with ⟨q, hq, -, hqb⟩ | hq
          · have := hcol ho₀ q (List.mem_filter.1 hq).1; omega
          · omega
      · have := hS.bufs _ (used_var (skip := none) hr); omega
      · simp only [List.mem_append] at hcs
        rcases hcs with hcs | hcs
        · have := hdict cs hcs p hp; omega
        · cases ha : o₀.ancil with
          | none =>
            rw [ha] at h2
            simp only [sliceAncilAt] at h2
            obtain rfl := Option.some.inj h2
            simp at hcs
          | some d =>
            rw [ha] at h2
            simp only [sliceAncilAt, Option.map_eq_some_iff] at h2
            obtain ⟨a, ha', rfl⟩ := h2
            simp only [Option.toList_some, List.mem_singleton] at hcs
            subst hcs
            rcases slice_used ha' hp with ⟨q, hq, -, hqb⟩ | hq
            · have := hS.bufs _ (used_dict (skip := none) hq)
              dsimp only at l2 ⊢
              omega
            · exact hq.2
      · intro i o' hi ho' p hp
        rw [List.getElem?_append] at ho'
        split_ifs at ho' with hlt
        · have := hcol ho' p hp; omega
        · exfalso
          have hl := (List.getElem?_eq_some_iff.1 ho').1
          simp at hl
          omega
  | append e o' =>
    obtain rfl := Option.some.inj hr
    simp only [step] at hok ho ⊢
    split at hok
    · rename_i e₁ e₂ he₁ he₂
      simp only [he₁, he₂] at ho ⊢
      rcases appendAt_spec P s e e₁ e₂ with hf | ⟨data, bufs, dicts, ancil, h1, h2, h3, hf⟩
      · rw [hf] at hok; simp at hok
      · rw [hf] at hok ho ⊢
        have hi : e < s.enss.length := (List.getElem?_eq_some_iff.1 he₁).1
        have hk : o.kind = e₁.kind := by
          rcases updateAt_spec P { s with bufs := bufs, dicts := s.dicts ++ dicts } e e₁ e₁.recheck (e₁.cols.filter e₁.isMeta ++ data.2)
            ancil with hu | ⟨out, a, ok, hcc, -, hu⟩
          · rw [hu] at hok; simp at hok
          · rw [hu] at ho
            simp only [List.getElem?_set, hi, if_true] at ho
            obtain rfl := Option.some.inj ho
            rfl
        rw [hk] at hn
        obtain ⟨e1, f1⟩ := concatCols_spec h1
        have l1 := e1.le
        have l2 := h2.le
        refine updateAt_private hi hn (fun p hp => ?_) (fun b hb => ?_) hok
        · dsimp only
          rcases List.mem_append.1 hp with hp | hp
          · have := hcol he₁ p (List.mem_filter.1 hp).1; omega
          · obtain ⟨q, -, -, h5, h6⟩ := forall₂_right f1 hp
            omega
        · dsimp only
          rcases hb with ⟨r, hr, rfl⟩ | ⟨cs', hcs', p, hp, rfl⟩ | ⟨j, o', ho', p, hp, hne, rfl⟩
          · have := hS.bufs _ (used_var (skip := none) hr); omega
          · simp only [List.mem_append] at hcs'
            rcases hcs' with hcs' | hcs'
            · have := hdict cs' hcs' p hp; omega
            · rcases h3 with ⟨rfl, -⟩ | ⟨d, d', a, -, -, ha, rfl, rfl, -⟩
              · simp at hcs'
              · simp only [List.mem_singleton] at hcs'
                subst hcs'
                obtain ⟨q, -, -, h5, h6⟩ := forall₂_right (concatCols_spec ha).2 hp
                exact h6
          · have := hcol ho' p hp; omega
    · simp at hok
  | update e check cols ancil =>
    obtain rfl := Option.some.inj hr
    simp only [step] at hok ho ⊢
    split at hok
    · rename_i o₁ cs anc ho₁ hcs hanc
      simp only [ho₁, hcs, hanc] at ho ⊢
      have hi : e < s.enss.length := (List.getElem?_eq_some_iff.1 ho₁).1
      have hk : o.kind = o₁.kind := by
        rcases updateAt_spec P s e o₁ check cs anc with hu | ⟨out, a, ok, hcc, -, hu⟩
        · rw [hu] at hok; simp at hok
        · rw [hu] at ho
          simp only [List.getElem?_set, hi, if_true] at ho
          obtain rfl := Option.some.inj ho
          rfl
      rw [hk] at hn
      exact updateAt_private hi hn (fun p hp => hS.bufs _ (used_var (mem_argCols hcs hp))) hS.bufs hok
    · simp at hok
  | updateObjdata e cols ancil =>
    obtain rfl := Option.some.inj hr
    simp only [step] at hok ho ⊢
    split at hok
    · rename_i o₁ cs anc ho₁ hcs hanc
      simp only [ho₁, hcs, hanc] at ho ⊢
      have hi : e < s.enss.length := (List.getElem?_eq_some_iff.1 ho₁).1
      have hk : o.kind = o₁.kind := by
        rcases updateAt_spec P s e o₁ o₁.recheck (updateCols o₁.cols cs) anc with hu | ⟨out, a, ok, hcc, -, hu⟩
        · rw [hu] at hok; simp at hok
        · rw [hu] at ho
          simp only [List.getElem?_set, hi, if_true] at ho
          obtain rfl := Option.some.inj ho
          rfl
      rw [hk] at hn
      refine updateAt_private hi hn (fun p hp => ?_) hS.bufs hok
      rcases mem_updateCols hp with hp | hp
      · exact hcol ho₁ p hp
      · exact hS.bufs _ (used_var (mem_argCols hcs hp))
    · simp at hok
  | array | view | write | dict | dictSet | dictGet | ancilOf | column | setAncil | addToAncil => simp [result] at hr

theorem isolated_step {P : Params V} {s : St V} (hS : Sound s) {h : ℕ} {o : Obj} {c : String} (ho : s.enss[h]? = some o)
    (hn : Normalised o.kind c) (hp : Private s h c) {op : Op V} (hop : rebuilds op ≠ some h ∧ ¬ takes op h c) :
    ∃ o', (step P s op).2.enss[h]? = some o' ∧ o'.kind = o.kind ∧ o'.cols = o.cols ∧
      (∀ r, (c, r) ∈ o.cols → readRef (step P s op).2.bufs r = readRef s.bufs r) ∧ Private (step P s op).2 h c := by
  have hlt : ∀ r, (c, r) ∈ o.cols → r.buf < s.bufs.length := fun r hr => hS.bufs _ (used_ens ho hr (by simp))
  have hlen : h < s.enss.length := (List.getElem?_eq_some_iff.1 ho).1
  have hobj : ∃ o', (step P s op).2.enss[h]? = some o' ∧ o'.kind = o.kind ∧ o'.cols = o.cols := by
    by_cases hw : writesInPlace op
    · exact ⟨o, by rw [(inPlace_bufs P s op hw).2.2.2.2]; exact ho, rfl, rfl⟩
    · by_cases hch : changes op = some h
      · cases op with
        | setAncil e ancil =>
          obtain rfl := Option.some.inj hch
          simp only [step, ho]
          cases ha : argDict s.dvars ancil with
          | none => exact ⟨o, ho, rfl, rfl⟩
          | some anc =>
            simp only
            split_ifs
            · exact ⟨{ o with ancil := anc }, by simp [St.setEns, hlen], rfl, rfl⟩
            · exact ⟨o, ho, rfl, rfl⟩
        | append e x => exact absurd hch hop.1
        | update e x y z => exact absurd hch hop.1
        | updateObjdata e x y => exact absurd hch hop.1
        | array | view | write | dict | dictSet | dictGet | ancilOf | column | build | getItem | addToAncil => simp [changes] at hch
      · exact ⟨o, by rw [(step_grow P s op hw).enss h hlen hch]; exact ho, rfl, rfl⟩
  obtain ⟨o', ho', hk, hcols⟩ := hobj
  refine ⟨o', ho', hk, hcols, fun r hr => ?_, fun o₂ ho₂ r hr hu => ?_⟩
  · by_cases hw : writesInPlace op
    · cases op <;> simp only [writesInPlace] at hw
      case write a i v =>
        simp only [step]
        split
        · rfl
        · rename_i q hq
          split
          · rfl
          · refine readRef_modify _ _ _ _ _ fun hb => ?_
            exfalso
            exact hp o ho r hr (hb ▸ used_var (List.mem_of_getElem? hq))
      case dictSet d k a =>
        simp only [step]
        split <;> rfl
      case addToAncil e d =>
        simp only [step]
        split
        · split
          · rfl
          · split_ifs <;> rfl
        · rfl
    · obtain ⟨x, hx⟩ := (step_grow P s op hw).bufs
      rw [hx]
      exact readRef_append _ _ _ (hlt r hr)
  · obtain rfl := Option.some.inj (ho'.symm.trans ho₂)
    rw [hcols] at hr
    have hsk : SkipOk s (some (h, c)) := fun h' c' he => by
      simp only [Option.some.injEq, Prod.mk.injEq] at he
      obtain ⟨rfl, rfl⟩ := he
      exact ⟨o, ho, hn⟩
    rcases step_used hsk (fun h' c' he => by
      simp only [Option.some.injEq, Prod.mk.injEq] at he
      obtain ⟨rfl, rfl⟩ := he
      exact hop) hu with h1 | h1
    · exact hp o ho r hr h1
    · have := hlt r hr
      omega

/-- **C126.** Such a column stays as it is through any program, writes into any array included, as long as the program does not give the
ensemble other PDFs and does not take the column itself out with `objdata()`.
Missing: isolation of grids, other arrays and ancillary data, which selections by slices share (`C126_slice_shares`). -/
theorem C126_values_isolated_partial {P : Params V} {s : St V} (hs : Reachable P s) {h : ℕ} {o : Obj} {c : String} (ho : s.enss[h]? = some o)
    (hn : Normalised o.kind c) (hp : Private s h c) (ops : List (Op V)) (hops : ∀ op ∈ ops, rebuilds op ≠ some h ∧ ¬ takes op h c) :
    ∃ o', (run P s ops).enss[h]? = some o' ∧ o'.cols = o.cols ∧
      ∀ r, (c, r) ∈ o.cols → readRef (run P s ops).bufs r = readRef s.bufs r := by
  have gen : ∀ (ops : List (Op V)) (s : St V) (o : Obj), Sound s → s.enss[h]? = some o → Normalised o.kind c → Private s h c →
      (∀ op ∈ ops, rebuilds op ≠ some h ∧ ¬ takes op h c) → ∃ o', (run P s ops).enss[h]? = some o' ∧ o'.cols = o.cols ∧
      ∀ r, (c, r) ∈ o.cols → readRef (run P s ops).bufs r = readRef s.bufs r := by
    intro ops
    induction ops with
    | nil => intro s o _ ho _ _ _; exact ⟨o, ho, rfl, fun _ _ => rfl⟩
    | cons op ops ih =>
      intro s o hS ho hn hp hops
      obtain ⟨o₁, ho₁, hk, hc, hr, hp₁⟩ := isolated_step (P := P) hS ho hn hp (hops op List.mem_cons_self)
      obtain ⟨o', ho', hc', hr'⟩ := ih (step P s op).2 o₁ (sound_step P s op hS) ho₁ (by rw [hk]; exact hn) hp₁
        (fun op' h' => hops op' (List.mem_cons_of_mem _ h'))
      exact ⟨o', ho', hc'.trans hc, fun r hr0 => (hr' r (by rw [hc]; exact hr0)).trans (hr r hr0)⟩
  exact gen ops s o (reachable_sound hs) ho hn hp hops

/-! ## What a selection shares -/

omit [DecidableEq V] in
theorem sliceCols_slice {a b st : Option ℤ} {cs : Cols} : ∀ {bufs : List (Buf V)} {out : List (Buf V) × Cols},
    sliceCols (.slice a b st) bufs cs = some out → out.1 = bufs ∧ List.Forall₂ (fun p q => q.1 = p.1 ∧ q.2.buf = p.2.buf ∧
      ∃ is, sliceIndices p.2.rows.length a b st = .ok is ∧ q.2.rows = is.map fun i => p.2.rows.getD i 0) cs out.2 := by
  induction cs with
  | nil => intro bufs out h; obtain rfl := Option.some.inj h; exact ⟨rfl, List.Forall₂.nil⟩
  | cons p cs ih =>
    intro bufs out h
    obtain ⟨name, r⟩ := p
    simp only [sliceCols] at h
    split at h
    · simp at h
    · rename_i x hx
      simp only [sliceRef, Key.resolve] at hx
      cases hi : sliceIndices r.rows.length a b st with
      | error e => rw [hi] at hx; simp [Except.map] at hx
      | ok is =>
        rw [hi] at hx
        simp only [Except.map, Option.some.injEq] at hx
        subst hx
        split at h
        · simp at h
        · rename_i rest hrest
          obtain rfl := Option.some.inj h
          obtain ⟨h1, h2⟩ := ih (out := rest) hrest
          exact ⟨h1, List.Forall₂.cons ⟨rfl, rfl, is, hi, rfl⟩ h2⟩

/-- **C126.** What `ens[a:b:st]` shares with `ens`: the arrays of the metadata (the grid) are the same arrays, the columns of the ancillary data
are views of the columns of the ensemble, and so are the columns of the object data that are not normalised (the means and standard
deviations of mixtures, the grids of irregular PDFs, packed, spline and sparse data). Only the dictionary is new. (For quantiles the same holds unless
they are padded.) -/
theorem C126_slice_shares {P : Params V} {s : St V} {e : ℕ} {o : Obj} (ho : s.enss[e]? = some o) (hq : o.kind ≠ .quant)
    (a b st : Option ℤ) (hok : (step P s (.getItem e (.slice a b st))).1 = true) :
    ∃ o', (step P s (.getItem e (.slice a b st))).2.enss[s.enss.length]? = some o' ∧
      (∀ p ∈ o.cols, p.1 ∈ metaNames o.kind → p ∈ o'.cols) ∧
      (∀ p ∈ o.cols, p.1 ∉ metaNames o.kind → ¬ Normalised o.kind p.1 → ∃ r is, (p.1, r) ∈ o'.cols ∧ r.buf = p.2.buf ∧
        sliceIndices p.2.rows.length a b st = .ok is ∧ r.rows = is.map fun i => p.2.rows.getD i 0) ∧
      ∀ (d : ℕ) (cs : Cols), o.ancil = some d → s.dicts[d]? = some cs → o'.ancil = some s.dicts.length ∧
        ∃ cs', (step P s (.getItem e (.slice a b st))).2.dicts[s.dicts.length]? = some cs' ∧
          List.Forall₂ (fun p q => q.1 = p.1 ∧ q.2.buf = p.2.buf ∧ ∃ is, sliceIndices p.2.rows.length a b st = .ok is ∧
            q.2.rows = is.map fun i => p.2.rows.getD i 0) cs cs' := by
  simp only [step, ho] at hok ⊢
  have hh : getItemAt P s o (.slice a b st) = (true, (getItemAt P s o (.slice a b st)).2) := Prod.ext hok rfl
  obtain ⟨data, sub, out, h1, h2, h3, h4⟩ := getItemAt_spec hh
  rw [h4]
  have hkeep : ∀ p ∈ o.cols.filter o.isMeta ++ data.2, ¬ Normalised o.kind p.1 → p ∈ out.2 := by
    intro p hp hn
    obtain ⟨q, hq', e1, e2⟩ := forall₂_left (construct_spec h3).2 hp
    have hmk : makesNew P o.kind o.recheck (readCols sub.1 (o.cols.filter o.isMeta ++ data.2)) p.1 = false := by
      cases hk : o.kind <;> simp only [hk, Normalised, reduceCtorEq, false_and, false_or, or_false, true_and, makesNew, ne_eq, not_true_eq_false] at hn hq ⊢ <;>
        simp [hn]
    rw [if_neg (by simp [hmk])] at e2
    have : q = p := Prod.ext e1 e2
    exact this ▸ hq'
  have hnm : ∀ p : String × Ref, p.1 ∈ metaNames o.kind → ¬ Normalised o.kind p.1 := fun p hp hn => norm_not_meta hn hp
  obtain ⟨hb1, hf1⟩ := sliceCols_slice h1
  refine ⟨⟨o.kind, o.recheck, out.2, sub.2.map fun _ => s.dicts.length⟩, by simp, fun p hp hm => ?_, fun p hp hm hn => ?_, fun d cs hd hcs => ?_⟩
  · refine hkeep p (List.mem_append_left _ (List.mem_filter.2 ⟨hp, ?_⟩)) (hnm p hm)
    simp [Obj.isMeta, hm]
  · have hp' : p ∈ o.cols.filter fun p => !o.isMeta p := List.mem_filter.2 ⟨hp, by simp [Obj.isMeta, hm]⟩
    obtain ⟨q, hq', e1, e2, is, e3, e4⟩ := forall₂_left hf1 hp'
    refine ⟨q.2, is, ?_, e2, e3, e4⟩
    rw [← e1]
    exact hkeep q (List.mem_append_right _ hq') (by rw [e1]; exact hn)
  · rw [hd] at h2
    simp only [sliceAncilAt, hcs, Option.getD_some, Option.map_eq_some_iff] at h2
    obtain ⟨x, hx, rfl⟩ := h2
    refine ⟨rfl, x.2, by simp, (sliceCols_slice hx).2⟩

/-- **C126.** Selecting by a list of positions or by a mask copies: the ancillary data of the new ensemble are in new memory, and so are all its columns except
the arrays of the metadata. -/
theorem C126_list_copies {P : Params V} {s : St V} {e : ℕ} {o : Obj} (ho : s.enss[e]? = some o) (hq : o.kind ≠ .quant) (key : Key)
    (hkey : (∃ m, key = .mask m) ∨ ∃ l, key = .list l) (hok : (step P s (.getItem e key)).1 = true) :
    ∃ o', (step P s (.getItem e key)).2.enss[s.enss.length]? = some o' ∧
      (∀ p ∈ o'.cols, p.1 ∉ metaNames o.kind → s.bufs.length ≤ p.2.buf) ∧ (∀ p ∈ o.cols, p.1 ∈ metaNames o.kind → p ∈ o'.cols) ∧
      ∀ (d : ℕ), o'.ancil = some d → d = s.dicts.length ∧
        ∀ p ∈ ((step P s (.getItem e key)).2.dicts[d]?).getD [], s.bufs.length ≤ p.2.buf := by
  simp only [step, ho] at hok ⊢
  have hh : getItemAt P s o key = (true, (getItemAt P s o key).2) := Prod.ext hok rfl
  obtain ⟨data, sub, out, h1, h2, h3, h4⟩ := getItemAt_spec hh
  rw [h4]
  have hcopy : ∀ (cs : Cols) (bufs : List (Buf V)) (out : List (Buf V) × Cols), sliceCols key bufs cs = some out →
      ∀ p ∈ out.2, bufs.length ≤ p.2.buf := by
    intro cs
    induction cs with
    | nil => intro bufs out h; obtain rfl := Option.some.inj h; simp
    | cons p cs ih =>
      intro bufs out h
      obtain ⟨name, r⟩ := p
      simp only [sliceCols] at h
      split at h
      · simp at h
      · rename_i x hx
        have hxb : x.2.buf = bufs.length ∧ x.1.length = bufs.length + 1 := by
          rcases hkey with ⟨m, rfl⟩ | ⟨l, rfl⟩
          · by_cases hm : m.length = r.rows.length
            · simp only [sliceRef, Key.resolve, if_pos hm, Option.some.injEq] at hx
              subst hx
              exact (copyRef_spec _ _).2
            · simp [sliceRef, Key.resolve, if_neg hm] at hx
          · simp only [sliceRef, Key.resolve] at hx
            cases hl : l.mapM (normIndex r.rows.length) with
            | error er => rw [hl] at hx; simp [Except.map] at hx
            | ok is =>
              rw [hl] at hx
              simp only [Except.map, Option.some.injEq] at hx
              subst hx
              exact (copyRef_spec _ _).2
        split at h
        · simp at h
        · rename_i rest hrest
          obtain rfl := Option.some.inj h
          intro p hp
          rcases List.mem_cons.1 hp with rfl | hp
          · exact hxb.1.ge
          · have := ih x.1 rest hrest p hp
            omega
  have l1 := (sliceCols_ext h1).le
  have l2 := (sliceAncilAt_ext h2).le
  refine ⟨⟨o.kind, o.recheck, out.2, sub.2.map fun _ => s.dicts.length⟩, by simp, fun p hp hm => ?_, fun p hp hm => ?_, fun d hd => ?_⟩
  · rcases construct_mem h3 hp with h | ⟨h, -⟩
    · omega
    · rcases List.mem_append.1 h with h | h
      · have := (List.mem_filter.1 h).2
        simp only [Obj.isMeta, decide_eq_true_eq] at this
        exact absurd this hm
      · exact hcopy _ _ _ h1 p h
  · have hp' : p ∈ o.cols.filter o.isMeta ++ data.2 := List.mem_append_left _ (List.mem_filter.2 ⟨hp, by simp [Obj.isMeta, hm]⟩)
    obtain ⟨q, hq', e1, e2⟩ := forall₂_left (construct_spec h3).2 hp'
    have hn : ¬ Normalised o.kind p.1 := fun hn => norm_not_meta hn hm
    have hmk : makesNew P o.kind o.recheck (readCols sub.1 (o.cols.filter o.isMeta ++ data.2)) p.1 = false := by
      cases hk : o.kind <;> simp only [hk, Normalised, reduceCtorEq, false_and, false_or, or_false, true_and, makesNew, ne_eq, not_true_eq_false] at hn hq ⊢ <;>
        simp [hn]
    rw [if_neg (by simp [hmk])] at e2
    have : q = p := Prod.ext e1 e2
    exact this ▸ hq'
  · cases ha : o.ancil with
    | none =>
      rw [ha] at h2
      simp only [sliceAncilAt] at h2
      obtain rfl := Option.some.inj h2
      simp at hd
    | some d' =>
      rw [ha] at h2
      simp only [sliceAncilAt, Option.map_eq_some_iff] at h2
      obtain ⟨x, hx, rfl⟩ := h2
      simp only [Option.map_some, Option.some.injEq] at hd
      subst hd
      refine ⟨rfl, fun p hp => ?_⟩
      simp only [Option.toList_some, List.getElem?_concat_length, Option.getD_some] at hp
      have := hcopy _ _ _ hx p hp
      omega

/-- the array `q` in the memory `bufs'` has the rows that the key selects from the array `r` in the memory `bufs` -/
def Picks (bufs bufs' : List (Buf V)) (key : Key) (r q : Ref) : Prop :=
  ∃ sel, key.resolve r.rows.length = .ok sel ∧ readRef bufs' q = (selRows sel).map fun i => ((readRef bufs r)[i]?).join

omit [DecidableEq V] in
theorem read_view (bufs : List (Buf V)) (r : Ref) (is : List ℕ) (h : ∀ i ∈ is, i < r.rows.length) :
    readRef bufs ⟨r.buf, is.map fun i => r.rows.getD i 0⟩ = is.map fun i => ((readRef bufs r)[i]?).join := by
  simp only [readRef, List.map_map]
  refine List.map_congr_left fun i hi => ?_
  have := h i hi
  simp [List.getD_eq_getElem?_getD, this]

omit [DecidableEq V] in
theorem read_copy (bufs : List (Buf V)) (r : Ref) (h : ∀ x ∈ readRef bufs r, x.isSome = true) : readRef (copyRef bufs r).1 (copyRef bufs r).2 = readRef bufs r := by
  have hsome : ∃ l : List V, readRef bufs r = l.map some := by
    refine ⟨(readRef bufs r).filterMap id, ?_⟩
    generalize readRef bufs r = l at h
    induction l with
    | nil => rfl
    | cons a l ih =>
      cases a with
      | none => simpa using h none List.mem_cons_self
      | some a => simpa using ih fun x hx => h x (List.mem_cons_of_mem _ hx)
  obtain ⟨l, hl⟩ := hsome
  rw [copyRef, hl]
  have : (l.map some).filterMap id = l := by simp [List.filterMap_map]
  rw [this]
  simp only [alloc, readRef, List.getElem?_concat_length, Option.bind_some]
  apply List.ext_getElem?
  intro i
  by_cases hi : i < l.length
  · simp [hi]
  · simp [not_lt.1 hi]

omit [DecidableEq V] in
theorem sliceRef_picks {bufs : List (Buf V)} {key : Key} {r : Ref} {out : List (Buf V) × Ref} (h : sliceRef bufs key r = some out)
    (hr : ∀ x ∈ readRef bufs r, x.isSome = true) : Picks bufs out.1 key r out.2 := by
  have hpick : ∀ is : List ℕ, (∀ i ∈ is, i < r.rows.length) → ∀ x ∈ readRef bufs ⟨r.buf, is.map fun i => r.rows.getD i 0⟩, x.isSome = true := by
    intro is his x hx
    rw [read_view bufs r is his] at hx
    obtain ⟨i, hi, rfl⟩ := List.mem_map.1 hx
    have hlt : i < (readRef bufs r).length := by simpa [readRef] using his i hi
    rw [List.getElem?_eq_getElem hlt]
    exact hr _ (List.getElem_mem hlt)
  unfold sliceRef at h
  cases hk : key.resolve r.rows.length with
  | error e => rw [hk] at h; simp at h
  | ok sel =>
    have hlt := Verif.Lemmas.resolve_lt hk
    rw [hk] at h
    refine ⟨sel, hk, ?_⟩
    cases sel with
    | one i =>
      simp only [selRows] at hlt ⊢
      have e := read_view bufs r [i] hlt
      have e2 := hpick [i] hlt
      simp only [List.map_cons, List.map_nil] at e e2 ⊢
      obtain rfl := Option.some.inj h
      split_ifs
      · rw [read_copy _ _ e2, e]
      · exact e
    | many is =>
      simp only [selRows] at hlt ⊢
      have e := read_view bufs r is hlt
      have e2 := hpick is hlt
      cases key <;> obtain rfl := Option.some.inj h
      · exact e
      · exact e
      · rw [read_copy _ _ e2, e]
      · rw [read_copy _ _ e2, e]

omit [DecidableEq V] in
theorem sliceRef_lt {bufs : List (Buf V)} {key : Key} {r : Ref} {out : List (Buf V) × Ref} (h : sliceRef bufs key r = some out) (hr : r.buf < bufs.length) :
    out.2.buf < out.1.length := by
  rcases (sliceRef_spec h).2 with ⟨h1, h2⟩ | ⟨h1, h2⟩
  · rw [h1, h2]; exact hr
  · omega

omit [DecidableEq V] in
theorem sliceCols_picks {key : Key} {cs : Cols} : ∀ {bufs : List (Buf V)} {out : List (Buf V) × Cols}, sliceCols key bufs cs = some out →
    (∀ p ∈ cs, p.2.buf < bufs.length) → List.Forall₂ (fun p q => q.1 = p.1 ∧ q.2.buf < out.1.length ∧
      ((∀ x ∈ readRef bufs p.2, x.isSome = true) → Picks bufs out.1 key p.2 q.2)) cs out.2 := by
  induction cs with
  | nil => intro bufs out h _; obtain rfl := Option.some.inj h; exact List.Forall₂.nil
  | cons p cs ih =>
    intro bufs out h hlt
    obtain ⟨name, r⟩ := p
    simp only [sliceCols] at h
    split at h
    · simp at h
    · rename_i a ha
      split at h
      · simp at h
      · rename_i rest hrest
        obtain rfl := Option.some.inj h
        have hr := hlt (name, r) List.mem_cons_self
        have h1 := sliceRef_spec ha
        obtain ⟨x, hx⟩ := h1.1
        have h2 := sliceCols_ext hrest
        obtain ⟨y, hy⟩ := h2
        have hl := sliceRef_lt ha hr
        have hlt' : ∀ p ∈ cs, p.2.buf < bufs.length := fun p hp => hlt p (List.mem_cons_of_mem _ hp)
        refine List.Forall₂.cons ⟨rfl, ?_, fun hs => ?_⟩ ?_
        · have := (Ext.le ⟨y, hy⟩ : a.1.length ≤ rest.1.length)
          dsimp only; omega
        · obtain ⟨sel, e1, e2⟩ := sliceRef_picks ha hs
          refine ⟨sel, e1, ?_⟩
          dsimp only
          rw [hy, readRef_append _ _ _ hl, e2]
        · have hf := ih hrest fun p hp => by have := hlt' p hp; have := h1.1.le; omega
          have hboth : List.Forall₂ (fun p q => p ∈ cs ∧ _) cs rest.2 := (List.forall₂_and_left cs rest.2).2 ⟨fun p hp => hp, hf⟩
          refine hboth.imp fun p q hpq => ⟨hpq.2.1, hpq.2.2.1, fun hs => ?_⟩
          have hread : readRef a.1 p.2 = readRef bufs p.2 := by rw [hx, readRef_append _ _ _ (hlt' p hpq.1)]
          obtain ⟨sel, e1, e2⟩ := hpq.2.2.2 (by rw [hread]; exact hs)
          exact ⟨sel, e1, by rw [e2, hread]⟩

theorem common_meta {k : RowKind} {c : String} : CommonGrid k c ↔ c ∈ metaNames k := by
  cases k <;> simp [CommonGrid, metaNames]

theorem common_not_normalised {k : RowKind} {c : String} (h : CommonGrid k c) : ¬ Normalised k c := by
  rcases h with ⟨rfl, rfl⟩ | ⟨rfl, rfl⟩ | ⟨rfl, rfl⟩ | ⟨rfl, rfl⟩ | ⟨rfl, h⟩ <;> simp [Normalised]

/-- **C126.** What a selection holds, in a view or in a copy: for every key, the columns of the object data that are not normalised, and the columns of the ancillary
data, hold the selected rows of the columns of the ensemble, under the same names. (Normalised columns: C32.) What all PDFs have in common is not selected from: the
selection refers to the same array. -/
theorem C126_selection_holds {P : Params V} {s : St V} (hs : Reachable P s) {e : ℕ} {o : Obj} (ho : s.enss[e]? = some o) (hq : o.kind ≠ .quant) (key : Key)
    (hok : (step P s (.getItem e key)).1 = true) :
    ∃ o', (step P s (.getItem e key)).2.enss[s.enss.length]? = some o' ∧
      (∀ p ∈ o.cols, CommonGrid o.kind p.1 → p ∈ o'.cols) ∧
      (∀ p ∈ o.cols, ¬ CommonGrid o.kind p.1 → ¬ Normalised o.kind p.1 → (∀ x ∈ readRef s.bufs p.2, x.isSome = true) →
        ∃ r, (p.1, r) ∈ o'.cols ∧ Picks s.bufs (step P s (.getItem e key)).2.bufs key p.2 r) ∧
      ∀ (d : ℕ) (cs : Cols), o.ancil = some d → s.dicts[d]? = some cs → (∀ p ∈ cs, ∀ x ∈ readRef s.bufs p.2, x.isSome = true) →
        o'.ancil = some s.dicts.length ∧ ∃ cs', (step P s (.getItem e key)).2.dicts[s.dicts.length]? = some cs' ∧
          List.Forall₂ (fun p q => q.1 = p.1 ∧ Picks s.bufs (step P s (.getItem e key)).2.bufs key p.2 q.2) cs cs' := by
  have hS := reachable_sound hs
  simp only [step, ho] at hok ⊢
  have hh : getItemAt P s o key = (true, (getItemAt P s o key).2) := Prod.ext hok rfl
  obtain ⟨data, sub, out, h1, h2, h3, h4⟩ := getItemAt_spec hh
  rw [h4]
  obtain ⟨x1, hx1⟩ := sliceCols_ext h1
  obtain ⟨x2, hx2⟩ := sliceAncilAt_ext h2
  obtain ⟨x3, hx3⟩ := (construct_spec h3).1
  have hcol : ∀ p ∈ o.cols, p.2.buf < s.bufs.length := fun p hp => hS.bufs _ (used_ens ho hp (by simp))
  have hkeep : ∀ p ∈ o.cols.filter o.isMeta ++ data.2, ¬ Normalised o.kind p.1 → p ∈ out.2 := by
    intro p hp hn
    obtain ⟨q, hq', e1, e2⟩ := forall₂_left (construct_spec h3).2 hp
    have hmk : makesNew P o.kind o.recheck (readCols sub.1 (o.cols.filter o.isMeta ++ data.2)) p.1 = false := by
      cases hk : o.kind <;> simp only [hk, Normalised, reduceCtorEq, false_and, false_or, or_false, true_and, makesNew, ne_eq, not_true_eq_false] at hn hq ⊢ <;>
        simp [hn]
    rw [if_neg (by simp [hmk])] at e2
    have : q = p := Prod.ext e1 e2
    exact this ▸ hq'
  refine ⟨⟨o.kind, o.recheck, out.2, sub.2.map fun _ => s.dicts.length⟩, by simp, fun p hp hm => ?_, fun p hp hm hn hr => ?_, fun d cs hd hcs hr => ?_⟩
  · exact hkeep p (List.mem_append_left _ (List.mem_filter.2 ⟨hp, by simpa [Obj.isMeta] using common_meta.1 hm⟩)) (common_not_normalised hm)
  · have hp' : p ∈ o.cols.filter fun p => !o.isMeta p := List.mem_filter.2 ⟨hp, by simpa [Obj.isMeta] using mt common_meta.2 hm⟩
    have hf := sliceCols_picks h1 fun p hp => hcol p (List.mem_filter.1 hp).1
    obtain ⟨q, hq', e1, e2, e3⟩ := forall₂_left hf hp'
    obtain ⟨sel, e4, e5⟩ := e3 hr
    refine ⟨q.2, ?_, sel, e4, ?_⟩
    · rw [← e1]
      exact hkeep q (List.mem_append_right _ hq') (by rw [e1]; exact hn)
    · show readRef out.1 q.2 = _
      rw [hx3, hx2, List.append_assoc, readRef_append _ _ _ e2, e5]
  · rw [hd] at h2
    simp only [sliceAncilAt, hcs, Option.getD_some, Option.map_eq_some_iff] at h2
    obtain ⟨x, hx, rfl⟩ := h2
    have hcd : ∀ p ∈ cs, p.2.buf < s.bufs.length := fun p hp =>
      hS.bufs _ (Or.inr (Or.inl ⟨cs, List.mem_of_getElem? hcs, p, hp, rfl⟩))
    have hf := sliceCols_picks hx fun p hp => by have := hcd p hp; rw [hx1, List.length_append]; omega
    have hboth : List.Forall₂ (fun p q => p ∈ cs ∧ _) cs x.2 := (List.forall₂_and_left cs x.2).2 ⟨fun p hp => hp, hf⟩
    refine ⟨rfl, x.2, by simp, hboth.imp fun p q hpq => ⟨hpq.2.1, ?_⟩⟩
    have hread : readRef data.1 p.2 = readRef s.bufs p.2 := by rw [hx1, readRef_append _ _ _ (hcd p hpq.1)]
    obtain ⟨sel, e1, e2⟩ := hpq.2.2.2 (by rw [hread]; exact hr p hpq.1)
    refine ⟨sel, e1, ?_⟩
    show readRef out.1 q.2 = _
    rw [hx3, readRef_append _ _ _ hpq.2.2.1, e2, hread]

omit [DecidableEq V] in
theorem sliceCols_int {i : ℤ} {cs : Cols} : ∀ {bufs : List (Buf V)} {out : List (Buf V) × Cols}, sliceCols (.int i) bufs cs = some out →
    (∀ p ∈ cs, p.2.buf < bufs.length) → List.Forall₂ (fun p q => q.1 = p.1 ∧ if isOneD bufs p.2 then bufs.length ≤ q.2.buf else q.2.buf = p.2.buf) cs out.2 := by
  induction cs with
  | nil => intro bufs out h _; obtain rfl := Option.some.inj h; exact List.Forall₂.nil
  | cons p cs ih =>
    intro bufs out h hlt
    obtain ⟨name, r⟩ := p
    simp only [sliceCols] at h
    split at h
    · simp at h
    · rename_i a ha
      split at h
      · simp at h
      · rename_i rest hrest
        obtain rfl := Option.some.inj h
        have hlt' : ∀ p ∈ cs, p.2.buf < bufs.length := fun p hp => hlt p (List.mem_cons_of_mem _ hp)
        have hle := (sliceRef_spec ha).1.le
        obtain ⟨x, hx⟩ := (sliceRef_spec ha).1
        refine List.Forall₂.cons ⟨rfl, ?_⟩ ?_
        · simp only [sliceRef, Key.resolve] at ha
          cases hn : normIndex r.rows.length i with
          | error e => rw [hn] at ha; simp [Except.map] at ha
          | ok j =>
            rw [hn] at ha
            simp only [Except.map, Option.some.injEq] at ha
            subst ha
            split_ifs
            · exact (copyRef_spec _ _).2.1.ge
            · rfl
        · have hf := ih hrest fun p hp => by have := hlt' p hp; omega
          have hboth : List.Forall₂ (fun p q => p ∈ cs ∧ _) cs rest.2 := (List.forall₂_and_left cs rest.2).2 ⟨fun p hp => hp, hf⟩
          refine hboth.imp fun p q hpq => ⟨hpq.2.1, ?_⟩
          have he : isOneD a.1 p.2 = isOneD bufs p.2 := by
            unfold isOneD
            rw [hx, List.getElem?_append_left (hlt' p hpq.1)]
          have h2 := hpq.2.2
          rw [he] at h2
          split_ifs at h2 ⊢
          · omega
          · exact h2

/-- **C126.** What `ens[i]` shares with `ens`: columns of the ancillary data with one number per PDF are copied, columns with several are views. -/
theorem C126_int_shares {P : Params V} {s : St V} (hs : Reachable P s) {e : ℕ} {o : Obj} (ho : s.enss[e]? = some o) (i : ℤ)
    (hok : (step P s (.getItem e (.int i))).1 = true) (d : ℕ) (cs : Cols) (hd : o.ancil = some d) (hcs : s.dicts[d]? = some cs) :
    ∃ cs', (step P s (.getItem e (.int i))).2.dicts[s.dicts.length]? = some cs' ∧
      List.Forall₂ (fun p q => q.1 = p.1 ∧ if isOneD s.bufs p.2 then s.bufs.length ≤ q.2.buf else q.2.buf = p.2.buf) cs cs' := by
  have hS := reachable_sound hs
  simp only [step, ho] at hok ⊢
  have hh : getItemAt P s o (.int i) = (true, (getItemAt P s o (.int i)).2) := Prod.ext hok rfl
  obtain ⟨data, sub, out, h1, h2, h3, h4⟩ := getItemAt_spec hh
  rw [h4]
  obtain ⟨x1, hx1⟩ := sliceCols_ext h1
  rw [hd] at h2
  simp only [sliceAncilAt, hcs, Option.getD_some, Option.map_eq_some_iff] at h2
  obtain ⟨x, hx, rfl⟩ := h2
  have hcd : ∀ p ∈ cs, p.2.buf < s.bufs.length := fun p hp =>
    hS.bufs _ (Or.inr (Or.inl ⟨cs, List.mem_of_getElem? hcs, p, hp, rfl⟩))
  have hf := sliceCols_int hx fun p hp => by have := hcd p hp; rw [hx1, List.length_append]; omega
  have hboth : List.Forall₂ (fun p q => p ∈ cs ∧ _) cs x.2 := (List.forall₂_and_left cs x.2).2 ⟨fun p hp => hp, hf⟩
  refine ⟨x.2, by simp, hboth.imp fun p q hpq => ⟨hpq.2.1, ?_⟩⟩
  have he : isOneD data.1 p.2 = isOneD s.bufs p.2 := by
    unfold isOneD
    rw [hx1, List.getElem?_append_left (hcd p hpq.1)]
  have hl : s.bufs.length ≤ data.1.length := by rw [hx1, List.length_append]; omega
  have h2 := hpq.2.2
  rw [he] at h2
  split_ifs at h2 ⊢
  · omega
  · exact h2

omit [DecidableEq V] in
theorem all_some {l : List (Option V)} (h : ∀ x ∈ l, x.isSome = true) : (l.filterMap id).map some = l := by
  induction l with
  | nil => rfl
  | cons a l ih =>
    cases a with
    | none => simpa using h none List.mem_cons_self
    | some a => simpa using ih fun x hx => h x (List.mem_cons_of_mem _ hx)

omit [DecidableEq V] in
theorem read_alloc (bufs : List (Buf V)) (b : Bool) (l : List V) : readRef (alloc bufs b l).1 (alloc bufs b l).2 = l.map some := by
  simp only [alloc, readRef, List.getElem?_concat_length, Option.bind_some]
  apply List.ext_getElem?
  intro i
  by_cases hi : i < l.length
  · simp [hi]
  · simp [hi]

omit [DecidableEq V] in
theorem concatCols_holds {cs ds : Cols} : ∀ {bufs : List (Buf V)} {out : List (Buf V) × Cols}, concatCols bufs cs ds = some out →
    (∀ p ∈ cs, p.2.buf < bufs.length) → (∀ p ∈ ds, p.2.buf < bufs.length) →
    List.Forall₂ (fun p q => q.1 = p.1 ∧ q.2.buf < out.1.length ∧ ∃ r, col? ds p.1 = some r ∧ ((∀ x ∈ readRef bufs p.2, x.isSome = true) → (∀ x ∈ readRef bufs r, x.isSome = true) →
      readRef out.1 q.2 = readRef bufs p.2 ++ readRef bufs r)) cs out.2 := by
  induction cs with
  | nil => intro bufs out h _ _; obtain rfl := Option.some.inj h; exact List.Forall₂.nil
  | cons p cs ih =>
    intro bufs out h hc hd
    obtain ⟨name, r⟩ := p
    simp only [concatCols] at h
    split at h
    · simp at h
    · rename_i r' hr'
      split at h
      · simp at h
      · rename_i rest hrest
        obtain rfl := Option.some.inj h
        obtain ⟨y, hy⟩ := (concatCols_spec hrest).1
        set a := alloc bufs (isOneD bufs r) ((readRef bufs r ++ readRef bufs r').filterMap id) with ha
        have hlen : a.1.length = bufs.length + 1 := by simp [ha, alloc]
        have hbuf : a.2.buf = bufs.length := rfl
        refine List.Forall₂.cons ⟨rfl, ?_, r', hr', fun h1 h2 => ?_⟩ ?_
        · show a.2.buf < rest.1.length
          rw [hy, List.length_append]
          omega
        · show readRef rest.1 a.2 = _
          rw [hy, readRef_append _ _ _ (by omega), ha, read_alloc, all_some]
          intro x hx
          rcases List.mem_append.1 hx with hx | hx
          exacts [h1 x hx, h2 x hx]
        · have hf := ih hrest (fun p hp => by have := hc p (List.mem_cons_of_mem _ hp); omega) (fun p hp => by have := hd p hp; omega)
          have hboth : List.Forall₂ (fun p q => p ∈ cs ∧ _) cs rest.2 := (List.forall₂_and_left cs rest.2).2 ⟨fun p hp => hp, hf⟩
          refine hboth.imp fun p q hpq => ⟨hpq.2.1, hpq.2.2.1, ?_⟩
          obtain ⟨r2, e1, e2⟩ := hpq.2.2.2
          have hr2 : r2.buf < bufs.length := by
            unfold col? at e1
            obtain ⟨p2, hp2, rfl⟩ := Option.map_eq_some_iff.1 e1
            exact hd p2 (List.mem_of_find?_eq_some hp2)
          have hread : ∀ r : Ref, r.buf < bufs.length → readRef a.1 r = readRef bufs r := fun r hr => readRef_append _ _ _ hr
          have hpb := hc p (List.mem_cons_of_mem _ hpq.1)
          refine ⟨r2, e1, fun h1 h2 => ?_⟩
          have := e2 (by rw [hread _ hpb]; exact h1) (by rw [hread _ hr2]; exact h2)
          rw [this, hread _ hpb, hread _ hr2]

/-- **C126.** What an ensemble holds after `append`: in every column of the object data that is not normalised, its own rows and then the rows of the other ensemble in the
column of the same name; what all PDFs have in common stays. With ancillary data on both sides these are joined in the same way in a new dictionary. -/
theorem C126_append_holds {P : Params V} {s : St V} (hs : Reachable P s) {i j : ℕ} {e o : Obj} (he : s.enss[i]? = some e) (ho : s.enss[j]? = some o) (hq : e.kind ≠ .quant)
    (hok : (step P s (.append i j)).1 = true) :
    ∃ e', (step P s (.append i j)).2.enss[i]? = some e' ∧ (∀ p ∈ e.cols, CommonGrid e.kind p.1 → p ∈ e'.cols) ∧
      (∀ p ∈ e.cols, ¬ CommonGrid e.kind p.1 → ¬ Normalised e.kind p.1 → ∃ r q, (p.1, r) ∈ o.cols ∧ (p.1, q) ∈ e'.cols ∧
        ((∀ x ∈ readRef s.bufs p.2, x.isSome = true) → (∀ x ∈ readRef s.bufs r, x.isSome = true) →
          readRef (step P s (.append i j)).2.bufs q = readRef s.bufs p.2 ++ readRef s.bufs r)) ∧
      ∀ (d d' : ℕ) (cs cs' : Cols), e.ancil = some d → o.ancil = some d' → s.dicts[d]? = some cs → s.dicts[d']? = some cs' →
        ∃ n ds, e'.ancil = some n ∧ (step P s (.append i j)).2.dicts[n]? = some ds ∧
          List.Forall₂ (fun p q => q.1 = p.1 ∧ ∃ r, (p.1, r) ∈ cs' ∧ ((∀ x ∈ readRef s.bufs p.2, x.isSome = true) → (∀ x ∈ readRef s.bufs r, x.isSome = true) →
            readRef (step P s (.append i j)).2.bufs q.2 = readRef s.bufs p.2 ++ readRef s.bufs r)) cs ds := by
  have hS := reachable_sound hs
  simp only [step, he, ho] at hok ⊢
  have hce : ∀ p ∈ e.cols, p.2.buf < s.bufs.length := fun p hp => hS.bufs _ (used_ens he hp (by simp))
  have hco : ∀ p ∈ o.cols, p.2.buf < s.bufs.length := fun p hp => hS.bufs _ (used_ens ho hp (by simp))
  have hmem : ∀ {ds : Cols} {k : String} {r : Ref}, col? ds k = some r → (k, r) ∈ ds := by
    intro ds k r h
    unfold col? at h
    obtain ⟨p, hp, rfl⟩ := Option.map_eq_some_iff.1 h
    have h1 := List.find?_some hp
    have h2 := List.mem_of_find?_eq_some hp
    simp only [decide_eq_true_eq] at h1
    rw [← h1]
    exact h2
  rcases appendAt_exact P s i e o with hf | ⟨data, bufs, dicts, ancil, h1, hext, hanc, h2⟩
  · rw [hf] at hok
    cases hok
  obtain ⟨y1, hy1⟩ := (concatCols_spec h1).1
  obtain ⟨y2, hy2⟩ := hext
  rw [h2] at hok ⊢
  have hlen : i < s.enss.length := (List.getElem?_eq_some_iff.1 he).1
  simp only [updateAt] at hok ⊢
  split at hok
  · cases hok
  rename_i out hout
  obtain ⟨y3, hy3⟩ := (construct_spec hout).1
  split_ifs at hok with hfit
  simp only [hfit, if_true, St.setEns]
  have hkeep : ∀ p ∈ e.cols.filter e.isMeta ++ data.2, ¬ Normalised e.kind p.1 → p ∈ out.2 := by
    intro p hp hn
    obtain ⟨q, hq', e1, e2⟩ := forall₂_left (construct_spec hout).2 hp
    have hmk : ∀ c, makesNew P e.kind e.recheck c p.1 = false := by
      intro c
      cases hk : e.kind <;> simp only [hk, Normalised, reduceCtorEq, false_and, false_or, or_false, true_and, makesNew, ne_eq, not_true_eq_false] at hn hq ⊢ <;>
        simp [hn]
    rw [if_neg (by simp [hmk])] at e2
    have : q = p := Prod.ext e1 e2
    exact this ▸ hq'
  refine ⟨_, List.getElem?_set_self (by simpa using hlen), fun p hp hm => ?_, fun p hp hm hn => ?_, fun d d' cs cs' hd hd' hcs hcs' => ?_⟩
  · exact hkeep p (List.mem_append_left _ (List.mem_filter.2 ⟨hp, by simpa [Obj.isMeta] using common_meta.1 hm⟩)) (common_not_normalised hm)
  · have hp' : p ∈ e.cols.filter fun p => !e.isMeta p := List.mem_filter.2 ⟨hp, by simpa [Obj.isMeta] using mt common_meta.2 hm⟩
    have hf := concatCols_holds h1 (fun p hp => hce p (List.mem_filter.1 hp).1) (fun p hp => hco p (List.mem_filter.1 hp).1)
    obtain ⟨q, hq', e1, e2, r, e3, e4⟩ := forall₂_left hf hp'
    refine ⟨r, q.2, (List.mem_filter.1 (hmem e3)).1, ?_, fun a1 a2 => ?_⟩
    · rw [← e1]
      exact hkeep q (List.mem_append_right _ hq') (by rw [e1]; exact hn)
    · show readRef out.1 q.2 = _
      rw [hy3, hy2, List.append_assoc, readRef_append _ _ _ e2, e4 a1 a2]
  · rcases hanc with ⟨-, -, hno⟩ | ⟨d1, d1', a, g1, g2, g3, rfl, rfl, rfl⟩
    · exact absurd hd' (hno d d' hd)
    · rw [hd] at g1
      rw [hd'] at g2
      cases g1
      cases g2
      rw [hcs, hcs'] at g3
      simp only [Option.getD_some] at g3
      have hcd : ∀ p ∈ cs, p.2.buf < s.bufs.length := fun p hp => hS.bufs _ (Or.inr (Or.inl ⟨cs, List.mem_of_getElem? hcs, p, hp, rfl⟩))
      have hcd' : ∀ p ∈ cs', p.2.buf < s.bufs.length := fun p hp => hS.bufs _ (Or.inr (Or.inl ⟨cs', List.mem_of_getElem? hcs', p, hp, rfl⟩))
      have hl : s.bufs.length ≤ data.1.length := by rw [hy1, List.length_append]; omega
      have hf := concatCols_holds g3 (fun p hp => (hcd p hp).trans_le hl) (fun p hp => (hcd' p hp).trans_le hl)
      have hboth : List.Forall₂ (fun p q => p ∈ cs ∧ _) cs a.2 := (List.forall₂_and_left cs a.2).2 ⟨fun p hp => hp, hf⟩
      refine ⟨s.dicts.length, a.2, rfl, by simp, hboth.imp fun p q hpq => ⟨hpq.2.1, ?_⟩⟩
      obtain ⟨e2, r, e3, e4⟩ := hpq.2.2
      have hr := hmem e3
      have hread : ∀ r : Ref, r.buf < s.bufs.length → readRef data.1 r = readRef s.bufs r := fun r hr => by rw [hy1, readRef_append _ _ _ hr]
      refine ⟨r, hr, fun a1 a2 => ?_⟩
      show readRef out.1 q.2 = _
      have := e4 (by rw [hread _ (hcd p hpq.1)]; exact a1) (by rw [hread _ (hcd' _ hr)]; exact a2)
      rw [hread _ (hcd p hpq.1), hread _ (hcd' _ hr)] at this
      rw [hy3, readRef_append _ _ _ e2, this]

/-! ## Findings -/

/-- **C126 fails (arrays).** Writing into the ancillary data of `ens[a:b:st]` writes into the ancillary data of `ens`: after
`sub = ens[a:b:st]; sub.ancil[k][i] = v` the column `k` of `ens` has `v` at the position that `i` stands for. -/
theorem C126_slice_writes_parent {P : Params V} {s : St V} {e d : ℕ} {o : Obj} {cs : Cols} {k : String} {r : Ref} {a b st : Option ℤ}
    {is : List ℕ} {i j row : ℕ} {v w : V} (ho : s.enss[e]? = some o) (hq : o.kind ≠ .quant) (hd : o.ancil = some d)
    (hcs : s.dicts[d]? = some cs) (hk : col? cs k = some r) (hok : (step P s (.getItem e (.slice a b st))).1 = true)
    (his : sliceIndices r.rows.length a b st = .ok is) (hi : is[i]? = some j) (hj : r.rows[j]? = some row)
    (hw : (readRef s.bufs r)[j]? = some (some w)) :
    (readRef (run P s [.getItem e (.slice a b st), .ancilOf s.enss.length, .dictGet s.dvars.length k,
      .write s.vars.length i v]).bufs r)[j]? = some (some v) := by
  obtain ⟨o', ho', -, -, hanc⟩ := C126_slice_shares ho hq a b st hok
  obtain ⟨hd', cs', hcs', hf⟩ := hanc d cs hd hcs
  have hcol : ∃ q, col? cs' k = some q ∧ q.buf = r.buf ∧ q.rows = is.map fun i => r.rows.getD i 0 := by
    have : ∀ {l l' : Cols}, List.Forall₂ (fun p q => q.1 = p.1 ∧ q.2.buf = p.2.buf ∧ ∃ is, sliceIndices p.2.rows.length a b st = .ok is ∧
        q.2.rows = is.map fun i => p.2.rows.getD i 0) l l' → col? l k = some r →
        ∃ q, col? l' k = some q ∧ q.buf = r.buf ∧ q.rows = is.map fun i => r.rows.getD i 0 := by
      intro l l' h
      induction h with
      | nil => intro h; simp [col?] at h
      | @cons p q l l' hpq hl ih =>
        intro h
        obtain ⟨h1, h2, is', h3, h4⟩ := hpq
        by_cases hp : p.1 = k
        · simp only [col?, List.find?_cons, hp, decide_true, Option.map_some, Option.some.injEq] at h
          rw [h] at h2 h3 h4
          rw [his] at h3
          obtain rfl := Except.ok.inj h3
          exact ⟨q.2, by simp [col?, h1.trans hp], h2, h4⟩
        · have h' : col? l k = some r := by simpa [col?, hp] using h
          obtain ⟨q', h5, h6⟩ := ih h'
          exact ⟨q', by simpa [col?, h1, hp] using h5, h6⟩
    exact this hf hk
  obtain ⟨q, hq1, hq2, hq3⟩ := hcol
  generalize hs1 : (step P s (.getItem e (.slice a b st))).2 = s1 at ho' hcs'
  have hg := step_grow P s (.getItem e (.slice a b st)) (by simp [writesInPlace])
  rw [hs1] at hg
  have hvars : s1.vars = s.vars ∧ s1.dvars = s.dvars := by
    rw [← hs1]
    simp only [step, ho] at hok ⊢
    have hh : getItemAt P s o (.slice a b st) = (true, (getItemAt P s o (.slice a b st)).2) := Prod.ext hok rfl
    obtain ⟨data, sub, out, -, -, -, h4⟩ := getItemAt_spec hh
    rw [h4]
    exact ⟨rfl, rfl⟩
  have h2 : (step P s1 (.ancilOf s.enss.length)).2 = { s1 with dvars := s1.dvars ++ [s.dicts.length] } := by
    simp [step, ho', hd']
  have h3 : (step P { s1 with dvars := s1.dvars ++ [s.dicts.length] } (.dictGet s.dvars.length k)).2 =
      { s1 with dvars := s1.dvars ++ [s.dicts.length], vars := s1.vars ++ [q] } := by
    simp [step, hvars.2, hcs', hq1]
  simp only [run, List.foldl_cons, List.foldl_nil, hs1, h2, h3]
  have hbr : r.buf < s.bufs.length := by
    by_contra hge
    simp only [readRef, List.getElem?_map, hj, Option.map_some, List.getElem?_eq_none (Nat.le_of_not_lt hge), Option.bind_none,
      Option.some.injEq, reduceCtorEq] at hw
  have hrow : q.rows[i]? = some row := by simp [hq3, hi, List.getD, hj]
  refine (C126_write P _ s.vars.length i v q row (by simp [hvars.1]) hrow).2 r j w hq2.symm hj ?_
  obtain ⟨x, hx⟩ := hg.bufs
  rw [hx, readRef_append _ _ _ hbr]
  exact hw

/-- **C126 fails (dictionaries).** `add_to_ancil` writes into the dictionary object: every ensemble that was given the same dictionary gets the
columns too, and so does the program's dictionary; no other ensemble changes. -/
theorem C126_add_to_ancil (P : Params V) (s : St V) (e d : ℕ) (o : Obj) (a x : ℕ) (ho : s.enss[e]? = some o) (ha : o.ancil = some a)
    (hd : s.dvars[d]? = some x) (hok : (step P s (.addToAncil e d)).1 = true) (hlt : a < s.dicts.length) (e₂ : ℕ) (o₂ : Obj)
    (h₂ : s.enss[e₂]? = some o₂) :
    (o₂.ancil = some a → holds (step P s (.addToAncil e d)).2 e₂ = some (readCols s.bufs o₂.cols,
        some (readCols s.bufs (updateCols ((s.dicts[a]?).getD []) ((s.dicts[x]?).getD []))))) ∧
    (o₂.ancil ≠ some a → holds (step P s (.addToAncil e d)).2 e₂ = holds s e₂) := by
  have hst : (step P s (.addToAncil e d)).2 = { s with dicts := s.dicts.modify a fun cs => updateCols cs ((s.dicts[x]?).getD []) } := by
    simp only [step, ho, hd, ha] at hok ⊢
    split_ifs at hok ⊢
    rfl
  rw [hst]
  refine ⟨fun h => ?_, fun h => ?_⟩
  · simp only [holds, h₂, Option.map_some, h, dictHolds, List.getElem?_modify, if_true]
    rw [List.getElem?_eq_getElem hlt]
    simp
  · simp only [holds, h₂, Option.map_some]
    cases h3 : o₂.ancil with
    | none => rfl
    | some d₂ =>
      have hne : a ≠ d₂ := fun e => h (by rw [h3, e])
      simp [dictHolds, hne]

/-- the dictionary given to `set_ancil` is kept itself, not a copy: it is the same object for all ensembles it is given to -/
theorem C126_set_ancil_keeps (P : Params V) (s : St V) (e d : ℕ) (o : Obj) (x : ℕ) (ho : s.enss[e]? = some o) (hd : s.dvars[d]? = some x)
    (hok : (step P s (.setAncil e (some d))).1 = true) :
    (step P s (.setAncil e (some d))).2.enss[e]? = some { o with ancil := some x } := by
  have hi : e < s.enss.length := (List.getElem?_eq_some_iff.1 ho).1
  simp only [step, ho, argDict, hd, Option.map_some] at hok ⊢
  split_ifs at hok ⊢
  simp [St.setEns, hi]

/-- an ensemble whose columns all have `n` rows, apart from what the PDFs have in common, has `n` PDFs -/
theorem npdf_eq {o : Obj} {n : ℕ} (hn : ∀ p ∈ o.cols, ¬ CommonGrid o.kind p.1 → p.2.rows.length = n) (hne : ∃ p ∈ o.cols, ¬ CommonGrid o.kind p.1) : o.npdf = n := by
  unfold Obj.npdf
  have hf : ∀ p, p ∈ (o.cols.filter fun p => !o.isMeta p) ↔ p ∈ o.cols ∧ ¬ CommonGrid o.kind p.1 := by
    intro p
    simp [Obj.isMeta, common_meta]
  cases h : o.cols.filter fun p => !o.isMeta p with
  | nil =>
    obtain ⟨p, hp, hc⟩ := hne
    have := (hf p).2 ⟨hp, hc⟩
    rw [h] at this
    cases this
  | cons p t =>
    have := (hf p).1 (by rw [h]; simp)
    simpa using hn p this.1 this.2

/-- **C126 (which ancillary data are accepted).** A dictionary is accepted exactly if each of its columns has one row per PDF, by `set_ancil` as well as by `add_to_ancil` (which
needs ancillary data to be there); otherwise nothing is changed. -/
theorem C126_ancil_accepts (P : Params V) (s : St V) (e d : ℕ) (o : Obj) (x n : ℕ) (cs : Cols) (ho : s.enss[e]? = some o) (hd : s.dvars[d]? = some x) (hx : s.dicts[x]? = some cs)
    (hn : ∀ p ∈ o.cols, ¬ CommonGrid o.kind p.1 → p.2.rows.length = n) (hne : ∃ p ∈ o.cols, ¬ CommonGrid o.kind p.1) :
    ((step P s (.setAncil e (some d))).1 = true ↔ ∀ p ∈ cs, p.2.rows.length = n) ∧
    ((step P s (.addToAncil e d)).1 = true ↔ o.ancil ≠ none ∧ ∀ p ∈ cs, p.2.rows.length = n) ∧
    ((step P s (.setAncil e (some d))).1 = false → (step P s (.setAncil e (some d))).2 = s) ∧
    ((step P s (.addToAncil e d)).1 = false → (step P s (.addToAncil e d)).2 = s) := by
  have hf : fits s.dicts o.npdf (some x) = true ↔ ∀ p ∈ cs, p.2.rows.length = n := by
    simp only [fits, hx, Option.getD_some, List.all_eq_true, decide_eq_true_eq, npdf_eq hn hne]
  refine ⟨?_, ?_, ?_, ?_⟩
  · simp only [step, ho, argDict, hd, Option.map_some]
    rw [← hf]
    split_ifs with h <;> simp [h]
  · simp only [step, ho, hd]
    cases o.ancil with
    | none => simp
    | some a =>
      rw [← hf]
      dsimp only
      split_ifs with h <;> simp [h]
  · simp only [step, ho, argDict, hd, Option.map_some]
    split_ifs with h <;> simp
  · simp only [step, ho, hd]
    cases o.ancil with
    | none => simp
    | some a =>
      dsimp only
      split_ifs with h <;> simp

/-! ## A program -/

section Example

local instance exDec : DecidableEq (List (String × List (Option ℕ))) := inferInstance
local instance exDec₂ : DecidableEq (Option (List (String × List (Option ℕ)) × Option (List (String × List (Option ℕ))))) := inferInstance

/-- constructors that accept everything; the numbers computed are the contents given, doubled -/
def exP : Params ℕ where
  compute _ name c := ((((c.find? fun p => p.1 = name).map (·.2)).getD []).filterMap id).map (2 * ·)
  accepts _ _ _ := true
  pads _ := false

/-- three histograms on the edges `0, 1, 2` with an identifier each; `sub = ens[1:]` -/
def exProgram : List (Op ℕ) :=
  [.array true [0, 1, 2], .array false [10, 20, 30], .array true [7, 8, 9], .dict [("id", 2)],
   .build .hist true [("bins", 0), ("pdfs", 1)] (some 0), .getItem 0 (.slice (some 1) none none)]

/-- the state after it -/
def exState : St ℕ := run exP start exProgram

theorem exState_reachable : Reachable exP exState := ⟨exProgram, rfl⟩

example : holds exState 0 = some ([("bins", [some 0, some 1, some 2]), ("pdfs", [some 20, some 40, some 60])], some [("id", [some 7, some 8, some 9])]) ∧
    holds exState 1 = some ([("bins", [some 0, some 1, some 2]), ("pdfs", [some 80, some 120])], some [("id", [some 8, some 9])]) := by
  decide +kernel

/-- `sub.ancil["id"][0] = 99` changes `ens`; the hypotheses of `C126_slice_writes_parent` hold in the state before the selection -/
example : holds (run exP exState [.ancilOf 1, .dictGet 1 "id", .write 3 0 99]) 0 =
    some ([("bins", [some 0, some 1, some 2]), ("pdfs", [some 20, some 40, some 60])], some [("id", [some 7, some 99, some 9])]) := by
  decide +kernel

example : (readRef (run exP (run exP start (exProgram.take 5)) [.getItem 0 (.slice (some 1) none none), .ancilOf 1, .dictGet 1 "id",
    .write 3 0 99]).bufs ⟨2, [0, 1, 2]⟩)[1]? = some (some 99) :=
  C126_slice_writes_parent (s := run exP start (exProgram.take 5)) (e := 0) (d := 0) (o := ⟨.hist, true, [("bins", ⟨0, [0, 1, 2]⟩), ("pdfs", ⟨3, [0, 1, 2]⟩)], some 0⟩)
    (cs := [("id", ⟨2, [0, 1, 2]⟩)]) (is := [1, 2]) (row := 1) (w := 8) (by decide +kernel) (by decide) rfl (by decide +kernel) (by decide +kernel)
    (by decide +kernel) (by decide +kernel) (by decide +kernel) (by decide +kernel) (by decide +kernel)

/-- writing into the array of bin contents that was given changes nothing, writing into the edges changes both ensembles -/
example : holds (run exP exState [.write 1 0 0]) 0 = holds exState 0 ∧
    holds (run exP exState [.write 0 1 5]) 0 = some ([("bins", [some 0, some 5, some 2]), ("pdfs", [some 20, some 40, some 60])],
      some [("id", [some 7, some 8, some 9])]) ∧
    holds (run exP exState [.write 0 1 5]) 1 = some ([("bins", [some 0, some 5, some 2]), ("pdfs", [some 80, some 120])],
      some [("id", [some 8, some 9])]) := by decide +kernel

/-- the hypotheses of `C126_values_private` and `C126_values_isolated_partial` hold for the selection -/
example : Private exState 1 "pdfs" ∧ ∃ o', (run exP exState [.write 0 1 5, .write 1 0 3]).enss[1]? = some o' ∧
    o'.cols = [("bins", ⟨0, [0, 1, 2]⟩), ("pdfs", ⟨4, [0, 1]⟩)] ∧ ∀ r, ("pdfs", r) ∈ o'.cols →
      readRef (run exP exState [.write 0 1 5, .write 1 0 3]).bufs r = readRef exState.bufs r := by
  have hp : Private exState 1 "pdfs" :=
    C126_values_private (P := exP) (s := run exP start (exProgram.take 5)) ⟨_, rfl⟩ (.getItem 0 (.slice (some 1) none none)) 1
      (by decide +kernel) (by decide +kernel) ⟨.hist, true, [("bins", ⟨0, [0, 1, 2]⟩), ("pdfs", ⟨4, [0, 1]⟩)], some 1⟩ "pdfs"
      (by decide +kernel) (Or.inl ⟨rfl, rfl⟩)
  refine ⟨hp, ?_⟩
  obtain ⟨o', h1, h2, h3⟩ := C126_values_isolated_partial exState_reachable (h := 1)
    (o := ⟨.hist, true, [("bins", ⟨0, [0, 1, 2]⟩), ("pdfs", ⟨4, [0, 1]⟩)], some 1⟩) (c := "pdfs") (by decide +kernel) (Or.inl ⟨rfl, rfl⟩) hp
    [.write 0 1 5, .write 1 0 3] (by simp [rebuilds, takes])
  exact ⟨o', h1, h2, fun r hr => h3 r (by rw [← h2]; exact hr)⟩

/-- the frame: appending `sub` to itself changes `sub` only -/
example : holds (step exP exState (.append 1 1)).2 0 = holds exState 0 ∧ (step exP exState (.append 1 1)).1 = true :=
  ⟨(C126_frame exState_reachable (.append 1 1) (by simp [writesInPlace])).1 0 (by decide +kernel) (by simp [changes]), by decide +kernel⟩

/-- a second ensemble that is given the same dictionary gets the columns added to the first -/
example : holds (run exP exState [.build .hist true [("bins", 0), ("pdfs", 1)] (some 0), .dict [("z", 2)], .addToAncil 0 1]) 2 =
    some ([("bins", [some 0, some 1, some 2]), ("pdfs", [some 20, some 40, some 60])],
      some [("id", [some 7, some 8, some 9]), ("z", [some 7, some 8, some 9])]) := by decide +kernel

/-- selecting by positions copies the ancillary data -/
example : holds (run exP exState [.getItem 0 (.list [2, 0]), .ancilOf 2, .dictGet 1 "id", .write 3 0 99]) 0 = holds exState 0 ∧
    holds (run exP exState [.getItem 0 (.list [2, 0]), .ancilOf 2, .dictGet 1 "id", .write 3 0 99]) 2 =
      some ([("bins", [some 0, some 1, some 2]), ("pdfs", [some 120, some 40])], some [("id", [some 99, some 7])]) := by decide +kernel

/-- one PDF by its number: its identifier is a copy -/
example : holds (step exP exState (.getItem 1 (.int (-1)))).2 2 =
      some ([("bins", [some 0, some 1, some 2]), ("pdfs", [some 240])], some [("id", [some 9])]) ∧
    ∃ cs', (step exP exState (.getItem 1 (.int (-1)))).2.dicts[exState.dicts.length]? = some cs' ∧
      List.Forall₂ (fun p q => q.1 = p.1 ∧ if isOneD exState.bufs p.2 then exState.bufs.length ≤ q.2.buf else q.2.buf = p.2.buf) [("id", ⟨2, [1, 2]⟩)] cs' :=
  ⟨by decide +kernel, C126_int_shares (o := exState.enss.getD 1 ⟨.hist, true, [], none⟩) exState_reachable (by decide +kernel) (-1) (by decide +kernel) 1 _
    (by decide +kernel) (by decide +kernel)⟩

example := C126_selection_holds (e := 1) (o := exState.enss.getD 1 ⟨.hist, true, [], none⟩) exState_reachable (by decide +kernel) (by decide +kernel) (.mask [false, true])
  (by decide +kernel)

/-- appending the selection to the ensemble -/
example : holds (step exP exState (.append 0 1)).2 0 = some ([("bins", [some 0, some 1, some 2]), ("pdfs", [some 40, some 80, some 120, some 160, some 240])],
    some [("id", [some 7, some 8, some 9, some 8, some 9])]) := by decide +kernel

example := C126_append_holds (i := 0) (j := 1) (e := exState.enss.getD 0 ⟨.hist, true, [], none⟩) (o := exState.enss.getD 1 ⟨.hist, true, [], none⟩) exState_reachable
  (by decide +kernel) (by decide +kernel) (by decide +kernel) (by decide +kernel)

/-- two identifiers are refused for the three histograms, three are accepted -/
example : (run exP exState [.array true [1, 2], .dict [("z", 3)]]).dvars = [0, 2] ∧ (step exP (run exP exState [.array true [1, 2], .dict [("z", 3)]]) (.setAncil 0 (some 1))).1 = false ∧
    (step exP (run exP exState [.array true [1, 2, 3], .dict [("z", 3)]]) (.setAncil 0 (some 1))).1 = true := by decide +kernel

example := C126_ancil_accepts exP (run exP exState [.array true [1, 2], .dict [("z", 3)]]) 0 1 (exState.enss.getD 0 ⟨.hist, true, [], none⟩) 2 3 [("z", ⟨5, [0, 1]⟩)] (by decide +kernel) (by decide +kernel)
  (by decide +kernel) (by simp only [common_meta]; decide +kernel) (by simp only [common_meta]; decide +kernel)

end Example

end Verif.Props.Sharing
