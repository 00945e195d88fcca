import Verif.Lemmas.Sharing
import Verif.Spec.Sharing

/-!
# Lemmas: where the arrays in use after an operation come from, and that every reference is sound
-/

set_option linter.unusedSectionVars false
set_option autoImplicit false

namespace Verif.Lemmas.Sharing

open Verif Verif.Model Verif.Spec Verif.Model.Sharing Verif.Spec.Sharing

variable {V : Type}

theorem makesNew_norm (P : Params V) {k : RowKind} {c : String} (h : Normalised k c) (check : Bool) (x : Contents V) (n : String) :
    makesNew P k check x n = decide (n = c) := by
  rcases h with ⟨rfl, rfl⟩ | ⟨rfl, rfl⟩ | ⟨rfl, rfl⟩ | ⟨rfl, rfl⟩ <;> simp [makesNew]

theorem norm_not_meta {k : RowKind} {c : String} (h : Normalised k c) : c ∉ metaNames k := by
  rcases h with ⟨rfl, rfl⟩ | ⟨rfl, rfl⟩ | ⟨rfl, rfl⟩ | ⟨rfl, rfl⟩ <;> simp [metaNames]

/-- where the columns of a selected ensemble, its dictionary and the rest of memory come from -/
theorem getItemAt_spec {P : Params V} {s s' : St V} {o : Obj} {key : Key} (h : getItemAt P s o key = (true, s')) :
    ∃ data sub out, sliceCols key s.bufs (o.cols.filter fun p => !o.isMeta p) = some data ∧
      sliceAncilAt key data.1 s.dicts o.ancil = some sub ∧
      construct P o.kind o.recheck sub.1 (o.cols.filter o.isMeta ++ data.2) = some out ∧
      s' = { s with bufs := out.1, dicts := s.dicts ++ sub.2.toList,
                    enss := s.enss ++ [⟨o.kind, o.recheck, out.2, sub.2.map fun _ => s.dicts.length⟩] } := by
  simp only [getItemAt] at h
  split at h
  · simp at h
  · rename_i data hdata
    split at h
    · simp at h
    · rename_i sub hsub
      split at h
      · simp at h
      · rename_i out hout
        split_ifs at h
        · simp only [Prod.mk.injEq, true_and] at h
          exact ⟨data, sub, out, hdata, hsub, hout, h.symm⟩
        · simp at h

theorem getItemAt_fail {P : Params V} {s : St V} {o : Obj} {key : Key} (h : (getItemAt P s o key).1 = false) :
    (getItemAt P s o key).2 = s := by
  cases hd : sliceCols key s.bufs (o.cols.filter fun p => !o.isMeta p) with
  | none => simp [getItemAt, hd]
  | some data =>
    cases hs : sliceAncilAt key data.1 s.dicts o.ancil with
    | none => simp [getItemAt, hd, hs]
    | some sub =>
      cases hc : construct P o.kind o.recheck sub.1 (o.cols.filter o.isMeta ++ data.2) with
      | none => simp [getItemAt, hd, hs, hc]
      | some out =>
        simp only [getItemAt, hd, hs, hc] at h ⊢
        split_ifs at h ⊢
        rfl

/-- updating keeps all ensembles but one -/
theorem updateAt_spec (P : Params V) (s : St V) (i : ℕ) (e : Obj) (check : Bool) (cs : Cols) (ancil : Option ℕ) :
    updateAt P s i e check cs ancil = (false, s) ∨ ∃ out a ok, construct P e.kind check s.bufs cs = some out ∧
      (a = ancil ∨ a = e.ancil) ∧ updateAt P s i e check cs ancil = 
        (ok, { s with bufs := out.1, enss := s.enss.set i ⟨e.kind, check, out.2, a⟩ }) := by
  simp only [updateAt]
  split
  · exact Or.inl rfl
  · rename_i out hout
    right
    split_ifs
    · exact ⟨out, ancil, true, hout, Or.inl rfl, rfl⟩
    · exact ⟨out, e.ancil, false, hout, Or.inr rfl, rfl⟩

/-- memory and the program's names only grow, and the ensembles other than `t` stay -/
structure Grow (s s' : St V) (t : Option ℕ) : Prop where
  bufs : Ext s.bufs s'.bufs
  dicts : ∃ y, s'.dicts = s.dicts ++ y
  vars : ∃ y, s'.vars = s.vars ++ y
  dvars : ∃ y, s'.dvars = s.dvars ++ y
  enss : ∀ (i : ℕ), i < s.enss.length → t ≠ some i → s'.enss[i]? = s.enss[i]?
  len : s.enss.length ≤ s'.enss.length

theorem Grow.refl (s : St V) (t : Option ℕ) : Grow s s t :=
  ⟨Ext.refl _, ⟨[], by simp⟩, ⟨[], by simp⟩, ⟨[], by simp⟩, fun _ _ _ => rfl, le_refl _⟩

theorem sliceAncilAt_ext {key : Key} {bufs : List (Buf V)} {dicts : List Cols} {a : Option ℕ} {sub : List (Buf V) × Option Cols}
    (h : sliceAncilAt key bufs dicts a = some sub) : Ext bufs sub.1 := by
  cases a with
  | none => simp only [sliceAncilAt] at h; obtain rfl := Option.some.inj h; exact Ext.refl _
  | some d =>
    simp only [sliceAncilAt, Option.map_eq_some_iff] at h
    obtain ⟨a, ha, rfl⟩ := h
    exact sliceCols_ext ha

theorem updateAt_grow (P : Params V) (s : St V) (i : ℕ) (e : Obj) (check : Bool) (cs : Cols) (ancil : Option ℕ) :
    Grow s (updateAt P s i e check cs ancil).2 (some i) := by
  rcases updateAt_spec P s i e check cs ancil with h | ⟨out, a, ok, hc, -, h⟩
  · rw [h]; exact Grow.refl _ _
  · rw [h]
    refine ⟨(construct_spec hc).1, ⟨[], by simp⟩, ⟨[], by simp⟩, ⟨[], by simp⟩, fun j _ hj => ?_, by simp⟩
    have : i ≠ j := fun h => hj (by rw [h])
    simp [List.getElem?_set_ne this]

theorem getItemAt_grow (P : Params V) (s : St V) (o : Obj) (key : Key) : Grow s (getItemAt P s o key).2 none := by
  cases hb : (getItemAt P s o key).1 with
  | false => rw [getItemAt_fail hb]; exact Grow.refl _ _
  | true =>
    have hh : getItemAt P s o key = (true, (getItemAt P s o key).2) := Prod.ext hb rfl
    obtain ⟨data, sub, out, h1, h2, h3, h4⟩ := getItemAt_spec hh
    rw [h4]
    refine ⟨((sliceCols_ext h1).trans (sliceAncilAt_ext h2)).trans (construct_spec h3).1, ⟨_, rfl⟩, ⟨[], by simp⟩, ⟨[], by simp⟩,
      fun j hj _ => ?_, by simp⟩
    simp [List.getElem?_append_left hj]

variable [DecidableEq V]

/-- appending: nothing happens, or the ensemble is rebuilt from new arrays and its own metadata, with new ancillary data or none -/
theorem appendAt_exact (P : Params V) (s : St V) (i : ℕ) (e o : Obj) :
    appendAt P s i e o = (false, s) ∨ ∃ data bufs dicts ancil,
      concatCols s.bufs (e.cols.filter fun p => !e.isMeta p) (o.cols.filter fun p => !o.isMeta p) = some data ∧
      Ext data.1 bufs ∧ ((dicts = [] ∧ ancil = none ∧ ∀ d d', e.ancil = some d → o.ancil ≠ some d') ∨ ∃ d d' a, e.ancil = some d ∧ o.ancil = some d' ∧
        concatCols data.1 ((s.dicts[d]?).getD []) ((s.dicts[d']?).getD []) = some a ∧ bufs = a.1 ∧ dicts = [a.2] ∧
        ancil = some s.dicts.length) ∧
      appendAt P s i e o = updateAt P { s with bufs := bufs, dicts := s.dicts ++ dicts } i e e.recheck
        (e.cols.filter e.isMeta ++ data.2) ancil := by
  simp only [appendAt]
  split_ifs with hc
  swap
  · exact Or.inl rfl
  split
  · exact Or.inl rfl
  · rename_i data hdata
    split
    · rename_i d d' hd hd'
      split
      · exact Or.inl rfl
      · rename_i a ha
        exact Or.inr ⟨data, a.1, [a.2], some s.dicts.length, hdata, (concatCols_spec ha).1,
          Or.inr ⟨d, d', a, hd, hd', ha, rfl, rfl, rfl⟩, rfl⟩
    · rename_i hno
      exact Or.inr ⟨data, data.1, [], none, hdata, Ext.refl _, Or.inl ⟨rfl, rfl, fun d d' h1 h2 => hno d d' h1 h2⟩, by simp⟩

theorem appendAt_spec (P : Params V) (s : St V) (i : ℕ) (e o : Obj) :
    appendAt P s i e o = (false, s) ∨ ∃ data bufs dicts ancil,
      concatCols s.bufs (e.cols.filter fun p => !e.isMeta p) (o.cols.filter fun p => !o.isMeta p) = some data ∧
      Ext data.1 bufs ∧ ((dicts = [] ∧ ancil = none) ∨ ∃ d d' a, e.ancil = some d ∧ o.ancil = some d' ∧
        concatCols data.1 ((s.dicts[d]?).getD []) ((s.dicts[d']?).getD []) = some a ∧ bufs = a.1 ∧ dicts = [a.2] ∧
        ancil = some s.dicts.length) ∧
      appendAt P s i e o = updateAt P { s with bufs := bufs, dicts := s.dicts ++ dicts } i e e.recheck
        (e.cols.filter e.isMeta ++ data.2) ancil := by
  rcases appendAt_exact P s i e o with h | ⟨data, bufs, dicts, ancil, h1, h2, h3, h4⟩
  · exact Or.inl h
  · exact Or.inr ⟨data, bufs, dicts, ancil, h1, h2, h3.imp (fun h => ⟨h.1, h.2.1⟩) id, h4⟩

theorem appendAt_grow (P : Params V) (s : St V) (i : ℕ) (e o : Obj) : Grow s (appendAt P s i e o).2 (some i) := by
  rcases appendAt_spec P s i e o with h | ⟨data, bufs, dicts, ancil, h1, h2, -, h⟩
  · rw [h]; exact Grow.refl _ _
  · rw [h]
    have hg := updateAt_grow P { s with bufs := bufs, dicts := s.dicts ++ dicts } i e e.recheck (e.cols.filter e.isMeta ++ data.2) ancil
    obtain ⟨y, hy⟩ := hg.dicts
    exact ⟨((concatCols_spec h1).1.trans h2).trans hg.bufs, ⟨dicts ++ y, by rw [hy]; simp⟩, hg.vars, hg.dvars, hg.enss, hg.len⟩

theorem step_grow (P : Params V) (s : St V) (op : Op V) (h : ¬ writesInPlace op) : Grow s (step P s op).2 (changes op) := by
  cases op with
  | array o rows => exact ⟨alloc_ext _ _ _, ⟨[], by simp [step]⟩, ⟨_, rfl⟩, ⟨[], by simp [step]⟩, fun _ _ _ => rfl, le_refl _⟩
  | view a rows =>
    simp only [step]
    split
    · exact Grow.refl _ _
    · exact ⟨Ext.refl _, ⟨[], by simp⟩, ⟨_, rfl⟩, ⟨[], by simp⟩, fun _ _ _ => rfl, le_refl _⟩
  | write a i v => exact absurd trivial h
  | dict cols =>
    simp only [step]
    split
    · exact Grow.refl _ _
    · exact ⟨Ext.refl _, ⟨_, rfl⟩, ⟨[], by simp⟩, ⟨_, rfl⟩, fun _ _ _ => rfl, le_refl _⟩
  | dictSet d k a => exact absurd trivial h
  | dictGet d k =>
    simp only [step]
    split
    · exact Grow.refl _ _
    · exact ⟨Ext.refl _, ⟨[], by simp⟩, ⟨_, rfl⟩, ⟨[], by simp⟩, fun _ _ _ => rfl, le_refl _⟩
  | ancilOf e =>
    simp only [step]
    split
    · exact Grow.refl _ _
    · exact ⟨Ext.refl _, ⟨[], by simp⟩, ⟨[], by simp⟩, ⟨_, rfl⟩, fun _ _ _ => rfl, le_refl _⟩
  | column e k =>
    simp only [step]
    split
    · exact Grow.refl _ _
    · exact ⟨Ext.refl _, ⟨[], by simp⟩, ⟨_, rfl⟩, ⟨[], by simp⟩, fun _ _ _ => rfl, le_refl _⟩
  | build k check cols ancil =>
    simp only [step]
    split
    · split
      · exact Grow.refl _ _
      · rename_i out hc
        split_ifs
        · exact ⟨(construct_spec hc).1, ⟨[], by simp⟩, ⟨[], by simp⟩, ⟨[], by simp⟩,
            fun i hi _ => by simp [List.getElem?_append_left hi], by simp⟩
        · exact Grow.refl _ _
    · exact Grow.refl _ _
  | getItem e key =>
    simp only [step]
    split
    · exact Grow.refl _ _
    · exact getItemAt_grow _ _ _ _
  | append e o =>
    simp only [step]
    split
    · exact appendAt_grow _ _ _ _ _
    · exact Grow.refl _ _
  | update e check cols ancil =>
    simp only [step]
    split
    · exact updateAt_grow _ _ _ _ _ _ _
    · exact Grow.refl _ _
  | updateObjdata e cols ancil =>
    simp only [step]
    split
    · exact updateAt_grow _ _ _ _ _ _ _
    · exact Grow.refl _ _
  | setAncil e ancil =>
    simp only [step]
    split
    · split_ifs
      · refine ⟨Ext.refl _, ⟨[], by simp [St.setEns]⟩, ⟨[], by simp [St.setEns]⟩, ⟨[], by simp [St.setEns]⟩, fun j _ hj => ?_, by simp [St.setEns]⟩
        have : e ≠ j := fun h => hj (by rw [h]; rfl)
        simp [St.setEns, List.getElem?_set_ne this]
      · exact Grow.refl _ _
    · exact Grow.refl _ _
  | addToAncil e d => exact absurd trivial h

/-! ## Which buffers are used -/

omit [DecidableEq V] in
theorem used_var {s : St V} {skip : Option (ℕ × String)} {r : Ref} (h : r ∈ s.vars) : Used s skip r.buf := Or.inl ⟨r, h, rfl⟩

omit [DecidableEq V] in
theorem used_dict {s : St V} {skip : Option (ℕ × String)} {d : ℕ} {p : String × Ref} (h : p ∈ (s.dicts[d]?).getD []) :
    Used s skip p.2.buf := by
  cases hd : s.dicts[d]? with
  | none => rw [hd] at h; simp at h
  | some cs =>
    rw [hd] at h
    exact Or.inr (Or.inl ⟨cs, List.mem_of_getElem? hd, p, h, rfl⟩)

omit [DecidableEq V] in
theorem used_ens {s : St V} {skip : Option (ℕ × String)} {i : ℕ} {o : Obj} (ho : s.enss[i]? = some o) {p : String × Ref} (h : p ∈ o.cols)
    (hs : skip ≠ some (i, p.1)) : Used s skip p.2.buf := Or.inr (Or.inr ⟨i, o, ho, p, h, hs, rfl⟩)

/-- what may be left out: a column that is always normalised -/
def SkipOk (s : St V) (skip : Option (ℕ × String)) : Prop :=
  ∀ h c, skip = some (h, c) → ∃ o, s.enss[h]? = some o ∧ Normalised o.kind c

omit [DecidableEq V] in
/-- the columns of an object built from the columns of ensemble `i`, arrays of the program and arrays made since: each is new, or used -/
theorem construct_used {P : Params V} {s : St V} {skip : Option (ℕ × String)} {i : ℕ} {o : Obj} {bufs : List (Buf V)} {cs : Cols}
    {out : List (Buf V) × Cols} (ho : s.enss[i]? = some o) (hs : SkipOk s skip) (hx : Ext s.bufs bufs)
    (hc : construct P o.kind o.recheck bufs cs = some out)
    (hcs : ∀ p ∈ cs, (∃ q ∈ o.cols, q.1 = p.1 ∧ p.2.buf = q.2.buf) ∨ p.2 ∈ s.vars ∨ (s.bufs.length ≤ p.2.buf ∧ p.2.buf < bufs.length))
    {q : String × Ref} (hq : q ∈ out.2) : Used s skip q.2.buf ∨ (s.bufs.length ≤ q.2.buf ∧ q.2.buf < out.1.length) := by
  have hle := hx.le
  have hle' := (construct_spec hc).1.le
  rcases construct_mem hc hq with h | ⟨hm, hn⟩
  · exact Or.inr ⟨by omega, h.2⟩
  · rcases hcs q hm with ⟨p, hp, hpn, hpb⟩ | h | h
    · left
      rw [hpb]
      refine used_ens ho hp fun hsk => ?_
      obtain ⟨o', ho', hnorm⟩ := hs _ _ hsk
      obtain rfl := Option.some.inj (ho.symm.trans ho')
      rw [makesNew_norm P hnorm, hpn] at hn
      simp at hn
    · exact Or.inl (used_var h)
    · exact Or.inr ⟨h.1, by omega⟩

omit [DecidableEq V] in
theorem slice_used {key : Key} {bufs : List (Buf V)} {cs : Cols} {out : List (Buf V) × Cols} (h : sliceCols key bufs cs = some out)
    {p : String × Ref} (hp : p ∈ out.2) :
    (∃ q ∈ cs, q.1 = p.1 ∧ p.2.buf = q.2.buf) ∨ (bufs.length ≤ p.2.buf ∧ p.2.buf < out.1.length) := by
  obtain ⟨q, hq, h1, h2⟩ := forall₂_right (sliceCols_spec h) hp
  rcases h2 with h2 | h2
  · exact Or.inl ⟨q, hq, h1.symm, h2⟩
  · exact Or.inr h2

omit [DecidableEq V] in
theorem getItemAt_used {P : Params V} {s : St V} {skip : Option (ℕ × String)} {i : ℕ} {o : Obj} {key : Key} (ho : s.enss[i]? = some o)
    (hs : SkipOk s skip) {b : ℕ} (h : Used (getItemAt P s o key).2 skip b) :
    Used s skip b ∨ (s.bufs.length ≤ b ∧ b < (getItemAt P s o key).2.bufs.length) := by
  cases hb : (getItemAt P s o key).1 with
  | false => rw [getItemAt_fail hb] at h; exact Or.inl h
  | true =>
    have hh : getItemAt P s o key = (true, (getItemAt P s o key).2) := Prod.ext hb rfl
    obtain ⟨data, sub, out, h1, h2, h3, h4⟩ := getItemAt_spec hh
    rw [h4] at h ⊢
    have e1 := sliceCols_ext h1
    have e2 := sliceAncilAt_ext h2
    have e3 := (construct_spec h3).1
    have l1 := e1.le
    have l2 := e2.le
    have l3 := e3.le
    rcases h with ⟨r, hr, rfl⟩ | ⟨cs, hcs, p, hp, rfl⟩ | ⟨j, o', ho', p, hp, hne, rfl⟩
    · exact Or.inl (used_var hr)
    · simp only [List.mem_append] at hcs
      rcases hcs with hcs | hcs
      · exact Or.inl (Or.inr (Or.inl ⟨cs, hcs, p, hp, rfl⟩))
      · cases ha : o.ancil with
        | none =>
          rw [ha] at h2
          simp only [sliceAncilAt] at h2
          obtain rfl := Option.some.inj h2
          simp at hcs
        | some d =>
          rw [ha] at h2
          simp only [sliceAncilAt, Option.map_eq_some_iff] at h2
          obtain ⟨a, ha', rfl⟩ := h2
          simp only [Option.toList_some, List.mem_singleton] at hcs
          subst hcs
          rcases slice_used ha' hp with ⟨q, hq, -, hqb⟩ | hq
          · rw [hqb]; exact Or.inl (used_dict hq)
          · exact Or.inr ⟨by omega, lt_of_lt_of_le hq.2 l3⟩
    · simp only [List.getElem?_append] at ho'
      split_ifs at ho' with hj
      · exact Or.inl (used_ens ho' hp hne)
      · have : o' = ⟨o.kind, o.recheck, out.2, sub.2.map fun _ => s.dicts.length⟩ := by
          have := List.mem_of_getElem? ho'
          simpa using this
        subst this
        refine construct_used ho hs (e1.trans e2) h3 (fun q hq => ?_) hp
        rcases List.mem_append.1 hq with hq | hq
        · exact Or.inl ⟨q, (List.mem_filter.1 hq).1, rfl, rfl⟩
        · rcases slice_used h1 hq with ⟨q', hq', hn, hb'⟩ | hq'
          · exact Or.inl ⟨q', (List.mem_filter.1 hq').1, hn, hb'⟩
          · exact Or.inr (Or.inr ⟨hq'.1, by omega⟩)

omit [DecidableEq V] in
/-- rebuilding an ensemble from arrays that are in use or new -/
theorem updateAt_used {P : Params V} {s s₀ : St V} {skip : Option (ℕ × String)} {i : ℕ} {o : Obj} {check : Bool} {cs : Cols}
    {ancil : Option ℕ} (hx : Ext s₀.bufs s.bufs)
    (hs : ∀ b, Used s skip b → Used s₀ skip b ∨ (s₀.bufs.length ≤ b ∧ b < s.bufs.length))
    (hcs : ∀ p ∈ cs, Used s₀ skip p.2.buf ∨ (s₀.bufs.length ≤ p.2.buf ∧ p.2.buf < s.bufs.length)) {b : ℕ}
    (h : Used (updateAt P s i o check cs ancil).2 skip b) :
    Used s₀ skip b ∨ (s₀.bufs.length ≤ b ∧ b < (updateAt P s i o check cs ancil).2.bufs.length) := by
  rcases updateAt_spec P s i o check cs ancil with he | ⟨out, a, ok, hc, -, he⟩
  · rw [he] at h ⊢; exact hs b h
  · rw [he] at h ⊢
    have l1 := hx.le
    have l2 := (construct_spec hc).1.le
    have old : ∀ b, Used s skip b → Used s₀ skip b ∨ (s₀.bufs.length ≤ b ∧ b < out.1.length) := fun b hb => by
      rcases hs b hb with h | h
      · exact Or.inl h
      · exact Or.inr ⟨h.1, by omega⟩
    rcases h with ⟨r, hr, rfl⟩ | ⟨cs', hcs', p, hp, rfl⟩ | ⟨j, o', ho', p, hp, hne, rfl⟩
    · exact old _ (used_var hr)
    · exact old _ (Or.inr (Or.inl ⟨cs', hcs', p, hp, rfl⟩))
    · simp only [List.getElem?_set] at ho'
      split_ifs at ho' with hj
      · obtain rfl := Option.some.inj ho'
        rcases construct_mem hc hp with h | ⟨hm, -⟩
        · exact Or.inr ⟨by omega, h.2⟩
        · rcases hcs p hm with h | h
          · exact Or.inl h
          · exact Or.inr ⟨h.1, by dsimp only; omega⟩
      · exact old _ (used_ens ho' hp hne)

theorem appendAt_used {P : Params V} {s : St V} {skip : Option (ℕ × String)} {i : ℕ} {e o : Obj} (he : s.enss[i]? = some e)
    (hi : ∀ c, skip ≠ some (i, c)) {b : ℕ} (h : Used (appendAt P s i e o).2 skip b) :
    Used s skip b ∨ (s.bufs.length ≤ b ∧ b < (appendAt P s i e o).2.bufs.length) := by
  rcases appendAt_spec P s i e o with hf | ⟨data, bufs, dicts, ancil, h1, h2, h3, hf⟩
  · rw [hf] at h; exact Or.inl h
  · rw [hf] at h ⊢
    obtain ⟨e1, f1⟩ := concatCols_spec h1
    have l1 := e1.le
    have l2 := h2.le
    refine updateAt_used (s₀ := s) (e1.trans h2) (fun b hb => ?_) (fun p hp => ?_) h
    · rcases hb with ⟨r, hr, rfl⟩ | ⟨cs', hcs', p, hp, rfl⟩ | ⟨j, o', ho', p, hp, hne, rfl⟩
      · exact Or.inl (used_var hr)
      · simp only [List.mem_append] at hcs'
        rcases hcs' with hcs' | hcs'
        · exact Or.inl (Or.inr (Or.inl ⟨cs', hcs', p, hp, rfl⟩))
        · rcases h3 with ⟨rfl, -⟩ | ⟨d, d', a, -, -, ha, rfl, rfl, -⟩
          · simp at hcs'
          · simp only [List.mem_singleton] at hcs'
            subst hcs'
            obtain ⟨q, -, -, h5, h6⟩ := forall₂_right (concatCols_spec ha).2 hp
            exact Or.inr ⟨by omega, h6⟩
      · exact Or.inl (used_ens (s := s) ho' hp hne)
    · rcases List.mem_append.1 hp with hp | hp
      · exact Or.inl (used_ens he (List.mem_filter.1 hp).1 (hi _))
      · obtain ⟨q, -, -, h5, h6⟩ := forall₂_right f1 hp
        exact Or.inr ⟨h5, by dsimp only; omega⟩

/-- **Where buffers come from.** After an operation that is not called to give ensemble `h` other PDFs and does not hand out its column, what
uses a buffer (the column left out) used it before, or the buffer is new. -/
theorem step_used {P : Params V} {s : St V} {skip : Option (ℕ × String)} {op : Op V} (hs : SkipOk s skip)
    (hr : ∀ h c, skip = some (h, c) → rebuilds op ≠ some h ∧ ¬ takes op h c) {b : ℕ} (h : Used (step P s op).2 skip b) :
    Used s skip b ∨ (s.bufs.length ≤ b ∧ b < (step P s op).2.bufs.length) := by
  cases op with
  | array oneD rows =>
    simp only [step, alloc] at h ⊢
    rcases h with ⟨r, hr, rfl⟩ | h | h
    · simp only [List.mem_append, List.mem_singleton] at hr
      rcases hr with hr | rfl
      · exact Or.inl (used_var hr)
      · right; simp
    · exact Or.inl (Or.inr (Or.inl h))
    · exact Or.inl (Or.inr (Or.inr h))
  | view a rows =>
    simp only [step] at h ⊢
    split at h
    · exact Or.inl h
    · rename_i r hr
      rcases h with ⟨q, hq, rfl⟩ | h | h
      · simp only [List.mem_append, List.mem_singleton] at hq
        rcases hq with hq | rfl
        · exact Or.inl (used_var hq)
        · exact Or.inl (used_var (r := r) (List.mem_of_getElem? hr))
      · exact Or.inl (Or.inr (Or.inl h))
      · exact Or.inl (Or.inr (Or.inr h))
  | write a i v =>
    simp only [step] at h ⊢
    split at h
    · exact Or.inl h
    · split at h
      · exact Or.inl h
      · exact Or.inl h
  | dict cols =>
    simp only [step] at h ⊢
    split at h
    · exact Or.inl h
    · rename_i cs hcs
      rcases h with h | ⟨cs', hcs', p, hp, rfl⟩ | h
      · exact Or.inl (Or.inl h)
      · simp only [List.mem_append, List.mem_singleton] at hcs'
        rcases hcs' with hcs' | rfl
        · exact Or.inl (Or.inr (Or.inl ⟨cs', hcs', p, hp, rfl⟩))
        · exact Or.inl (used_var (mem_argCols hcs hp))
      · exact Or.inl (Or.inr (Or.inr h))
  | dictSet d k a =>
    simp only [step] at h ⊢
    split at h
    · rename_i d' r hd hr
      left
      rcases h with h | ⟨cs', hcs', p, hp, rfl⟩ | h
      · exact Or.inl h
      · obtain ⟨j, hj, rfl⟩ := List.getElem_of_mem hcs'
        simp only [List.getElem_modify] at hp
        simp only [List.length_modify] at hj
        split_ifs at hp
        · rcases mem_setCol hp with hp | rfl
          · exact Or.inr (Or.inl ⟨_, List.getElem_mem hj, p, hp, rfl⟩)
          · exact used_var (List.mem_of_getElem? hr)
        · exact Or.inr (Or.inl ⟨_, List.getElem_mem hj, p, hp, rfl⟩)
      · exact Or.inr (Or.inr h)
    · exact Or.inl h
  | dictGet d k =>
    simp only [step] at h ⊢
    split at h
    · exact Or.inl h
    · rename_i r hr
      simp only [Option.bind_eq_some_iff] at hr
      obtain ⟨d', -, cs, hcs, hk⟩ := hr
      rcases h with ⟨q, hq, rfl⟩ | h | h
      · simp only [List.mem_append, List.mem_singleton] at hq
        rcases hq with hq | rfl
        · exact Or.inl (used_var hq)
        · exact Or.inl (Or.inr (Or.inl ⟨cs, List.mem_of_getElem? hcs, _, mem_col? hk, rfl⟩))
      · exact Or.inl (Or.inr (Or.inl h))
      · exact Or.inl (Or.inr (Or.inr h))
  | ancilOf e =>
    simp only [step] at h ⊢
    split at h
    · exact Or.inl h
    · exact Or.inl h
  | column e k =>
    simp only [step] at h ⊢
    split at h
    · exact Or.inl h
    · rename_i r hk
      simp only [Option.bind_eq_some_iff] at hk
      obtain ⟨o, ho, hk⟩ := hk
      rcases h with ⟨q, hq, rfl⟩ | h | h
      · simp only [List.mem_append, List.mem_singleton] at hq
        rcases hq with hq | rfl
        · exact Or.inl (used_var hq)
        · refine Or.inl (used_ens ho (mem_col? hk) fun hsk => ?_)
          exact (hr e k hsk).2 rfl
      · exact Or.inl (Or.inr (Or.inl h))
      · exact Or.inl (Or.inr (Or.inr h))
  | build k check cols ancil =>
    simp only [step] at h ⊢
    split at h
    · rename_i cs anc hcs hanc
      split at h
      · exact Or.inl h
      · rename_i out hc
        split_ifs at h ⊢
        · rcases h with h | h | ⟨j, o', ho', p, hp, hne, rfl⟩
          · exact Or.inl (Or.inl h)
          · exact Or.inl (Or.inr (Or.inl h))
          · simp only [List.getElem?_append] at ho'
            split_ifs at ho' with hj
            · exact Or.inl (used_ens ho' hp hne)
            · have : o' = ⟨k, check, out.2, anc⟩ := by
                have := List.mem_of_getElem? ho'
                simpa using this
              subst this
              rcases construct_mem hc hp with h | ⟨hm, -⟩
              · exact Or.inr h
              · exact Or.inl (used_var (mem_argCols hcs hm))
        · exact Or.inl h
    · exact Or.inl h
  | getItem e key =>
    simp only [step] at h ⊢
    split at h
    · exact Or.inl h
    · rename_i o ho
      exact getItemAt_used ho hs h
  | append e o =>
    simp only [step] at h ⊢
    split at h
    · rename_i e' o' he ho
      exact appendAt_used he (fun c hc => (hr e c hc).1 rfl) h
    · exact Or.inl h
  | update e check cols ancil =>
    simp only [step] at h ⊢
    split at h
    · rename_i o cs anc ho hcs hanc
      exact updateAt_used (s₀ := s) (Ext.refl _) (fun b hb => Or.inl hb)
        (fun p hp => Or.inl (used_var (mem_argCols hcs hp))) h
    · exact Or.inl h
  | updateObjdata e cols ancil =>
    simp only [step] at h ⊢
    split at h
    · rename_i o cs anc ho hcs hanc
      refine updateAt_used (s₀ := s) (Ext.refl _) (fun b hb => Or.inl hb) (fun p hp => ?_) h
      rcases mem_updateCols hp with hp | hp
      · exact Or.inl (used_ens ho hp fun hc => (hr e p.1 hc).1 rfl)
      · exact Or.inl (used_var (mem_argCols hcs hp))
    · exact Or.inl h
  | setAncil e ancil =>
    simp only [step] at h ⊢
    split at h
    · rename_i o anc ho hanc
      split_ifs at h ⊢
      · rcases h with h | h | ⟨j, o', ho', p, hp, hne, rfl⟩
        · exact Or.inl (Or.inl h)
        · exact Or.inl (Or.inr (Or.inl h))
        · simp only [St.setEns, List.getElem?_set] at ho'
          split_ifs at ho' with hj hl
          · subst hj
            obtain rfl := Option.some.inj ho'
            exact Or.inl (used_ens ho hp hne)
          · exact Or.inl (used_ens ho' hp hne)
      · exact Or.inl h
    · exact Or.inl h
  | addToAncil e d =>
    simp only [step] at h ⊢
    split at h
    · rename_i o d' ho hd
      split at h
      · exact Or.inl h
      · rename_i a ha
        split_ifs at h ⊢
        · left
          rcases h with h | ⟨cs', hcs', p, hp, rfl⟩ | h
          · exact Or.inl h
          · obtain ⟨j, hj, rfl⟩ := List.getElem_of_mem hcs'
            simp only [List.getElem_modify] at hp
            simp only [List.length_modify] at hj
            split_ifs at hp
            · rcases mem_updateCols hp with hp | hp
              · exact Or.inr (Or.inl ⟨_, List.getElem_mem hj, p, hp, rfl⟩)
              · exact used_dict hp
            · exact Or.inr (Or.inl ⟨_, List.getElem_mem hj, p, hp, rfl⟩)
          · exact Or.inr (Or.inr h)
        · exact Or.inl h
    · exact Or.inl h

/-! ## Every reference points to something -/

/-- every array and every dictionary that is referred to exists -/
structure Sound (s : St V) : Prop where
  bufs : ∀ b, Used s none b → b < s.bufs.length
  dvars : ∀ d ∈ s.dvars, d < s.dicts.length
  ancil : ∀ o ∈ s.enss, ∀ d, o.ancil = some d → d < s.dicts.length

theorem inPlace_bufs (P : Params V) (s : St V) (op : Op V) (h : writesInPlace op) : (step P s op).2.bufs.length = s.bufs.length ∧
    (step P s op).2.dicts.length = s.dicts.length ∧ (step P s op).2.vars = s.vars ∧ (step P s op).2.dvars = s.dvars ∧
    (step P s op).2.enss = s.enss := by
  cases op <;> simp only [writesInPlace] at h
  case write a i v =>
    simp only [step]
    split
    · exact ⟨rfl, rfl, rfl, rfl, rfl⟩
    · split
      · exact ⟨rfl, rfl, rfl, rfl, rfl⟩
      · exact ⟨by simp, rfl, rfl, rfl, rfl⟩
  case dictSet d k a =>
    simp only [step]
    split
    · exact ⟨rfl, by simp, rfl, rfl, rfl⟩
    · exact ⟨rfl, rfl, rfl, rfl, rfl⟩
  case addToAncil e d =>
    simp only [step]
    split
    · split
      · exact ⟨rfl, rfl, rfl, rfl, rfl⟩
      · split_ifs
        · exact ⟨rfl, by simp, rfl, rfl, rfl⟩
        · exact ⟨rfl, rfl, rfl, rfl, rfl⟩
    · exact ⟨rfl, rfl, rfl, rfl, rfl⟩

theorem bufs_le (P : Params V) (s : St V) (op : Op V) : s.bufs.length ≤ (step P s op).2.bufs.length := by
  by_cases h : writesInPlace op
  · exact (inPlace_bufs P s op h).1.ge
  · exact (step_grow P s op h).bufs.le

theorem dicts_le (P : Params V) (s : St V) (op : Op V) : s.dicts.length ≤ (step P s op).2.dicts.length := by
  by_cases h : writesInPlace op
  · exact (inPlace_bufs P s op h).2.1.ge
  · obtain ⟨y, hy⟩ := (step_grow P s op h).dicts
    rw [hy]; simp

theorem argDict_lt {s : St V} (hs : Sound s) {a d : Option ℕ} (h : argDict s.dvars a = some d) {x : ℕ} (hx : d = some x) :
    x < s.dicts.length := by
  subst hx
  cases a with
  | none => simp [argDict] at h
  | some a =>
    simp only [argDict, Option.map_eq_some_iff] at h
    obtain ⟨y, hy, hxy⟩ := h
    obtain rfl := Option.some.inj hxy
    exact hs.dvars _ (List.mem_of_getElem? hy)

theorem updateAt_ancil {P : Params V} {s : St V} {i : ℕ} {e : Obj} {check : Bool} {cs : Cols} {ancil : Option ℕ} {n : ℕ}
    (hs : ∀ o ∈ s.enss, ∀ d, o.ancil = some d → d < n) (he : ∀ d, e.ancil = some d → d < n) (ha : ∀ d, ancil = some d → d < n) :
    ∀ o ∈ (updateAt P s i e check cs ancil).2.enss, ∀ d, o.ancil = some d → d < n := by
  rcases updateAt_spec P s i e check cs ancil with h | ⟨out, a, ok, hc, hor, h⟩
  · rw [h]; exact hs
  · rw [h]
    intro o ho d hd
    rcases List.mem_or_eq_of_mem_set ho with ho | rfl
    · exact hs o ho d hd
    · rcases hor with rfl | rfl
      · exact ha d hd
      · exact he d hd

theorem sound_step (P : Params V) (s : St V) (op : Op V) (h : Sound s) : Sound (step P s op).2 := by
  have hb : ∀ b, Used (step P s op).2 none b → b < (step P s op).2.bufs.length := by
    intro b hb
    rcases step_used (P := P) (s := s) (skip := none) (op := op) (by intro h c hc; simp at hc) (by intro h c hc; simp at hc) hb with hu | hu
    · exact lt_of_lt_of_le (h.bufs b hu) (bufs_le P s op)
    · exact hu.2
  have hd := dicts_le P s op
  have old : ∀ o ∈ s.enss, ∀ d, o.ancil = some d → d < (step P s op).2.dicts.length := fun o ho d hod => lt_of_lt_of_le (h.ancil o ho d hod) hd
  have oldv : ∀ d ∈ s.dvars, d < (step P s op).2.dicts.length := fun d hd' => lt_of_lt_of_le (h.dvars d hd') hd
  by_cases hw : writesInPlace op
  · obtain ⟨-, -, -, h4, h5⟩ := inPlace_bufs P s op hw
    exact ⟨hb, by rw [h4]; exact oldv, by rw [h5]; exact old⟩
  refine ⟨hb, ?_, ?_⟩
  · cases op with
    | dict cols =>
      simp only [step] at oldv ⊢
      split
      · exact h.dvars
      · intro d hd
        simp only [List.mem_append, List.mem_singleton] at hd
        rcases hd with hd | rfl
        · have := h.dvars d hd
          simp; omega
        · simp
    | ancilOf e =>
      simp only [step]
      split
      · exact h.dvars
      · rename_i d' hd'
        simp only [Option.bind_eq_some_iff] at hd'
        obtain ⟨o, ho, hod⟩ := hd'
        intro d hd
        simp only [List.mem_append, List.mem_singleton] at hd
        rcases hd with hd | rfl
        · exact h.dvars d hd
        · exact h.ancil o (List.mem_of_getElem? ho) d hod
    | array => exact oldv
    | view => simp only [step] at oldv ⊢; split <;> exact h.dvars
    | write => exact absurd trivial hw
    | dictSet => exact absurd trivial hw
    | addToAncil => exact absurd trivial hw
    | dictGet => simp only [step]; split <;> exact h.dvars
    | column => simp only [step]; split <;> exact h.dvars
    | build =>
      simp only [step]
      split
      · split
        · exact h.dvars
        · split_ifs <;> exact h.dvars
      · exact h.dvars
    | getItem e key =>
      have hg := oldv
      simp only [step] at hg ⊢
      split
      · exact h.dvars
      · rename_i o ho
        simp only [ho] at hg
        cases hbo : (getItemAt P s o key).1 with
        | false => rw [getItemAt_fail hbo]; exact h.dvars
        | true =>
          have hh : getItemAt P s o key = (true, (getItemAt P s o key).2) := Prod.ext hbo rfl
          obtain ⟨data, sub, out, h1, h2, h3, h4⟩ := getItemAt_spec hh
          rw [h4] at hg ⊢
          exact hg
    | append e o =>
      have hg := oldv
      simp only [step] at hg ⊢
      split
      · rename_i e' o' he ho
        simp only [he, ho] at hg
        rcases appendAt_spec P s e e' o' with hf | ⟨data, bufs, dicts, ancil, h1, h2, h3, hf⟩
        · rw [hf]; exact h.dvars
        · rw [hf] at hg ⊢
          rcases updateAt_spec P { s with bufs := bufs, dicts := s.dicts ++ dicts } e e' e'.recheck (e'.cols.filter e'.isMeta ++ data.2)
            ancil with hu | ⟨out, a, ok, hc, hor, hu⟩
          · rw [hu] at hg ⊢; exact hg
          · rw [hu] at hg ⊢; exact hg
      · exact h.dvars
    | update e check cols ancil =>
      simp only [step]
      split
      · rename_i o cs anc ho hcs hanc
        rcases updateAt_spec P s e o check cs anc with hu | ⟨out, a, ok, hc, hor, hu⟩
        · rw [hu]; exact h.dvars
        · rw [hu]; exact h.dvars
      · exact h.dvars
    | updateObjdata e cols ancil =>
      simp only [step]
      split
      · rename_i o cs anc ho hcs hanc
        rcases updateAt_spec P s e o o.recheck (updateCols o.cols cs) anc with hu | ⟨out, a, ok, hc, hor, hu⟩
        · rw [hu]; exact h.dvars
        · rw [hu]; exact h.dvars
      · exact h.dvars
    | setAncil e ancil =>
      simp only [step]
      split
      · split_ifs <;> exact h.dvars
      · exact h.dvars
  · cases op with
    | array => exact h.ancil
    | view => simp only [step]; split <;> exact h.ancil
    | write => exact absurd trivial hw
    | dictSet => exact absurd trivial hw
    | addToAncil => exact absurd trivial hw
    | dict cols =>
      simp only [step]
      split
      · exact h.ancil
      · intro o ho d hd
        have := h.ancil o ho d hd
        simp; omega
    | dictGet => simp only [step]; split <;> exact h.ancil
    | ancilOf => simp only [step]; split <;> exact h.ancil
    | column => simp only [step]; split <;> exact h.ancil
    | build k check cols ancil =>
      simp only [step]
      split
      · rename_i cs anc hcs hanc
        split
        · exact h.ancil
        · split_ifs
          · intro o ho d hd
            simp only [List.mem_append, List.mem_singleton] at ho
            rcases ho with ho | rfl
            · exact h.ancil o ho d hd
            · exact argDict_lt h hanc hd
          · exact h.ancil
      · exact h.ancil
    | getItem e key =>
      have hg := old
      simp only [step] at hg ⊢
      split
      · exact h.ancil
      · rename_i o ho
        simp only [ho] at hg
        cases hbo : (getItemAt P s o key).1 with
        | false => rw [getItemAt_fail hbo]; exact h.ancil
        | true =>
          have hh : getItemAt P s o key = (true, (getItemAt P s o key).2) := Prod.ext hbo rfl
          obtain ⟨data, sub, out, h1, h2, h3, h4⟩ := getItemAt_spec hh
          rw [h4] at hg ⊢
          intro o' ho' d hd
          simp only [List.mem_append, List.mem_singleton] at ho'
          rcases ho' with ho' | rfl
          · exact hg o' ho' d hd
          · simp only [Option.map_eq_some_iff] at hd
            obtain ⟨x, hx, rfl⟩ := hd
            simp [hx]
    | append e o =>
      have hg := old
      simp only [step] at hg ⊢
      split
      · rename_i e' o' he ho
        simp only [he, ho] at hg
        rcases appendAt_spec P s e e' o' with hf | ⟨data, bufs, dicts, ancil, h1, h2, h3, hf⟩
        · rw [hf]; exact h.ancil
        · rw [hf] at hg ⊢
          have hdl : (updateAt P { s with bufs := bufs, dicts := s.dicts ++ dicts } e e' e'.recheck (e'.cols.filter e'.isMeta ++ data.2)
              ancil).2.dicts = s.dicts ++ dicts := by
            rcases updateAt_spec P { s with bufs := bufs, dicts := s.dicts ++ dicts } e e' e'.recheck
              (e'.cols.filter e'.isMeta ++ data.2) ancil with hu | ⟨out, a, ok, hc, hor, hu⟩ <;> rw [hu]
          rw [hdl] at hg ⊢
          refine updateAt_ancil hg (fun d hd => hg e' (List.mem_of_getElem? he) d hd) (fun d hd => ?_)
          rcases h3 with ⟨-, h3⟩ | ⟨-, -, a, -, -, -, -, rfl, h3⟩
          · rw [h3] at hd; simp at hd
          · rw [h3] at hd
            obtain rfl := Option.some.inj hd
            simp
      · exact h.ancil
    | update e check cols ancil =>
      simp only [step]
      split
      · rename_i o cs anc ho hcs hanc
        have hdl : (updateAt P s e o check cs anc).2.dicts = s.dicts := by
          rcases updateAt_spec P s e o check cs anc with hu | ⟨out, a, ok, hc, hor, hu⟩ <;> rw [hu]
        rw [hdl]
        exact updateAt_ancil h.ancil (fun d hd => h.ancil o (List.mem_of_getElem? ho) d hd) (fun d hd => argDict_lt h hanc hd)
      · exact h.ancil
    | updateObjdata e cols ancil =>
      simp only [step]
      split
      · rename_i o cs anc ho hcs hanc
        have hdl : (updateAt P s e o o.recheck (updateCols o.cols cs) anc).2.dicts = s.dicts := by
          rcases updateAt_spec P s e o o.recheck (updateCols o.cols cs) anc with hu | ⟨out, a, ok, hc, hor, hu⟩ <;> rw [hu]
        rw [hdl]
        exact updateAt_ancil h.ancil (fun d hd => h.ancil o (List.mem_of_getElem? ho) d hd) (fun d hd => argDict_lt h hanc hd)
      · exact h.ancil
    | setAncil e ancil =>
      simp only [step]
      split
      · rename_i o anc ho hanc
        split_ifs
        · intro o' ho' d hd
          rcases List.mem_or_eq_of_mem_set ho' with ho' | rfl
          · exact h.ancil o' ho' d hd
          · exact argDict_lt h hanc hd
        · exact h.ancil
      · exact h.ancil

theorem sound_run (P : Params V) (ops : List (Op V)) : ∀ s : St V, Sound s → Sound (run P s ops) := by
  induction ops with
  | nil => intro s h; exact h
  | cons op ops ih => intro s h; exact ih _ (sound_step P s op h)

theorem reachable_sound {P : Params V} {s : St V} (h : Reachable P s) : Sound s := by
  obtain ⟨ops, rfl⟩ := h
  refine sound_run P ops _ ⟨fun b hb => ?_, by simp [start], by simp [start]⟩
  rcases hb with ⟨r, hr, -⟩ | ⟨cs, hcs, -⟩ | ⟨i, o, ho, -⟩
  · simp [start] at hr
  · simp [start] at hcs
  · simp [start] at ho

end Verif.Lemmas.Sharing
