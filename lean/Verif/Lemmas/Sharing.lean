import Verif.Model.Sharing

/-!
# Lemmas: memory only grows, and where the arrays an operation returns come from
-/

set_option linter.unusedSectionVars false
set_option autoImplicit false

namespace Verif.Lemmas.Sharing

open Verif Verif.Model Verif.Spec Verif.Model.Sharing

variable {V : Type}

theorem readRef_append (bufs x : List (Buf V)) (r : Ref) (h : r.buf < bufs.length) : readRef (bufs ++ x) r = readRef bufs r := by
  simp only [readRef]
  rw [List.getElem?_append_left h]

theorem readCols_append (bufs x : List (Buf V)) (cs : Cols) (h : ∀ p ∈ cs, p.2.buf < bufs.length) :
    readCols (bufs ++ x) cs = readCols bufs cs := by
  simp only [readCols]
  refine List.map_congr_left fun p hp => ?_
  rw [readRef_append _ _ _ (h p hp)]

/-- `bufs'` is `bufs` with new buffers -/
def Ext (bufs bufs' : List (Buf V)) : Prop := ∃ x, bufs' = bufs ++ x

theorem Ext.refl (bufs : List (Buf V)) : Ext bufs bufs := ⟨[], by simp⟩

theorem Ext.trans {a b c : List (Buf V)} (h : Ext a b) (h' : Ext b c) : Ext a c := by
  obtain ⟨x, rfl⟩ := h
  obtain ⟨y, rfl⟩ := h'
  exact ⟨x ++ y, by simp⟩

theorem Ext.le {a b : List (Buf V)} (h : Ext a b) : a.length ≤ b.length := by
  obtain ⟨x, rfl⟩ := h
  simp

theorem alloc_ext (bufs : List (Buf V)) (o : Bool) (rows : List V) : Ext bufs (alloc bufs o rows).1 := ⟨_, rfl⟩

theorem alloc_buf (bufs : List (Buf V)) (o : Bool) (rows : List V) :
    (alloc bufs o rows).2.buf = bufs.length ∧ (alloc bufs o rows).1.length = bufs.length + 1 := by simp [alloc]

theorem keepCols_ext (P : Params V) (k : RowKind) (check : Bool) (c : Contents V) (cs : Cols) :
    ∀ bufs : List (Buf V), Ext bufs (keepCols P k check c bufs cs).1 := by
  induction cs with
  | nil => intro bufs; exact Ext.refl _
  | cons p cs ih =>
    intro bufs
    obtain ⟨name, r⟩ := p
    simp only [keepCols]
    split_ifs
    · exact (alloc_ext _ _ _).trans (ih _)
    · exact ih _

/-- where the arrays of a new object come from: newly made, for the arguments that are replaced, and the argument itself otherwise -/
theorem keepCols_spec (P : Params V) (k : RowKind) (check : Bool) (c : Contents V) (cs : Cols) :
    ∀ bufs : List (Buf V), List.Forall₂ (fun p q => q.1 = p.1 ∧ (if makesNew P k check c p.1 then bufs.length ≤ q.2.buf ∧
        q.2.buf < (keepCols P k check c bufs cs).1.length ∧ q.2.rows = List.range (P.compute k p.1 c).length else q.2 = p.2))
      cs (keepCols P k check c bufs cs).2 := by
  induction cs with
  | nil => intro bufs; simp [keepCols]
  | cons p cs ih =>
    intro bufs
    obtain ⟨name, r⟩ := p
    simp only [keepCols]
    by_cases hn : makesNew P k check c name = true
    · simp only [hn, if_true]
      have hb := alloc_buf bufs (isOneD bufs r) (P.compute k name c)
      have hle := (keepCols_ext P k check c cs (alloc bufs (isOneD bufs r) (P.compute k name c)).1).le
      refine List.Forall₂.cons ⟨rfl, ?_⟩ ?_
      · rw [if_pos hn]
        exact ⟨by dsimp only; omega, by dsimp only; omega, by simp [alloc]⟩
      · refine (ih _).imp fun p q h => ⟨h.1, ?_⟩
        have h2 := h.2
        split_ifs at h2 ⊢ with hm
        · exact ⟨by omega, h2.2.1, h2.2.2⟩
        · exact h2
    · have hn' : makesNew P k check c name = false := by simpa using hn
      simp only [hn', Bool.false_eq_true, if_false]
      refine List.Forall₂.cons ⟨rfl, ?_⟩ (ih _)
      rw [if_neg hn]

theorem construct_spec {P : Params V} {k : RowKind} {check : Bool} {bufs : List (Buf V)} {cs : Cols} {out : List (Buf V) × Cols}
    (h : construct P k check bufs cs = some out) : Ext bufs out.1 ∧
      List.Forall₂ (fun p q => q.1 = p.1 ∧ (if makesNew P k check (readCols bufs cs) p.1 then bufs.length ≤ q.2.buf ∧
        q.2.buf < out.1.length ∧ q.2.rows = List.range (P.compute k p.1 (readCols bufs cs)).length else q.2 = p.2)) cs out.2 := by
  simp only [construct] at h
  split_ifs at h
  obtain rfl := Option.some.inj h
  exact ⟨keepCols_ext _ _ _ _ _ _, keepCols_spec _ _ _ _ _ _⟩

/-- each array of the result is new, or one of the arguments under the same name that is not replaced -/
theorem construct_mem {P : Params V} {k : RowKind} {check : Bool} {bufs : List (Buf V)} {cs : Cols} {out : List (Buf V) × Cols}
    (h : construct P k check bufs cs = some out) {q : String × Ref} (hq : q ∈ out.2) :
    (bufs.length ≤ q.2.buf ∧ q.2.buf < out.1.length) ∨ (q ∈ cs ∧ makesNew P k check (readCols bufs cs) q.1 = false) := by
  have hs := (construct_spec h).2
  obtain ⟨i, hi, rfl⟩ := List.getElem_of_mem hq
  have hlen := hs.length_eq
  have hi' : i < cs.length := by omega
  have hg := hs.get hi' hi
  simp only [List.get_eq_getElem] at hg
  obtain ⟨h1, h2⟩ := hg
  split_ifs at h2 with hm
  · exact Or.inl ⟨h2.1, h2.2.1⟩
  · right
    have he : out.2[i] = cs[i] := Prod.ext h1 h2
    rw [he]
    exact ⟨List.getElem_mem hi', by simpa using hm⟩

theorem copyRef_spec (bufs : List (Buf V)) (r : Ref) : Ext bufs (copyRef bufs r).1 ∧ (copyRef bufs r).2.buf = bufs.length ∧
    (copyRef bufs r).1.length = bufs.length + 1 := by simp [copyRef, alloc, Ext]

/-- a slice lives in the buffer of the array, or in a new one -/
theorem sliceRef_spec {bufs : List (Buf V)} {key : Key} {r : Ref} {out : List (Buf V) × Ref} (h : sliceRef bufs key r = some out) :
    Ext bufs out.1 ∧ ((out.2.buf = r.buf ∧ out.1 = bufs) ∨ (out.2.buf = bufs.length ∧ out.1.length = bufs.length + 1)) := by
  simp only [sliceRef] at h
  split at h
  · simp at h
  · obtain rfl := Option.some.inj h
    split_ifs
    · exact ⟨(copyRef_spec _ _).1, Or.inr (copyRef_spec _ _).2⟩
    · exact ⟨Ext.refl _, Or.inl ⟨rfl, rfl⟩⟩
  · split at h <;> obtain rfl := Option.some.inj h
    · exact ⟨Ext.refl _, Or.inl ⟨rfl, rfl⟩⟩
    · exact ⟨Ext.refl _, Or.inl ⟨rfl, rfl⟩⟩
    · exact ⟨(copyRef_spec _ _).1, Or.inr (copyRef_spec _ _).2⟩
    · exact ⟨(copyRef_spec _ _).1, Or.inr (copyRef_spec _ _).2⟩

theorem sliceCols_ext {key : Key} {cs : Cols} : ∀ {bufs : List (Buf V)} {out : List (Buf V) × Cols},
    sliceCols key bufs cs = some out → Ext bufs out.1 := by
  induction cs with
  | nil => intro bufs out h; obtain rfl := Option.some.inj h; exact Ext.refl _
  | cons p cs ih =>
    intro bufs out h
    obtain ⟨name, r⟩ := p
    simp only [sliceCols] at h
    split at h
    · simp at h
    · rename_i a ha
      split at h
      · simp at h
      · rename_i rest hrest
        obtain rfl := Option.some.inj h
        exact (sliceRef_spec ha).1.trans (ih (out := rest) hrest)

/-- the slices of a dictionary: the same names; each slice in the buffer of its array or in a new one -/
theorem sliceCols_spec {key : Key} {cs : Cols} : ∀ {bufs : List (Buf V)} {out : List (Buf V) × Cols},
    sliceCols key bufs cs = some out → List.Forall₂ (fun p q => q.1 = p.1 ∧
      (q.2.buf = p.2.buf ∨ (bufs.length ≤ q.2.buf ∧ q.2.buf < out.1.length))) cs out.2 := by
  induction cs with
  | nil => intro bufs out h; obtain rfl := Option.some.inj h; exact List.Forall₂.nil
  | cons p cs ih =>
    intro bufs out h
    obtain ⟨name, r⟩ := p
    simp only [sliceCols] at h
    split at h
    · simp at h
    · rename_i a ha
      split at h
      · simp at h
      · rename_i rest hrest
        obtain rfl := Option.some.inj h
        have h1 := sliceRef_spec ha
        have h2 := (sliceCols_ext hrest).le
        have h3 := h1.1.le
        refine List.Forall₂.cons ⟨rfl, ?_⟩ ((ih hrest).imp fun p q h => ⟨h.1, ?_⟩)
        · rcases h1.2 with h | h
          · exact Or.inl h.1
          · exact Or.inr ⟨by dsimp only; omega, by dsimp only; omega⟩
        · rcases h.2 with h | h
          · exact Or.inl h
          · exact Or.inr ⟨by omega, h.2⟩

theorem concatCols_spec {cs ds : Cols} : ∀ {bufs : List (Buf V)} {out : List (Buf V) × Cols},
    concatCols bufs cs ds = some out → Ext bufs out.1 ∧
      List.Forall₂ (fun p q => q.1 = p.1 ∧ bufs.length ≤ q.2.buf ∧ q.2.buf < out.1.length) cs out.2 := by
  induction cs with
  | nil => intro bufs out h; simp only [concatCols] at h; obtain rfl := Option.some.inj h; exact ⟨Ext.refl _, List.Forall₂.nil⟩
  | cons p cs ih =>
    intro bufs out h
    obtain ⟨name, r⟩ := p
    simp only [concatCols] at h
    split at h
    · simp at h
    · rename_i r' hr'
      split at h
      · simp at h
      · rename_i rest hrest
        obtain rfl := Option.some.inj h
        obtain ⟨h1, h2⟩ := ih hrest
        have hle := h1.le
        simp only [alloc, List.length_append, List.length_cons, List.length_nil] at hle
        refine ⟨(alloc_ext _ _ _).trans h1, List.Forall₂.cons ⟨rfl, by simp [alloc], ?_⟩ (h2.imp fun p q h => ⟨h.1, ?_, h.2.2⟩)⟩
        · simp only [alloc]; omega
        · have := h.2.1
          simp only [alloc, List.length_append, List.length_cons, List.length_nil] at this
          omega

theorem forall₂_right {α β : Type} {R : α → β → Prop} {l : List α} {l' : List β} (h : List.Forall₂ R l l') {b : β} (hb : b ∈ l') :
    ∃ a ∈ l, R a b := by
  induction h with
  | nil => simp at hb
  | cons h _ ih =>
    rcases List.mem_cons.1 hb with rfl | hb
    · exact ⟨_, List.mem_cons_self, h⟩
    · obtain ⟨a, ha, h⟩ := ih hb
      exact ⟨a, List.mem_cons_of_mem _ ha, h⟩

theorem forall₂_left {α β : Type} {R : α → β → Prop} {l : List α} {l' : List β} (h : List.Forall₂ R l l') {a : α} (ha : a ∈ l) :
    ∃ b ∈ l', R a b := by
  induction h with
  | nil => simp at ha
  | cons h _ ih =>
    rcases List.mem_cons.1 ha with rfl | ha
    · exact ⟨_, List.mem_cons_self, h⟩
    · obtain ⟨b, hb, h⟩ := ih ha
      exact ⟨b, List.mem_cons_of_mem _ hb, h⟩

theorem mem_setCol {cs : Cols} {k : String} {r : Ref} {p : String × Ref} (h : p ∈ setCol cs k r) : p ∈ cs ∨ p = (k, r) := by
  induction cs with
  | nil => right; simpa [setCol] using h
  | cons q cs ih =>
    simp only [setCol] at h
    split_ifs at h
    · rcases List.mem_cons.1 h with rfl | h
      · exact Or.inr rfl
      · exact Or.inl (List.mem_cons_of_mem _ h)
    · rcases List.mem_cons.1 h with rfl | h
      · exact Or.inl List.mem_cons_self
      · rcases ih h with h | h
        · exact Or.inl (List.mem_cons_of_mem _ h)
        · exact Or.inr h

theorem mem_updateCols {d2 : Cols} : ∀ {d : Cols} {p : String × Ref}, p ∈ updateCols d d2 → p ∈ d ∨ p ∈ d2 := by
  induction d2 with
  | nil => intro d p h; exact Or.inl h
  | cons q d2 ih =>
    intro d p h
    rcases ih (d := setCol d q.1 q.2) h with h | h
    · rcases mem_setCol h with h | h
      · exact Or.inl h
      · exact Or.inr (by simp [h])
    · exact Or.inr (List.mem_cons_of_mem _ h)

theorem mem_col? {cs : Cols} {k : String} {r : Ref} (h : col? cs k = some r) : (k, r) ∈ cs := by
  simp only [col?, Option.map_eq_some_iff] at h
  obtain ⟨p, hp, rfl⟩ := h
  have h1 := List.find?_some hp
  have h2 := List.mem_of_find?_eq_some hp
  simp only [decide_eq_true_eq] at h1
  rw [← h1]
  exact h2

theorem mem_argCols {vars : List Ref} {cols : List (String × ℕ)} {cs : Cols} (h : argCols vars cols = some cs) {p : String × Ref}
    (hp : p ∈ cs) : p.2 ∈ vars := by
  induction cols generalizing cs with
  | nil => simp [argCols] at h; subst h; simp at hp
  | cons q cols ih =>
    simp only [argCols, List.mapM_cons, Option.pure_def, Option.bind_eq_bind, Option.bind_eq_some_iff, Option.map_eq_some_iff] at h
    obtain ⟨a, ⟨r, hr, rfl⟩, l, hl, h⟩ := h
    obtain rfl := Option.some.inj h
    rcases List.mem_cons.1 hp with rfl | hp
    · exact List.mem_of_getElem? hr
    · exact ih (by simpa [argCols] using hl) hp

end Verif.Lemmas.Sharing
