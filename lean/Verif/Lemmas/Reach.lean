import Verif.Lemmas.Select

/-!
# The normal form is kept by every operation
-/

set_option linter.unusedSectionVars false
set_option autoImplicit false

namespace Verif.Lemmas

open Verif Verif.Np Verif.Model Verif.Spec

section
variable {K : Type}

theorem mem_set {d : Dict K} {k : String} {v : Val K} {p : String × Val K} (h : p ∈ Dict.set d k v) : p ∈ d ∨ p = (k, v) := by
  induction d with
  | nil => simp only [Dict.set, List.mem_singleton] at h; exact Or.inr h
  | cons q t ih =>
    obtain ⟨k', v'⟩ := q
    simp only [Dict.set] at h
    split_ifs at h with hk
    · rcases List.mem_cons.1 h with rfl | h
      · exact Or.inr rfl
      · exact Or.inl (by simp [h])
    · rcases List.mem_cons.1 h with rfl | h
      · exact Or.inl (by simp)
      · rcases ih h with h | h
        · exact Or.inl (by simp [h])
        · exact Or.inr h

theorem mem_update {d d2 : Dict K} {p : String × Val K} (h : p ∈ Dict.update d d2) : p ∈ d ∨ p ∈ d2 := by
  induction d2 generalizing d with
  | nil => exact Or.inl h
  | cons q t ih =>
    rcases ih (d := Dict.set d q.1 q.2) h with h | h
    · rcases mem_set h with h | rfl
      · exact Or.inl h
      · exact Or.inr (by simp)
    · exact Or.inr (by simp [h])

theorem get?_update_not_mem (d d2 : Dict K) (k : String) (hk : k ∉ Dict.keys d2) :
    Dict.get? (Dict.update d d2) k = Dict.get? d k := by
  induction d2 generalizing d with
  | nil => rfl
  | cons p t ih =>
    simp only [Dict.keys, List.map_cons, List.mem_cons, not_or] at hk
    show Dict.get? (Dict.update (Dict.set d p.1 p.2) t) k = _
    rw [ih _ hk.2, get?_set, if_neg (Ne.symm hk.1)]

theorem wf_update {d d2 : Dict K} (h1 : ∀ p ∈ d, p.2.toArr.Wf) (h2 : ∀ p ∈ d2, p.2.toArr.Wf) :
    ∀ p ∈ Dict.update d d2, p.2.toArr.Wf := by
  intro p hp
  rcases mem_update hp with h | h
  · exact h1 p h
  · exact h2 p h

theorem forall₂_mem_right {α β : Type} {R : α → β → Prop} {l : List α} {r : List β} (h : List.Forall₂ R l r) {b : β} (hb : b ∈ r) :
    ∃ a ∈ l, R a b := by
  induction h with
  | nil => simp at hb
  | cons hab _ ih =>
    rcases List.mem_cons.1 hb with rfl | hb
    · exact ⟨_, by simp, hab⟩
    · obtain ⟨a, ha, h⟩ := ih hb
      exact ⟨a, by simp [ha], h⟩

theorem wf_concatenateDicts {ds : List (Dict K)} {d : Dict K} (h : concatenateDicts ds = .ok d)
    (hw : ∀ x ∈ ds, ∀ p ∈ x, p.2.toArr.Wf) : ∀ p ∈ d, p.2.toArr.Wf := by
  cases ds with
  | nil => obtain rfl := Except.ok.inj h; simp
  | cons d0 t =>
    simp only [concatenateDicts] at h
    split_ifs at h
    rw [mapM_ok_iff] at h
    intro p hp
    obtain ⟨key, _, this⟩ := forall₂_mem_right h hp
    cases hc : concatKey (d0 :: t) key with
    | error e => rw [hc] at this; simp [Except.map] at this
    | ok v =>
      rw [hc] at this
      have e := Except.ok.inj this
      rw [← e]
      obtain ⟨vs, hvs, hc⟩ := bind_ok hc
      obtain ⟨a, ha, hc⟩ := bind_ok hc
      obtain rfl := Except.ok.inj hc
      refine (Arr.concatenate_rows ha ?_).1
      intro b hb
      rw [mapM_ok_iff] at hvs
      obtain ⟨x, hx, h2⟩ := forall₂_mem_right hvs hb
      unfold getArr at h2
      split at h2
      next v hv =>
        rw [← Except.ok.inj h2]
        exact hw x hx _ (mem_of_get? hv)
      next => simp at h2

theorem keys_concatenateDicts {d0 : Dict K} {t : List (Dict K)} {d : Dict K} (h : concatenateDicts (d0 :: t) = .ok d) :
    Dict.keys d = Dict.keys d0 := by
  simp only [concatenateDicts] at h
  split_ifs at h
  rw [mapM_ok_iff] at h
  apply List.ext_getElem
  · simp only [Dict.keys, List.length_map] at h ⊢
    have := h.length_eq
    simpa [Dict.keys] using this.symm
  · intro j h1 h2
    have := (List.forall₂_iff_get.1 h).2 j h2 (by simpa [Dict.keys] using h1)
    simp only [List.get_eq_getElem] at this
    cases hc : concatKey (d0 :: t) (Dict.keys d0)[j] with
    | error e => rw [hc] at this; simp [Except.map] at this
    | ok v =>
      rw [hc] at this
      have e := Except.ok.inj this
      simp only [Dict.keys, List.getElem_map]
      rw [← e]
      simp [Dict.keys]

end

section
variable {K : Type} [IntCast K]

theorem storeRows_wf {c : RowCls K} {mo : List (String × Arr (Elem K))} {ws : List ℕ} {out : List (List (List (Elem K)))}
    (hf : Fixed c mo ws out) : ∀ p ∈ storeRows c.rowArgs ws out, p.2.toArr.Wf := by
  intro p hp
  rw [storeRows_eq] at hp
  obtain ⟨q, hq, rfl⟩ := List.mem_map.1 hp
  obtain ⟨j, hj, e⟩ := List.mem_iff_getElem.1 hq
  simp only [List.getElem_zipIdx, List.getElem_zip, zero_add] at e
  have hjw : j < ws.length := by simp [hf.wl] at hj ⊢; omega
  rw [← e]
  exact tab_wf hf.len j hjw

theorem metaDict_wf {mo : List (String × Arr (Elem K))} (h : ∀ p ∈ mo, p.2.Wf) : ∀ p ∈ metaDict mo, p.2.toArr.Wf := by
  intro p hp
  obtain ⟨q, hq, rfl⟩ := List.mem_map.1 hp
  exact h q hq

/-- the metadata that `append`, `update_objdata` and `concatenate` pass on -/
theorem filter_frozenOf {c : RowCls K} {mo : List (String × Arr (Elem K))} {ws : List ℕ}
    {out : List (List (List (Elem K)))} (hf : Fixed c mo ws out) (s : List ℕ) :
    ((frozenOf c mo ws out s).metadata.filter fun p => p.1 ≠ "pdf_name" ∧ p.1 ≠ "pdf_version").map (fun p => (p.1, p.2.squeeze))
      = metaDict mo := by
  have h1 : ∀ p ∈ mo, p.1 ≠ "pdf_name" := fun p hp e => hf.names.name (by
    rw [← e]; exact List.mem_append_left _ (hf.mok p hp))
  have h2 : ∀ p ∈ mo, p.1 ≠ "pdf_version" := fun p hp e => hf.names.version (by
    rw [← e]; exact List.mem_append_left _ (hf.mok p hp))
  have e1 : (mo.map fun p => (p.1, Val.arr p.2.expand0)).filter (fun p => decide (p.1 ≠ "pdf_name" ∧ p.1 ≠ "pdf_version"))
      = mo.map fun p => (p.1, Val.arr p.2.expand0) := by
    rw [List.filter_eq_self]
    intro q hq
    obtain ⟨p, hp, rfl⟩ := List.mem_map.1 hq
    simpa using ⟨h1 p hp, h2 p hp⟩
  simp only [frozenOf, List.filter_append, e1]
  simp only [classMeta, List.filter_cons, ne_eq, not_true_eq_false, false_and, decide_false, Bool.false_eq_true, if_false,
    and_false, List.filter_nil, List.nil_append, List.map_map, metaDict]
  apply List.map_congr_left
  intro p hp
  simp only [Function.comp, Val.squeeze, Val.toArr, hf.sq p hp]

end

section
variable {K : Type} [Field K] [LinearOrder K] [IsStrictOrderedRing K]

theorem stored_frozen {k : RowKind} {e e' : Ens K} {mo : List (String × Arr (Elem K))} {ws : List ℕ}
    {out : List (List (List (Elem K)))} (h : Stored k e mo ws out) (h1 : e'.create = e.create) (h2 : e'.genFunc = e.genFunc)
    (h3 : e'.frozen = e.frozen) : Stored k e' mo ws out :=
  ⟨h1.trans h.create, h2.trans h.gen, by rw [h3]; exact h.frozen, h.fixed, h.w, h.plain, h.mwf, h.ne⟩

theorem setAncil_frozen (e : Ens K) (a : Option (Dict K)) :
    (setAncil e a).2.create = e.create ∧ (setAncil e a).2.genFunc = e.genFunc ∧ (setAncil e a).2.frozen = e.frozen := by
  unfold setAncil
  cases checkArrayShapes a e.frozen.npdf with
  | error _ => exact ⟨rfl, rfl, rfl⟩
  | ok _ => exact ⟨rfl, rfl, rfl⟩

theorem addToAncil_frozen (e : Ens K) (a : Dict K) :
    (addToAncil e a).2.create = e.create ∧ (addToAncil e a).2.genFunc = e.genFunc ∧ (addToAncil e a).2.frozen = e.frozen := by
  unfold addToAncil
  cases checkArrayShapes (some a) e.frozen.npdf with
  | error _ => exact ⟨rfl, rfl, rfl⟩
  | ok _ => cases e.ancil <;> exact ⟨rfl, rfl, rfl⟩

theorem stored_update {k : RowKind} {e : Ens K} {mo : List (String × Arr (Elem K))} {ws : List ℕ}
    {out : List (List (List (Elem K)))} (h : Stored k e mo ws out) {data : Dict K} (hp : k.Plain data) (hw : ArraysWf data)
    (a : Option (Dict K)) : ∃ mo ws out, Stored k (update e data a).2 mo ws out := by
  unfold update
  cases hg : e.genFunc data with
  | error err => exact ⟨mo, ws, out, h⟩
  | ok fr =>
    simp only
    have hf := setAncil_frozen { e with frozen := fr } a
    rw [h.gen] at hg
    obtain ⟨mo', ws', out', h1⟩ := stored_of_create hp hw hg (e := (setAncil { e with frozen := fr } a).2)
      (hf.1.trans h.create) (hf.2.1.trans h.gen) hf.2.2
    exact ⟨_, _, _, h1⟩

/-- the keywords that `update_objdata` passes to the constructor -/
theorem objdata_merge {k : RowKind} {e : Ens K} {mo : List (String × Arr (Elem K))} {ws : List ℕ}
    {out : List (List (List (Elem K)))} (h : Stored k e mo ws out) (data : Dict K) :
    Dict.update (Dict.update ((e.frozen.metadata.filter fun p => p.1 ≠ "pdf_name" ∧ p.1 ≠ "pdf_version").map
      fun p => (p.1, p.2.squeeze)) e.frozen.objdata) data =
      Dict.update (metaDict mo ++ storeRows (k.cls (K := K)).rowArgs ws out) data := by
  have hf := h.fixed
  have hnd := List.nodup_append.1 hf.names.nd
  rw [h.frozen, filter_frozenOf hf]
  have hobj : (frozenOf (k.cls (K := K)) mo ws out e.frozen.shape).objdata = storeRows (k.cls (K := K)).rowArgs ws out := rfl
  rw [hobj, update_disjoint (metaDict mo)]
  · rw [keys_storeRows _ _ _ hf.wl]; exact hnd.2.1
  · intro x hx hx2
    rw [keys_storeRows _ _ _ hf.wl] at hx
    rw [keys_metaDict] at hx2
    obtain ⟨p, hp, rfl⟩ := List.mem_map.1 hx2
    exact hnd.2.2 p.1 (hf.mok p hp) p.1 hx rfl

theorem merge_plain {k : RowKind} {e : Ens K} {mo : List (String × Arr (Elem K))} {ws : List ℕ}
    {out : List (List (List (Elem K)))} (h : Stored k e mo ws out) (data : Dict K)
    (hk : ∀ x ∈ Dict.keys data, x ∈ (k.cls (K := K)).rowArgs) (hw : ArraysWf data) :
    k.Plain (Dict.update (metaDict mo ++ storeRows (k.cls (K := K)).rowArgs ws out) data) ∧
      ArraysWf (Dict.update (metaDict mo ++ storeRows (k.cls (K := K)).rowArgs ws out) data) := by
  have hf := h.fixed
  have hnd := List.nodup_append.1 hf.names.nd
  refine ⟨plain_congr k ?_ h.plain, wf_update ?_ hw⟩
  · intro x hx
    rw [get?_update_not_mem, get?_append]
    · have : Dict.get? (storeRows (k.cls (K := K)).rowArgs ws out) x = none := by
        rw [get?_eq_none_iff, keys_storeRows _ _ _ hf.wl]
        intro hc
        exact hnd.2.2 x hx x hc rfl
      rw [this, Option.or_none]
    · intro hc
      exact hnd.2.2 x hx x (hk x hc) rfl
  · intro p hp
    rcases List.mem_append.1 hp with hp | hp
    · exact metaDict_wf h.mwf p hp
    · exact storeRows_wf hf p hp

theorem stored_updateObjdata {k : RowKind} {e : Ens K} {mo : List (String × Arr (Elem K))} {ws : List ℕ}
    {out : List (List (List (Elem K)))} (h : Stored k e mo ws out) {data : Dict K}
    (hk : ∀ x ∈ Dict.keys data, x ∈ (k.cls (K := K)).rowArgs) (hw : ArraysWf data)
    (a : Option (Dict K)) : ∃ mo ws out, Stored k (updateObjdata e data a).2 mo ws out := by
  unfold updateObjdata
  simp only
  rw [objdata_merge h]
  have := merge_plain h data hk hw
  exact stored_update h this.1 this.2 a

theorem objdata_keys {k : RowKind} {e : Ens K} {mo : List (String × Arr (Elem K))} {ws : List ℕ}
    {out : List (List (List (Elem K)))} (h : Stored k e mo ws out) : Dict.keys e.frozen.objdata = (k.cls (K := K)).rowArgs := by
  rw [h.frozen]; exact keys_storeRows _ _ _ h.fixed.wl

theorem objdata_wf {k : RowKind} {e : Ens K} {mo : List (String × Arr (Elem K))} {ws : List ℕ}
    {out : List (List (List (Elem K)))} (h : Stored k e mo ws out) : ∀ p ∈ e.frozen.objdata, p.2.toArr.Wf := by
  rw [h.frozen]; exact storeRows_wf h.fixed

theorem appendData_ok {e e' : Ens K} {d : Dict K} {a : Option (Dict K)} (h : appendData e e' = .ok (d, a)) :
    compareDicts [e.frozen.metadata, e'.frozen.metadata] = .ok true ∧
      concatenateDicts [e.frozen.objdata, e'.frozen.objdata] = .ok d ∧ concatAncil e.ancil e'.ancil = .ok a := by
  obtain ⟨same, hs, h⟩ := bind_ok h
  split_ifs at h with hb
  obtain ⟨d', hd, h⟩ := bind_ok h
  obtain ⟨a', ha, h⟩ := bind_ok h
  obtain ⟨rfl, rfl⟩ := Prod.mk.inj (Except.ok.inj h)
  subst hb
  exact ⟨hs, hd, ha⟩

theorem reach_stored {k : RowKind} {e : Ens K} (h : Reach k e) : ∃ mo ws out, Stored k e mo ws out := by
  induction h with
  | made h => exact made_stored h
  | select h hk ih =>
    rename_i e e' key
    obtain ⟨mo, ws, out, hs⟩ := ih
    rw [getItem_frozen hs.create hs.frozen hs.fixed hs.w] at hk
    obtain ⟨s, hr, hk⟩ := bind_ok hk
    obtain ⟨anc, -, hk⟩ := bind_ok hk
    split_ifs at hk with hne
    obtain ⟨_, -, hk⟩ := bind_ok hk
    obtain rfl := Except.ok.inj hk
    refine ⟨mo, ws, pick out (selRows s), hs.create, hs.create, rfl, hs.fixed.sub (pick_mem (resolve_lt hr)), hs.w, hs.plain, hs.mwf, ?_⟩
    intro hn h0
    exact hne ⟨hn, List.map_eq_nil_iff.1 h0⟩
  | setAncil a h ih =>
    rename_i e
    obtain ⟨mo, ws, out, hs⟩ := ih
    have := setAncil_frozen e a
    exact ⟨mo, ws, out, stored_frozen hs this.1 this.2.1 this.2.2⟩
  | addToAncil a h ih =>
    rename_i e
    obtain ⟨mo, ws, out, hs⟩ := ih
    have := addToAncil_frozen e a
    exact ⟨mo, ws, out, stored_frozen hs this.1 this.2.1 this.2.2⟩
  | update a h hp hw ih =>
    obtain ⟨mo, ws, out, hs⟩ := ih
    exact stored_update hs hp hw a
  | updateObjdata a h hk hw ih =>
    obtain ⟨mo, ws, out, hs⟩ := ih
    exact stored_updateObjdata hs hk hw a
  | append h h' ih ih' =>
    rename_i e e'
    obtain ⟨mo, ws, out, hs⟩ := ih
    obtain ⟨mo', ws', out', hs'⟩ := ih'
    unfold Model.append
    cases hd : appendData e e' with
    | error err => exact ⟨mo, ws, out, hs⟩
    | ok v =>
      obtain ⟨d, a⟩ := v
      obtain ⟨-, hc, -⟩ := appendData_ok hd
      apply stored_updateObjdata hs
      · intro x hx
        rw [keys_concatenateDicts hc, objdata_keys hs] at hx
        exact hx
      · apply wf_concatenateDicts hc
        intro x hx
        simp only [List.mem_cons, List.not_mem_nil, or_false] at hx
        rcases hx with rfl | rfl
        · exact objdata_wf hs
        · exact objdata_wf hs'
  | concatenate h hc ih =>
    rename_i es e
    cases es with
    | nil => simp [concatenateEns] at hc
    | cons e0 t =>
      obtain ⟨mo, ws, out, hs⟩ := ih e0 (by simp)
      simp only [concatenateEns] at hc
      obtain ⟨same, -, hc⟩ := bind_ok hc
      split_ifs at hc
      obtain ⟨d, hd, hc⟩ := bind_ok hc
      obtain ⟨a, -, hc⟩ := bind_ok hc
      obtain ⟨fr, hfr, -, rfl⟩ := mkEns_inv hc
      have hkeys := keys_concatenateDicts (d := d) (d0 := e0.frozen.objdata) 
        (t := t.map fun e => e.frozen.objdata) (by rw [← hd, List.map_cons])
      rw [objdata_keys hs] at hkeys
      rw [hs.frozen, filter_frozenOf hs.fixed, hs.gen] at hfr
      have hnd := List.nodup_append.1 hs.fixed.names.nd
      obtain ⟨mo', ws', out', h1⟩ := stored_of_create (k := k) (data := Dict.update d (metaDict mo)) (plain_congr k (by
        intro x hx
        rw [get?_update _ _ (by rw [keys_metaDict]; exact hs.fixed.mnd)]
        have : Dict.get? d x = none := by
          rw [get?_eq_none_iff, hkeys]
          intro hc
          exact hnd.2.2 x hx x hc rfl
        rw [this, Option.or_none]) hs.plain) (wf_update (wf_concatenateDicts hd (by
          intro x hx
          obtain ⟨y, hy, rfl⟩ := List.mem_map.1 hx
          obtain ⟨_, _, _, hsy⟩ := ih y hy
          exact objdata_wf hsy)) (metaDict_wf hs.mwf)) hfr (e := ⟨e0.create, e0.genFunc, fr, a⟩) hs.create hs.gen rfl
      exact ⟨_, _, _, h1⟩

end

end Verif.Lemmas
