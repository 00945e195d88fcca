import Verif.Model.Tables
import Verif.Lemmas.Reach

/-!
# Constructor arguments rebuilt from tables
-/

set_option linter.unusedSectionVars false
set_option autoImplicit false

namespace Verif.Lemmas

open Verif Verif.Np Verif.Model Verif.Spec

section
variable {K : Type}

theorem get?_perm {d e : Dict K} (h : d.Perm e) (hn : (Dict.keys d).Nodup) (k : String) : Dict.get? d k = Dict.get? e k := by
  have hk : (Dict.keys d).Perm (Dict.keys e) := h.map _
  have hn' : (Dict.keys e).Nodup := hk.nodup_iff.1 hn
  cases hg : Dict.get? d k with
  | none =>
    rw [get?_eq_none_iff] at hg
    symm
    rw [get?_eq_none_iff]
    exact fun hc => hg (hk.mem_iff.2 hc)
  | some v =>
    symm
    exact get?_of_mem hn' (h.mem_iff.1 (mem_of_get? hg))

theorem get?_filter_self (d : Dict K) (k : String) : Dict.get? (d.filter fun p => p.1 ≠ k) k = none := by
  rw [get?_eq_none_iff]
  intro h
  obtain ⟨p, hp, he⟩ := List.mem_map.1 h
  have := (List.mem_filter.1 hp).2
  simp [he] at this

/-- no byte strings -/
def NoBytes (a : Arr (Elem K)) : Prop := ∀ s, Elem.bytes s ∉ a.data

theorem metaCol_stored {a : Arr (Elem K)} (hsq : a.expand0.squeeze = a) (hw : a.Wf) (hb : NoBytes a) :
    metaCol (.arr a.expand0) = .ok (.arr a) := by
  obtain ⟨s, d⟩ := a
  cases s with
  | nil =>
    simp only [Arr.Wf, List.prod_nil] at hw
    obtain ⟨x, rfl⟩ := List.length_eq_one_iff.1 hw
    have hx : ∀ s, x ≠ .bytes s := fun s e => hb s (by simp [e])
    simp only [metaCol, Arr.expand0, List.length_cons, List.length_nil, Nat.lt_irrefl, if_false, if_true, zero_add]
    cases x with
    | bytes s => exact absurd rfl (hx s)
    | _ => rfl
  | cons n s =>
    simp only [metaCol]
    rw [if_pos (by simp [Arr.expand0]), hsq, if_neg (by simp)]

/-- the value of a metadata entry when it is well-formed -/
def metaVal (v : Val K) : Val K := match metaCol v with
  | .ok w => w
  | .error _ => v

theorem mapM_metaCol (md : Dict K) (h : ∀ p ∈ md, ∃ w, metaCol p.2 = .ok w) :
    (md.mapM fun p => (metaCol p.2).map fun v => (p.1, v)) = .ok (md.map fun p => (p.1, metaVal p.2)) := by
  apply mapM_ok_map
  intro p hp
  obtain ⟨w, hw⟩ := h p hp
  simp only [metaVal, hw]
  rfl

theorem mapM_dataCol (dt : Dict K) (h : ∀ p ∈ dt, dataCol p.2 = .ok p.2) :
    (dt.mapM fun p => (dataCol p.2).map fun v => (p.1, v)) = .ok dt := by
  have := mapM_ok_map (fun p : String × Val K => (dataCol p.2).map fun v => (p.1, v)) (fun p => p) dt (by
    intro p hp
    simp only [h p hp]
    rfl)
  simpa using this

end

section
variable {K : Type} [IntCast K]

theorem metadata_keys {c : RowCls K} {mo : List (String × Arr (Elem K))} {ws : List ℕ} {out : List (List (List (Elem K)))}
    (hf : Fixed c mo ws out) (s : List ℕ) : (Dict.keys (frozenOf c mo ws out s).metadata).Nodup := by
  have h1 : ∀ p ∈ mo, p.1 ≠ "pdf_name" := fun p hp e => hf.names.name (by
    rw [← e]; exact List.mem_append_left _ (hf.mok p hp))
  have h2 : ∀ p ∈ mo, p.1 ≠ "pdf_version" := fun p hp e => hf.names.version (by
    rw [← e]; exact List.mem_append_left _ (hf.mok p hp))
  have hm := hf.mnd
  simp only [frozenOf, classMeta, Dict.keys, List.map_map, List.map_cons, List.cons_append,
    List.nil_append, List.nodup_cons, List.mem_cons, Function.comp_def, not_or]
  refine ⟨⟨by decide, ?_⟩, ?_, hm⟩
  · intro hc
    obtain ⟨p, hp, e⟩ := List.mem_map.1 hc
    exact h1 p hp e
  · intro hc
    obtain ⟨p, hp, e⟩ := List.mem_map.1 hc
    exact h2 p hp e

theorem metadata_get {c : RowCls K} {mo : List (String × Arr (Elem K))} {ws : List ℕ} {out : List (List (List (Elem K)))}
    (s : List ℕ) (k : String) (h1 : k ≠ "pdf_name") (h2 : k ≠ "pdf_version") :
    Dict.get? (frozenOf c mo ws out s).metadata k = (Dict.get? (metaDict mo) k).map Val.expand0 := by
  simp only [frozenOf, classMeta, List.cons_append, List.nil_append, get?_cons, if_neg (Ne.symm h1), if_neg (Ne.symm h2)]
  rw [← get?_map]
  simp only [metaDict, List.map_map]
  rfl

theorem metaCol_all {c : RowCls K} {mo : List (String × Arr (Elem K))} {ws : List ℕ} {out : List (List (List (Elem K)))}
    (hf : Fixed c mo ws out) (hw : ∀ p ∈ mo, p.2.Wf) (hb : ∀ p ∈ mo, NoBytes p.2) (s : List ℕ) :
    ∀ p ∈ (frozenOf c mo ws out s).metadata, ∃ w, metaCol p.2 = .ok w := by
  intro p hp
  simp only [frozenOf, classMeta, List.mem_append, List.mem_cons, List.not_mem_nil, or_false, List.mem_map] at hp
  rcases hp with (rfl | rfl) | ⟨q, hq, rfl⟩
  · exact ⟨_, rfl⟩
  · exact ⟨_, rfl⟩
  · exact ⟨_, metaCol_stored (hf.sq q hq) (hw q hq) (hb q hq)⟩

theorem metaVal_get {c : RowCls K} {mo : List (String × Arr (Elem K))} {ws : List ℕ} {out : List (List (List (Elem K)))}
    (hf : Fixed c mo ws out) (hw : ∀ p ∈ mo, p.2.Wf) (hb : ∀ p ∈ mo, NoBytes p.2) (s : List ℕ) (k : String)
    (h1 : k ≠ "pdf_name") (h2 : k ≠ "pdf_version") :
    (Dict.get? (frozenOf c mo ws out s).metadata k).map metaVal = Dict.get? (metaDict mo) k := by
  rw [metadata_get s k h1 h2]
  cases hg : Dict.get? (metaDict mo) k with
  | none => rfl
  | some v =>
    obtain ⟨q, hq, e⟩ := List.mem_map.1 (mem_of_get? hg)
    obtain ⟨rfl, rfl⟩ := Prod.mk.inj e
    have := metaCol_stored (hf.sq q hq) (hw q hq) (hb q hq)
    simp only [Option.map_some, Val.expand0, Val.toArr, metaVal, this]

theorem dataCol_tab (out : List (List (List (Elem K)))) (w j : ℕ) :
    dataCol (.arr (tab out w j)) = .ok (.arr (tab out w j)) := by
  simp [dataCol, tab_shape]

theorem dataCol_all (names : List String) (ws : List ℕ) (out : List (List (List (Elem K)))) :
    ∀ p ∈ storeRows names ws out, dataCol p.2 = .ok p.2 := by
  intro p hp
  rw [storeRows_eq] at hp
  obtain ⟨q, -, rfl⟩ := List.mem_map.1 hp
  exact dataCol_tab _ _ _

/-- the constructor arguments that come out of the tables of an object in normal form, whatever the order of the columns -/
theorem buildDataDict_stored {c : RowCls K} {mo : List (String × Arr (Elem K))} {ws : List ℕ} {out : List (List (List (Elem K)))}
    (hf : Fixed c mo ws out) (hw : ∀ p ∈ mo, p.2.Wf) (hb : ∀ p ∈ mo, NoBytes p.2) (s : List ℕ) {md dt : Dict K}
    (hmd : md.Perm (frozenOf c mo ws out s).metadata) (hdt : dt.Perm (storeRows c.rowArgs ws out)) :
    ∃ data, buildDataDict md dt = .ok data ∧ Dict.get? data "pdf_name" = some (.py (.str c.name)) ∧
      (∃ v, Dict.get? data "pdf_version" = some v) ∧
      ∀ k, k ≠ "pdf_name" → k ≠ "pdf_version" → Dict.get? data k = Dict.get? (metaDict mo ++ storeRows c.rowArgs ws out) k := by
  have hnd := List.nodup_append.1 hf.names.nd
  have hkm : (Dict.keys md).Nodup := (hmd.map _).nodup_iff.2 (metadata_keys hf s)
  have hks : (Dict.keys (storeRows c.rowArgs ws out)).Nodup := by rw [keys_storeRows _ _ _ hf.wl]; exact hnd.2.1
  have hkd : (Dict.keys dt).Nodup := (hdt.map _).nodup_iff.2 hks
  have h1 := mapM_metaCol md (fun p hp => metaCol_all hf hw hb s p (hmd.mem_iff.1 hp))
  have h2 := mapM_dataCol dt (fun p hp => dataCol_all _ _ _ p (hdt.mem_iff.1 hp))
  have hget : ∀ k, Dict.get? (Dict.update (md.map fun p => (p.1, metaVal p.2)) dt) k =
      (Dict.get? (storeRows c.rowArgs ws out) k).or ((Dict.get? (frozenOf c mo ws out s).metadata k).map metaVal) := by
    intro k
    rw [get?_update _ _ hkd, get?_map, get?_perm hmd hkm, get?_perm hdt hkd]
  have hnone : ∀ k, k ∉ c.rowArgs → Dict.get? (storeRows c.rowArgs ws out) k = none := by
    intro k hk
    rw [get?_eq_none_iff, keys_storeRows _ _ _ hf.wl]
    exact hk
  refine ⟨Dict.update (md.map fun p => (p.1, metaVal p.2)) dt, by simp only [buildDataDict, h1, h2, Bind.bind, Except.bind], ?_, ?_, ?_⟩
  · rw [hget, hnone _ (fun h => hf.names.name (List.mem_append_right _ h)), Option.none_or]
    simp [frozenOf, classMeta, get?_cons, metaVal, metaCol, decodeVal]
  · rw [hget, hnone _ (fun h => hf.names.version (List.mem_append_right _ h)), Option.none_or]
    exact ⟨_, rfl⟩
  · intro k k1 k2
    rw [hget, metaVal_get hf hw hb s k k1 k2, get?_append]
    by_cases hk : k ∈ c.rowArgs
    · have : Dict.get? (metaDict mo) k = none := by
        apply get?_metaDict_none
        intro hc
        obtain ⟨p, hp, he⟩ := List.mem_map.1 hc
        exact hnd.2.2 p.1 (hf.mok p hp) k hk he
      rw [this, Option.or_none, Option.none_or]
    · rw [hnone k hk, Option.or_none, Option.none_or]

end

section
variable {K : Type} [Field K] [LinearOrder K] [IsStrictOrderedRing K]

theorem noBytes_vec (l : List K) : NoBytes (vec l) := by
  intro s h
  simp [vec, nums] at h

/-- no class of qp records byte strings besides its name -/
theorem kind_noBytes (k : RowKind) (m : Dict K) (mo : List (String × Arr (Elem K))) (h : (k.cls (K := K)).metaOut m = .ok mo) :
    ∀ p ∈ mo, NoBytes p.2 := by
  cases k with
  | hist =>
    obtain ⟨b, -, h⟩ := bind_ok h
    split_ifs at h
    obtain rfl := Except.ok.inj h
    intro p hp
    simp only [List.mem_singleton] at hp
    subst hp
    exact noBytes_vec b
  | interp =>
    obtain ⟨b, -, h⟩ := bind_ok h
    split_ifs at h
    obtain rfl := Except.ok.inj h
    intro p hp
    simp only [List.mem_singleton] at hp
    subst hp
    exact noBytes_vec b
  | sparse =>
    obtain ⟨x, -, h⟩ := bind_ok h
    obtain ⟨mu, -, h⟩ := bind_ok h
    obtain ⟨sg, -, h⟩ := bind_ok h
    obtain ⟨dm, -, h⟩ := bind_ok h
    split_ifs at h
    obtain rfl := Except.ok.inj h
    intro p hp
    simp only [List.mem_cons, List.not_mem_nil, or_false] at hp
    rcases hp with rfl | rfl | rfl | rfl <;> exact noBytes_vec _
  | irr => obtain rfl : mo = [] := (Except.ok.inj h).symm; simp
  | mix => obtain rfl : mo = [] := (Except.ok.inj h).symm; simp
  | spline => obtain rfl : mo = [] := (Except.ok.inj h).symm; simp
  | quant =>
    obtain ⟨q', -, h⟩ := bind_ok h
    obtain ⟨s, -, h⟩ := bind_ok h
    split_ifs at h
    obtain rfl := Except.ok.inj h
    intro p hp
    simp only [List.mem_cons, List.not_mem_nil, or_false] at hp
    rcases hp with rfl | rfl | rfl
    · exact noBytes_vec _
    · intro s h; simp at h
    · intro s h; simp at h
  | packed =>
    obtain ⟨b, -, h⟩ := bind_ok h
    obtain ⟨pp, -, h⟩ := bind_ok h
    obtain ⟨f, -, h⟩ := bind_ok h
    split_ifs at h
    obtain rfl := Except.ok.inj h
    intro p hp
    simp only [List.mem_cons, List.not_mem_nil, or_false] at hp
    rcases hp with rfl | rfl | rfl
    · exact noBytes_vec _
    · intro s h; simp at h
    · intro s h; simp at h

theorem stored_noBytes {k : RowKind} {e : Ens K} {mo : List (String × Arr (Elem K))} {ws : List ℕ}
    {out : List (List (List (Elem K)))} (h : Stored k e mo ws out) : ∀ p ∈ mo, NoBytes p.2 := by
  obtain ⟨m', -, hmo, -⟩ := h.fixed.fix
  exact kind_noBytes k m' mo hmo

/-- popping name and version -/
theorem pop_two {data : Dict K} {v w : Val K} (h1 : Dict.get? data "pdf_name" = some v) (h2 : Dict.get? data "pdf_version" = some w) :
    ∃ d1 d2, Dict.popVal data "pdf_name" = .ok (v, d1) ∧ Dict.popVal d1 "pdf_version" = .ok (w, d2) ∧
      Dict.get? d2 "pdf_name" = none ∧ Dict.get? d2 "pdf_version" = none ∧
      ∀ k, k ≠ "pdf_name" → k ≠ "pdf_version" → Dict.get? d2 k = Dict.get? data k := by
  refine ⟨data.filter fun p => p.1 ≠ "pdf_name", (data.filter fun p => p.1 ≠ "pdf_name").filter fun p => p.1 ≠ "pdf_version",
    by simp only [Dict.popVal, h1], ?_, ?_, ?_, ?_⟩
  · have : Dict.get? (data.filter fun p => p.1 ≠ "pdf_name") "pdf_version" = some w := by
      rw [get?_filter_ne _ _ _ (by decide), h2]
    simp only [Dict.popVal, this]
  · rw [get?_filter_ne _ _ _ (by decide), get?_filter_self]
  · rw [get?_filter_self]
  · intro k h1 h2
    rw [get?_filter_ne _ _ _ h2, get?_filter_ne _ _ _ h1]

end

end Verif.Lemmas
