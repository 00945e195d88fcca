import Verif.Spec.Ens
import Verif.Lemmas.Classes

/-!
# Ensembles of the row classes are stored in normal form
-/

set_option linter.unusedSectionVars false
set_option autoImplicit false

namespace Verif.Lemmas

open Verif Verif.Np Verif.Model Verif.Spec

variable {K : Type} [Field K] [LinearOrder K] [IsStrictOrderedRing K]

/-- normal form: metadata and tables that the constructor reproduces -/
structure Stored (k : RowKind) (e : Ens K) (mo : List (String × Arr (Elem K))) (ws : List ℕ)
    (out : List (List (List (Elem K)))) : Prop where
  create : e.create = rowCreate k.cls
  gen : e.genFunc = rowCreate k.cls
  frozen : e.frozen = frozenOf k.cls mo ws out e.frozen.shape
  fixed : Fixed k.cls mo ws out
  w : (k.cls (K := K)).needsRows = true → ws.headD 0 ≠ 0
  plain : k.Plain (metaDict mo)
  mwf : ∀ p ∈ mo, p.2.Wf
  ne : (k.cls (K := K)).needsRows = true → out ≠ []

/-- the common arguments are looked up in the keywords -/
theorem get?_args (l : List (String × Option (Val K))) (data m : Dict K) (hn : (l.map (·.1)).Nodup)
    (h : l.mapM (argVal data) = .ok m) (k : String) (dflt : Option (Val K)) (hk : (k, dflt) ∈ l) :
    Dict.get? m k = (Dict.get? data k).or dflt := by
  rw [mapM_ok_iff] at h
  induction h with
  | nil => simp at hk
  | @cons p v l' m' hpv _ ih =>
    obtain ⟨k', d'⟩ := p
    simp only [List.map_cons, List.nodup_cons] at hn
    have hv : v.1 = k' ∧ (Dict.get? data k').or d' = some v.2 := by
      unfold argVal at hpv
      cases hg : Dict.get? data k' with
      | some w => rw [hg] at hpv; obtain rfl := Except.ok.inj hpv; simp
      | none =>
        cases d' with
        | none => rw [hg] at hpv; simp at hpv
        | some w => rw [hg] at hpv; obtain rfl := Except.ok.inj hpv; simp
    rw [get?_cons]
    rcases List.mem_cons.1 hk with he | hk
    · obtain ⟨rfl, rfl⟩ := Prod.mk.inj he
      rw [if_pos hv.1, hv.2]
    · have hne : k' ≠ k := by
        rintro rfl
        exact hn.1 (List.mem_map.2 ⟨_, hk, rfl⟩)
      rw [if_neg (by rw [hv.1]; exact hne)]
      exact ih hn.2 hk

theorem truthy_args (l : List (String × Option (Val K))) (data m : Dict K) (hn : (l.map (·.1)).Nodup)
    (h : l.mapM (argVal data) = .ok m) (hk : checkInputArg ∈ l) : truthy m "check_input" = truthy data "check_input" := by
  have := get?_args l data m hn h "check_input" _ hk
  unfold truthy argData
  rw [this]
  cases Dict.get? data "check_input" with
  | none => simp [Val.toArr]
  | some v => simp

theorem kind_names (k : RowKind) : Names (k.cls (K := K)) := by
  cases k
  · exact names_hist
  · exact names_interp
  · exact names_irr
  · exact names_mix
  · exact names_quant
  · exact names_packed
  · exact names_spline
  · exact names_sparse

theorem grid1_length {m : Dict K} {key : String} {l : List K} (h : grid1 m key = .ok l) :
    ∃ v, Dict.get? m key = some v ∧ v.toArr.data.length = l.length := by
  unfold grid1 at h
  cases hg : Dict.get? m key with
  | none => rw [hg] at h; simp at h
  | some v =>
    rw [hg] at h
    simp only at h
    refine ⟨v, rfl, ?_⟩
    split at h
    next l' _ hf =>
      obtain rfl := Except.ok.inj h
      rw [finites_some_iff] at hf
      rw [hf]; simp [nums]
    next => simp at h

theorem kind_reinit (k : RowKind) (data : Dict K) (hp : k.Plain data) (m : Dict K) (mo : List (String × Arr (Elem K)))
    (hm : (k.cls (K := K)).metaArgs.mapM (argVal data) = .ok m) (hmo : (k.cls (K := K)).metaOut m = .ok mo) :
    Reinit k.cls m mo := by
  have hnd := (List.nodup_append.1 (kind_names (K := K) k).nd).1
  cases k with
  | hist =>
    have hg := get?_args _ data m hnd hm "bins" none (by simp [RowKind.cls, histCls])
    rw [Option.or_none] at hg
    cases hb : grid1 m "bins" with
    | error e => simp [RowKind.cls, histCls, hb, Bind.bind, Except.bind] at hmo
    | ok b =>
      obtain ⟨v, hv, hl⟩ := grid1_length hb
      exact reinit_hist m mo b hb (by rw [← hl]; exact hp v (by rw [← hg]; exact hv)) hmo
  | interp => exact reinit_interp m mo hmo
  | irr => exact reinit_irr m mo hmo
  | mix => exact reinit_mix m mo hmo
  | quant =>
    have hg := get?_args _ data m hnd hm "quants" none (by simp [RowKind.cls, quantCls])
    rw [Option.or_none] at hg
    cases hb : grid1 m "quants" with
    | error e =>
      simp only [RowKind.cls, quantCls, quantMeta, hb, Bind.bind, Except.bind] at hmo
      simp at hmo
    | ok q =>
      obtain ⟨v, hv, hl⟩ := grid1_length hb
      exact reinit_quant m mo q hb (by rw [← hl]; exact hp v (by rw [← hg]; exact hv)) hmo
  | packed => exact reinit_packed m mo hmo
  | spline => exact reinit_spline m mo hmo
  | sparse => exact reinit_sparse m mo hmo

theorem mkEns_inv {create gf : GenFunc K} {data : Dict K} {ancil : Option (Dict K)} {e : Ens K}
    (h : mkEns create gf data ancil = .ok e) :
    ∃ fr, gf data = .ok fr ∧ checkArrayShapes ancil fr.npdf = .ok () ∧ e = ⟨create, gf, fr, ancil⟩ := by
  unfold mkEns at h
  obtain ⟨fr, hfr, h⟩ := bind_ok h
  obtain ⟨u, hu, h⟩ := bind_ok h
  exact ⟨fr, hfr, hu, (Except.ok.inj h).symm⟩

theorem vec_wf (l : List K) : (vec l).Wf := by simp [vec, Arr.Wf, nums]

/-- the recorded metadata are plain arguments again -/
theorem kind_meta (k : RowKind) (data : Dict K) (hp : k.Plain data) (m : Dict K) (mo : List (String × Arr (Elem K)))
    (hm : (k.cls (K := K)).metaArgs.mapM (argVal data) = .ok m) (hmo : (k.cls (K := K)).metaOut m = .ok mo) :
    k.Plain (metaDict mo) ∧ ∀ p ∈ mo, p.2.Wf := by
  have hnd := (List.nodup_append.1 (kind_names (K := K) k).nd).1
  cases k with
  | hist =>
    have hg := get?_args _ data m hnd hm "bins" none (by simp [RowKind.cls, histCls])
    rw [Option.or_none] at hg
    cases hb : grid1 m "bins" with
    | error e => simp [RowKind.cls, histCls, hb, Bind.bind, Except.bind] at hmo
    | ok b =>
      obtain ⟨v, hv, hl⟩ := grid1_length hb
      have h2 := hp v (by rw [← hg]; exact hv)
      simp only [RowKind.cls, histCls, hb, Bind.bind, Except.bind] at hmo
      split_ifs at hmo
      obtain rfl := Except.ok.inj hmo
      refine ⟨?_, ?_⟩
      · intro v' hv'
        simp only [metaDict, List.map_cons, List.map_nil, get?_cons, if_true, Option.some.injEq] at hv'
        subst hv'
        simp only [Val.toArr, vec, nums, List.length_map]
        omega
      · intro p hp
        simp only [List.mem_singleton] at hp
        subst hp
        exact vec_wf b
  | interp =>
    obtain ⟨b, hb, h⟩ := bind_ok hmo
    split_ifs at h
    obtain rfl := Except.ok.inj h
    refine ⟨trivial, ?_⟩
    intro p hp
    simp only [List.mem_singleton] at hp
    subst hp
    exact vec_wf b
  | irr =>
    obtain rfl : mo = [] := (Except.ok.inj hmo).symm
    exact ⟨trivial, by simp⟩
  | mix =>
    obtain rfl : mo = [] := (Except.ok.inj hmo).symm
    exact ⟨trivial, by simp⟩
  | spline =>
    obtain rfl : mo = [] := (Except.ok.inj hmo).symm
    exact ⟨trivial, by simp⟩
  | quant =>
    have hg := get?_args _ data m hnd hm "quants" none (by simp [RowKind.cls, quantCls])
    rw [Option.or_none] at hg
    obtain ⟨q', hq', h⟩ := bind_ok hmo
    obtain ⟨s, hs, h⟩ := bind_ok h
    split_ifs at h
    obtain rfl := Except.ok.inj h
    obtain ⟨q, hq, hq'⟩ := bind_ok hq'
    obtain ⟨v, hv, hl⟩ := grid1_length hq
    have h2 := hp v (by rw [← hg]; exact hv)
    obtain ⟨⟨a, b⟩, hab, h⟩ := bind_ok hq'
    obtain rfl := Except.ok.inj h
    obtain ⟨-, hlen, -⟩ := quantInit_spec hab
    refine ⟨?_, ?_⟩
    · intro v' hv'
      simp only [metaDict, List.map_cons, List.map_nil, get?_cons, if_true, Option.some.injEq] at hv'
      subst hv'
      simp only [Val.toArr, vec, nums, List.length_map]
      omega
    · intro p hp
      simp only [List.mem_cons, List.not_mem_nil, or_false] at hp
      rcases hp with rfl | rfl | rfl
      · exact vec_wf a
      · simp [Arr.Wf]
      · simp [Arr.Wf]
  | packed =>
    obtain ⟨b, hb, h⟩ := bind_ok hmo
    obtain ⟨pp, hpp, h⟩ := bind_ok h
    obtain ⟨f, hf, h⟩ := bind_ok h
    split_ifs at h
    obtain rfl := Except.ok.inj h
    refine ⟨trivial, ?_⟩
    intro p hp
    simp only [List.mem_cons, List.not_mem_nil, or_false] at hp
    rcases hp with rfl | rfl | rfl
    · exact vec_wf b
    · simp [Arr.Wf]
    · simp [Arr.Wf]

  | sparse =>
    obtain ⟨x, hx, h⟩ := bind_ok hmo
    obtain ⟨mu, hmu, h⟩ := bind_ok h
    obtain ⟨sg, hsg, h⟩ := bind_ok h
    obtain ⟨dm, hdm, h⟩ := bind_ok h
    split_ifs at h
    obtain rfl := Except.ok.inj h
    refine ⟨trivial, ?_⟩
    intro p hp
    simp only [List.mem_cons, List.not_mem_nil, or_false] at hp
    rcases hp with rfl | rfl | rfl | rfl <;> exact vec_wf _

/-- whatever the constructor of a row class makes of plain arguments is in normal form -/
theorem stored_of_create {k : RowKind} {data : Dict K} (hp : k.Plain data) (hw : ArraysWf data) {fr : Frozen K}
    (h : rowCreate k.cls data = .ok fr) {e : Ens K} (hc : e.create = rowCreate k.cls) (hg : e.genFunc = rowCreate k.cls)
    (hfr : e.frozen = fr) :
    ∃ mo ws out, Stored k e mo ws out := by
  obtain ⟨mo, ws, out, h1, h2, h3⟩ := fixed_of_create (kind_names k) hw h (kind_reinit k data hp)
  obtain ⟨m, rs, mo', ws', out', hm, -, -, -, hmo', -, -, hfr'⟩ := rowCreate_inv h
  have hmeta := kind_meta k data hp m mo' hm hmo'
  have hmo : mo = mo' := by
    rw [h1] at hfr'
    have e1 := congrArg Frozen.metadata hfr'
    simp only [frozenOf, List.append_cancel_left_eq] at e1
    apply List.map_injective_iff.2 _ e1
    rintro ⟨a, ⟨s1, d1⟩⟩ ⟨b, ⟨s2, d2⟩⟩ hab
    simp [Arr.expand0] at hab
    simp [hab]
  subst hmo
  refine ⟨mo, ws, out, ⟨hc, hg, by rw [hfr]; exact h1, h2, ?_, hmeta.1, hmeta.2, ?_⟩⟩
  · intro hn h0
    exact h3 hn (by rw [h0, mul_zero])
  · rintro hn rfl
    exact h3 hn (by simp)

/-- ensembles made from plain arguments are in normal form -/
theorem made_stored {k : RowKind} {data : Dict K} {ancil : Option (Dict K)} {e : Ens K} (h : Made k data ancil e) :
    ∃ mo ws out, Stored k e mo ws out := by
  obtain ⟨fr, hfr, -, rfl⟩ := mkEns_inv h.ok
  obtain ⟨mo, ws, out, h1⟩ := stored_of_create h.plain h.wf hfr (e := ⟨_, _, fr, ancil⟩) rfl rfl rfl
  exact ⟨mo, ws, out, h1⟩

/-- plain arguments only depend on the common arguments -/
theorem plain_congr (k : RowKind) {d d' : Dict K}
    (h : ∀ x ∈ (k.cls (K := K)).metaArgs.map (·.1), Dict.get? d x = Dict.get? d' x) (hp : k.Plain d) : k.Plain d' := by
  cases k with
  | hist => intro v hv; exact hp v (by rw [h "bins" (by simp [RowKind.cls, histCls])]; exact hv)
  | interp => trivial
  | irr => trivial
  | packed => trivial
  | sparse => trivial
  | quant => intro v hv; exact hp v (by rw [h "quants" (by simp [RowKind.cls, quantCls])]; exact hv)
  | mix => trivial
  | spline => trivial

end Verif.Lemmas
