import Verif.Lemmas.Ancil

/-! # Stacking tables and ensembles -/

set_option linter.unusedSectionVars false
set_option autoImplicit false

namespace Verif.Lemmas

open Verif Verif.Np Verif.Model Verif.Spec

section
variable {K : Type}

theorem mapM_getArr {ds : List (Dict K)} {key : String} {as : List (Arr (Elem K))} (h : ds.mapM (getArr key) = .ok as) :
    ∃ vs, List.Forall₂ (fun x w => Dict.get? x key = some w) ds vs ∧ vs.map Val.toArr = as := by
  rw [mapM_ok_iff] at h
  induction h with
  | nil => exact ⟨[], .nil, rfl⟩
  | @cons x a l r hxa _ ih =>
    obtain ⟨vs, h1, h2⟩ := ih
    cases hg : Dict.get? x key with
    | none => rw [getArr, hg] at hxa; simp at hxa
    | some w =>
      rw [getArr, hg] at hxa
      refine ⟨w :: vs, .cons hg h1, ?_⟩
      rw [List.map_cons, h2, Except.ok.inj hxa]

theorem concatKey_inv {ds : List (Dict K)} {key : String} {v : Val K} (h : concatKey ds key = .ok v) :
    ∃ vs c, List.Forall₂ (fun x w => Dict.get? x key = some w) ds vs ∧ Arr.concatenate (vs.map Val.toArr) = .ok c ∧ v = .arr c := by
  obtain ⟨as, has, h⟩ := bind_ok h
  obtain ⟨c, hc, h⟩ := bind_ok h
  obtain rfl := Except.ok.inj h
  obtain ⟨vs, h1, h2⟩ := mapM_getArr has
  exact ⟨vs, c, h1, by rw [h2]; exact hc, rfl⟩

theorem concatKey_eq {ds : List (Dict K)} {key : String} {vs : List (Val K)}
    (h : List.Forall₂ (fun x w => Dict.get? x key = some w) ds vs) :
    concatKey ds key = (Arr.concatenate (vs.map Val.toArr)).map .arr := by
  have : ds.mapM (getArr key) = .ok (vs.map Val.toArr) := by
    rw [mapM_ok_iff]
    induction h with
    | nil => exact .nil
    | cons hg _ ih =>
      refine .cons ?_ ih
      rw [getArr, hg]
  unfold concatKey
  rw [this]
  show (Arr.concatenate (vs.map Val.toArr)).bind (fun c => Except.ok (Val.arr c)) = _
  cases Arr.concatenate (vs.map Val.toArr) <;> rfl

theorem sameKeys_iff (a b : Dict K) : sameKeys a b = true ↔ ∀ k, k ∈ Dict.keys a ↔ k ∈ Dict.keys b := by
  simp only [sameKeys, Bool.and_eq_true, List.all_eq_true, decide_eq_true_eq]
  constructor
  · rintro ⟨h1, h2⟩ k; exact ⟨h1 k, h2 k⟩
  · intro h; exact ⟨fun k hk => (h k).1 hk, fun k hk => (h k).2 hk⟩

/-- whatever `concatenate_dicts` returns is the stacked table -/
theorem stacks_of_concat {ds : List (Dict K)} {d : Dict K} (h : concatenateDicts ds = .ok d) (hne : ds ≠ [])
    (hw : ∀ x ∈ ds, ∀ p ∈ x, p.2.toArr.Wf) : StacksTab ds d := by
  obtain ⟨d0, t, rfl⟩ := List.exists_cons_of_ne_nil hne
  have hkeys := keys_concatenateDicts h
  simp only [concatenateDicts] at h
  split_ifs at h with hs
  constructor
  · intro x hx k
    rw [hkeys]
    rcases List.mem_cons.1 hx with rfl | hx
    · exact Iff.rfl
    · simp only [List.any_eq_true, not_exists, not_and] at hs
      have := hs x hx
      simp only [Bool.not_eq_true', Bool.not_eq_false] at this
      exact (sameKeys_iff x d0).1 this k
  · intro k v hg
    rw [mapM_ok_iff] at h
    obtain ⟨key, -, hk⟩ := forall₂_mem_right h (mem_of_get? hg)
    cases hc : concatKey (d0 :: t) key with
    | error e => rw [hc] at hk; simp [Except.map] at hk
    | ok w =>
      rw [hc] at hk
      simp only [Except.map, Except.ok.injEq, Prod.mk.injEq] at hk
      obtain ⟨rfl, rfl⟩ := hk
      obtain ⟨vs, c, h1, h2, rfl⟩ := concatKey_inv hc
      have hwf : ∀ b ∈ vs.map Val.toArr, b.Wf := by
        intro b hb
        obtain ⟨w, hw', rfl⟩ := List.mem_map.1 hb
        obtain ⟨x, hx, hxw⟩ := forall₂_mem_right h1 hw'
        exact hw x hx _ (mem_of_get? hxw)
      refine ⟨vs, h1, ?_, ?_⟩
      · have := (Arr.concatenate_rows h2 hwf).2
        simp only [Val.toArr]
        rw [this, List.map_map]
        rfl
      · obtain ⟨t', ht, -, rfl⟩ := Arr.concatenate_ok h2
        intro w hw'
        simp only [Val.toArr, List.tail_cons]
        exact (ht _ (List.mem_map.2 ⟨w, hw', rfl⟩)).2

theorem layout_keys {a b : Dict K} (h : layout a = layout b) : Dict.keys a = Dict.keys b := by
  have := congrArg (List.map Prod.fst) h
  simpa [layout, Dict.keys, Function.comp_def] using this

theorem layout_get? {a b : Dict K} (h : layout a = layout b) {k : String} {v : Val K} (hv : Dict.get? a k = some v) :
    ∃ w, Dict.get? b k = some w ∧ w.shape.tail = v.shape.tail := by
  induction a generalizing b with
  | nil => simp [get?_nil] at hv
  | cons p t ih =>
    cases b with
    | nil => simp [layout] at h
    | cons q s =>
      simp only [layout, List.map_cons, List.cons.injEq, Prod.mk.injEq] at h
      rw [get?_cons] at hv ⊢
      split_ifs at hv with hk
      · rw [if_pos (by rw [← h.1.1]; exact hk)]
        obtain rfl := Option.some.inj hv
        exact ⟨q.2, rfl, h.1.2.symm⟩
      · rw [if_neg (by rw [← h.1.1]; exact hk)]
        exact ih h.2 hv

/-- tables with the same columns can be stacked -/
theorem concat_cols {ds : List (Dict K)} {ns : List ℕ} (hne : ds ≠ []) (hc : List.Forall₂ AncilCols ds ns)
    (hl : ∀ x ∈ ds, ∀ y ∈ ds, layout x = layout y) :
    ∃ d, concatenateDicts ds = .ok d ∧ AncilCols d ns.sum ∧ StacksTab ds d := by
  obtain ⟨d0, t, rfl⟩ := List.exists_cons_of_ne_nil hne
  have hwf : ∀ x ∈ d0 :: t, ∀ p ∈ x, p.2.toArr.Wf := by
    intro x hx p hp
    have : ∃ n, AncilCols x n := by
      clear hne hl hp
      generalize d0 :: t = ds at hc hx
      induction hc with
      | nil => simp at hx
      | cons h _ ih =>
        rcases List.mem_cons.1 hx with rfl | hx
        · exact ⟨_, h⟩
        · exact ih hx
    obtain ⟨n, hn⟩ := this
    obtain ⟨c, h1, h2, -⟩ := hn p hp
    rw [h1]; exact h2
  have hkey : ∀ key ∈ Dict.keys d0, ∃ c : Arr (Elem K), concatKey (d0 :: t) key = .ok (.arr c) ∧ c.Wf ∧ c.shape.head? = some ns.sum := by
    intro key hk
    obtain ⟨v0, hv0⟩ := (get?_isSome_iff d0 key).2 hk
    have hvs : ∃ vs, List.Forall₂ (fun x w => Dict.get? x key = some w) (d0 :: t) vs ∧
        (∀ w ∈ vs, w.shape.tail = v0.shape.tail ∧ w.toArr.shape ≠ []) ∧ (vs.map fun w => w.toArr.nrows).sum = ns.sum := by
      have hl0 : ∀ x ∈ d0 :: t, layout d0 = layout x := fun x hx => hl d0 (by simp) x hx
      clear hne hl hwf
      generalize d0 :: t = ds at hc hl0
      induction hc with
      | nil => exact ⟨[], .nil, by simp, by simp⟩
      | @cons x n l r h _ ih =>
        obtain ⟨vs, h1, h2, h3⟩ := ih fun y hy => hl0 y (by simp [hy])
        obtain ⟨w, hw, hws⟩ := layout_get? (hl0 x (by simp)) hv0
        obtain ⟨c, hc1, hc2, hc3⟩ := h _ (mem_of_get? hw)
        simp only at hc1
        refine ⟨w :: vs, .cons hw h1, ?_, ?_⟩
        · intro y hy
          rcases List.mem_cons.1 hy with rfl | hy
          · refine ⟨hws, ?_⟩
            rw [hc1]
            simp only [Val.toArr]
            intro h0
            rw [h0] at hc3
            simp at hc3
          · exact h2 y hy
        · simp only [List.map_cons, List.sum_cons, h3]
          congr 1
          rw [hc1]
          simp only [Val.toArr, Arr.nrows]
          cases hs : c.shape with
          | nil => rw [hs] at hc3; simp at hc3
          | cons m s => rw [hs] at hc3; simpa using hc3
    obtain ⟨vs, h1, h2, h3⟩ := hvs
    have hvne : vs.map Val.toArr ≠ [] := by
      cases h1; simp
    have hce := Arr.concatenate_eq (vs.map Val.toArr) v0.shape.tail hvne (by
      intro b hb
      obtain ⟨w, hw, rfl⟩ := List.mem_map.1 hb
      exact ⟨(h2 w hw).2, (h2 w hw).1⟩)
    refine ⟨_, by rw [concatKey_eq h1, hce]; rfl, ?_, ?_⟩
    · refine (Arr.concatenate_rows hce ?_).1
      intro b hb
      obtain ⟨w, hw, rfl⟩ := List.mem_map.1 hb
      obtain ⟨x, hx, hxw⟩ := forall₂_mem_right h1 hw
      exact hwf x hx _ (mem_of_get? hxw)
    · simp only [List.head?_cons, List.map_map]
      rw [← h3]; rfl
  have hok : ∃ d, (Dict.keys d0).mapM (fun key => (concatKey (d0 :: t) key).map fun v => (key, v)) = .ok d ∧ AncilCols d ns.sum := by
    generalize Dict.keys d0 = ks at hkey
    induction ks with
    | nil => exact ⟨[], rfl, by intro p hp; simp at hp⟩
    | cons key ks ih =>
      obtain ⟨d, hd, hcd⟩ := ih fun x hx => hkey x (by simp [hx])
      obtain ⟨c, hc1, hc2, hc3⟩ := hkey key (by simp)
      refine ⟨(key, .arr c) :: d, ?_, ?_⟩
      · rw [mapM_cons, hd, hc1]; rfl
      · intro p hp
        rcases List.mem_cons.1 hp with rfl | hp
        · exact ⟨c, rfl, hc2, hc3⟩
        · exact hcd p hp
  obtain ⟨d, hd, hcd⟩ := hok
  have hfull : concatenateDicts (d0 :: t) = .ok d := by
    simp only [concatenateDicts]
    rw [if_neg]
    · exact hd
    · simp only [List.any_eq_true, not_exists, not_and, Bool.not_eq_true', Bool.not_eq_false]
      intro x hx
      rw [sameKeys_iff]
      intro k
      rw [layout_keys (hl x (by simp [hx]) d0 (by simp))]
  exact ⟨d, hfull, hcd, stacks_of_concat hfull (by simp) hwf⟩

variable [IntCast K]

/-- stacking tables of row classes -/
theorem concat_storeRows (names : List String) (ws : List ℕ) (hwl : ws.length = names.length) (hnd : names.Nodup)
    (outs : List (List (List (List (Elem K))))) (hne : outs ≠ []) :
    concatenateDicts (outs.map (storeRows names ws)) = .ok (storeRows names ws outs.flatten) := by
  obtain ⟨o0, t, rfl⟩ := List.exists_cons_of_ne_nil hne
  have hkeys : ∀ out : List (List (List (Elem K))), Dict.keys (storeRows names ws out) = names := fun out => keys_storeRows _ _ _ hwl
  simp only [List.map_cons, concatenateDicts]
  rw [if_neg, hkeys]
  · rw [mapM_ok_iff, List.forall₂_iff_get]
    refine ⟨by have := congrArg List.length (hkeys (o0 :: t).flatten); simpa [Dict.keys] using this.symm, ?_⟩
    intro j h1 h2
    simp only [List.get_eq_getElem]
    have hg : List.Forall₂ (fun x w => Dict.get? x names[j] = some w) ((o0 :: t).map (storeRows names ws))
        ((o0 :: t).map fun out => .arr (tab out (ws[j]'(by omega)) j)) := by
      rw [List.forall₂_iff_get]
      refine ⟨by simp, ?_⟩
      intro i h3 h4
      simp only [List.get_eq_getElem, List.getElem_map]
      exact get?_storeRows names ws _ hwl hnd j h1
    have hg' := concatKey_eq hg
    rw [List.map_cons] at hg'
    rw [hg', List.map_map]
    have hce := Arr.concatenate_eq (((o0 :: t).map fun out => tab out (ws[j]'(by omega)) j)) [ws[j]'(by omega)] (by simp) (by
      intro b hb
      obtain ⟨o, -, rfl⟩ := List.mem_map.1 hb
      rw [tab_shape]; simp)
    have hcomp : (o0 :: t).map (Val.toArr ∘ fun out => Val.arr (tab out (ws[j]'(by omega)) j)) =
      (o0 :: t).map fun out => tab out (ws[j]'(by omega)) j := rfl
    rw [hcomp, hce]
    have hr : (storeRows names ws (o0 :: t).flatten)[j] = (names[j], .arr (tab (o0 :: t).flatten (ws[j]'(by omega)) j)) := by
      simp [storeRows, tab]
    rw [hr]
    simp only [Except.map, Except.ok.injEq, Prod.mk.injEq, Val.arr.injEq, true_and]
    generalize o0 :: t = os
    unfold tab Arr.ofRows
    simp only [List.map_map]
    congr 1
    · congr 1
      rw [List.length_map, List.length_flatten]
      congr 1
      apply List.map_congr_left
      intro o _
      simp [Arr.nrows]
    · rw [List.map_flatten, List.flatten_flatten, List.map_map]
      rfl
  · simp only [List.any_eq_true, not_exists, not_and, Bool.not_eq_true', Bool.not_eq_false]
    intro x hx
    obtain ⟨o, -, rfl⟩ := List.mem_map.1 hx
    rw [sameKeys_iff]
    intro k
    rw [hkeys, hkeys]

end

section
variable {K : Type} [Field K] [LinearOrder K] [IsStrictOrderedRing K]

/-- values that `compare_two_dicts` finds equal to themselves -/
def Selfsame (v : Val K) : Prop := compareVals v v = .ok true

theorem isclose_self (a : K) : isclose a a = true := by
  unfold isclose
  simp only [sub_self, abs_zero, decide_eq_true_eq]
  positivity

theorem allClose_self (l : List K) : allClose ((nums l).zip (nums l)) = .ok true := by
  induction l with
  | nil => rfl
  | cons a t ih =>
    simp only [nums, List.map_cons, List.zip_cons_cons, allClose] at ih ⊢
    simp only [Elem.close, isclose_self, Bind.bind, Except.bind, ih, Bool.and_self]

theorem selfsame_nums (sh : List ℕ) (l : List K) (h : l ≠ []) : Selfsame (.arr ⟨sh, nums l⟩) := by
  unfold Selfsame compareVals
  simp only [Val.toArr, if_true]
  match l, h with
  | [a], _ => simp [nums, Elem.ne]
  | a :: b :: t, _ =>
    have := allClose_self (a :: b :: t)
    simpa [nums] using this

theorem selfsame_str (sh : List ℕ) (s : String) : Selfsame (.arr ⟨sh, [(.str s : Elem K)]⟩) := by
  simp [Selfsame, compareVals, Val.toArr, Elem.ne]

theorem selfsame_bytes (sh : List ℕ) (s : String) : Selfsame (.arr ⟨sh, [(.bytes s : Elem K)]⟩) := by
  simp [Selfsame, compareVals, Val.toArr, Elem.ne]

theorem selfsame_bool (sh : List ℕ) (b : Bool) : Selfsame (.arr ⟨sh, [(.bool b : Elem K)]⟩) := by
  simp [Selfsame, compareVals, Val.toArr, Elem.ne]

theorem compareEntries_self (d d2 : Dict K) (h : ∀ p ∈ d, Dict.get? d2 p.1 = some p.2 ∧ Selfsame p.2) :
    compareEntries d d2 = .ok true := by
  induction d with
  | nil => rfl
  | cons p t ih =>
    obtain ⟨h1, h2⟩ := h p (by simp)
    simp only [compareEntries, h1]
    unfold Selfsame at h2
    rw [h2]
    exact ih fun q hq => h q (by simp [hq])

theorem compareTwoDicts_self (d : Dict K) (hnd : (Dict.keys d).Nodup) (h : ∀ p ∈ d, Selfsame p.2) : compareTwoDicts d d = .ok true := by
  unfold compareTwoDicts
  rw [if_pos ((sameKeys_iff d d).2 fun _ => Iff.rfl)]
  exact compareEntries_self d d fun p hp => ⟨get?_of_mem hnd hp, h p hp⟩

theorem compareDicts_self (d : Dict K) (hnd : (Dict.keys d).Nodup) (h : ∀ p ∈ d, Selfsame p.2) (ds : List (Dict K))
    (hds : ∀ x ∈ ds, x = d) : compareDicts ds = .ok true := by
  cases ds with
  | nil => rfl
  | cons d0 t =>
    obtain rfl := hds d0 (by simp)
    simp only [compareDicts]
    have ht : ∀ x ∈ t, x = d0 := fun x hx => hds x (by simp [hx])
    clear hds
    induction t with
    | nil => rfl
    | cons x s ih =>
      obtain rfl := ht x (by simp)
      simp only [compareAll, compareTwoDicts_self x hnd h]
      exact ih fun y hy => ht y (by simp [hy])

/-- the metadata of the row classes are found equal to themselves -/
theorem kind_selfsame (k : RowKind) (m : Dict K) (mo : List (String × Arr (Elem K))) (hmo : (k.cls (K := K)).metaOut m = .ok mo)
    (hp : k.Plain (metaDict mo)) : ∀ p ∈ mo, Selfsame (.arr p.2.expand0) := by
  have hvec : ∀ l : List K, l ≠ [] → Selfsame (.arr (vec l).expand0) := fun l h => selfsame_nums _ l h
  cases k with
  | hist =>
    obtain ⟨b, -, hmo⟩ := bind_ok hmo
    split_ifs at hmo with hb
    obtain rfl := Except.ok.inj hmo
    intro p hp'
    rw [List.mem_singleton.1 hp']
    exact hvec b hb
  | interp =>
    obtain ⟨b, -, hmo⟩ := bind_ok hmo
    split_ifs at hmo with hb
    obtain rfl := Except.ok.inj hmo
    intro p hp'
    rw [List.mem_singleton.1 hp']
    exact hvec b fun h => hb (by simp [h])
  | irr => obtain rfl := Except.ok.inj hmo; simp
  | mix => obtain rfl := Except.ok.inj hmo; simp
  | spline => obtain rfl := Except.ok.inj hmo; simp
  | quant =>
    obtain ⟨q, -, hmo⟩ := bind_ok hmo
    obtain ⟨s, -, hmo⟩ := bind_ok hmo
    split_ifs at hmo with hb
    obtain rfl := Except.ok.inj hmo
    have h2 := hp (.arr (vec q)) rfl
    intro p hp'
    simp only [List.mem_cons, List.not_mem_nil, or_false] at hp'
    rcases hp' with rfl | rfl | rfl
    · apply hvec
      rintro rfl
      simp [Val.toArr, vec, nums] at h2
    · exact selfsame_str _ _
    · exact selfsame_bool _ _
  | packed =>
    obtain ⟨x, -, hmo⟩ := bind_ok hmo
    obtain ⟨pt, -, hmo⟩ := bind_ok hmo
    obtain ⟨f, -, hmo⟩ := bind_ok hmo
    split_ifs at hmo with hb
    obtain rfl := Except.ok.inj hmo
    intro p hp'
    simp only [List.mem_cons, List.not_mem_nil, or_false] at hp'
    rcases hp' with rfl | rfl | rfl
    · exact hvec x fun h => hb (by simp [h])
    · exact selfsame_nums _ [pt] (by simp)
    · exact selfsame_nums _ [f] (by simp)

  | sparse =>
    obtain ⟨x, -, hmo⟩ := bind_ok hmo
    obtain ⟨mu, -, hmo⟩ := bind_ok hmo
    obtain ⟨sg, -, hmo⟩ := bind_ok hmo
    obtain ⟨dm, -, hmo⟩ := bind_ok hmo
    split_ifs at hmo with hb
    simp only [not_or, not_lt] at hb
    obtain rfl := Except.ok.inj hmo
    intro p hp'
    simp only [List.mem_cons, List.not_mem_nil, or_false] at hp'
    rcases hp' with rfl | rfl | rfl | rfl
    · exact hvec x (by rintro rfl; simp at hb)
    · exact hvec mu (by rintro rfl; simp at hb)
    · exact hvec sg (by rintro rfl; simp at hb)
    · exact hvec dm (by rintro rfl; simp at hb)

theorem metadata_nodup {c : RowCls K} {mo : List (String × Arr (Elem K))} {ws : List ℕ} {out : List (List (List (Elem K)))}
    (hf : Fixed c mo ws out) (sh : List ℕ) : (Dict.keys (frozenOf c mo ws out sh).metadata).Nodup := by
  have hmem : ∀ x ∈ mo.map (·.1), x ∈ c.metaArgs.map (·.1) ++ c.rowArgs := by
    intro x hx
    obtain ⟨p, hp, rfl⟩ := List.mem_map.1 hx
    exact List.mem_append_left _ (hf.mok p hp)
  have : Dict.keys (frozenOf c mo ws out sh).metadata = "pdf_name" :: "pdf_version" :: mo.map (·.1) := by
    simp [Dict.keys, frozenOf, classMeta, Function.comp_def]
  rw [this, List.nodup_cons, List.nodup_cons]
  refine ⟨?_, ?_, hf.mnd⟩
  · simp only [List.mem_cons, not_or]
    exact ⟨by decide, fun h => hf.names.name (hmem _ h)⟩
  · exact fun h => hf.names.version (hmem _ h)

theorem metadata_self {k : RowKind} {e : Ens K} {mo : List (String × Arr (Elem K))} {ws : List ℕ}
    {out : List (List (List (Elem K)))} (h : Stored k e mo ws out) : (Dict.keys e.frozen.metadata).Nodup ∧
      ∀ p ∈ e.frozen.metadata, Selfsame p.2 := by
  have h1 := metadata_nodup h.fixed e.frozen.shape
  rw [← h.frozen] at h1
  refine ⟨h1, ?_⟩
  rw [h.frozen]
  obtain ⟨m', -, hmo, -, -⟩ := h.fixed.fix
  have h2 := kind_selfsame k m' mo hmo h.plain
  intro p hp
  simp only [frozenOf, List.mem_append, classMeta, List.mem_cons, List.not_mem_nil, or_false, List.mem_map] at hp
  rcases hp with (rfl | rfl) | ⟨q, hq, rfl⟩
  · exact selfsame_bytes _ _
  · exact selfsame_nums _ [_] (by simp)
  · exact h2 q hq

theorem mo_inj {k : RowKind} {e e' : Ens K} {mo mo' : List (String × Arr (Elem K))} {ws ws' : List ℕ}
    {out out' : List (List (List (Elem K)))} (h : Stored k e mo ws out) (h' : Stored k e' mo' ws' out')
    (he : e'.frozen.metadata = e.frozen.metadata) : mo' = mo := by
  rw [h.frozen, h'.frozen] at he
  simp only [frozenOf, List.append_cancel_left_eq] at he
  apply List.map_injective_iff.2 _ he
  rintro ⟨a, ⟨s1, d1⟩⟩ ⟨b, ⟨s2, d2⟩⟩ hab
  simp [Arr.expand0] at hab
  simp [hab]

theorem ws_inj {k : RowKind} {e e' : Ens K} {mo mo' : List (String × Arr (Elem K))} {ws ws' : List ℕ}
    {out out' : List (List (List (Elem K)))} (h : Stored k e mo ws out) (h' : Stored k e' mo' ws' out')
    (he : layout e'.frozen.objdata = layout e.frozen.objdata) : ws' = ws := by
  rw [h.frozen, h'.frozen] at he
  have hl : ws'.length = ws.length := by rw [h.fixed.wl, h'.fixed.wl]
  apply List.ext_getElem hl
  intro j h1 h2
  have hj : j < (k.cls (K := K)).rowArgs.length := by rw [← h.fixed.wl]; exact h2
  have := congrArg (fun l => l[j]?) he
  simp only [layout, frozenOf, storeRows, List.getElem?_map, List.getElem?_zipIdx, List.getElem?_zip_eq_some] at this
  have z1 : ((k.cls (K := K)).rowArgs.zip ws')[j]? = some ((k.cls (K := K)).rowArgs[j], ws'[j]) := by
    rw [List.getElem?_zip_eq_some]; simp [h1, hj]
  have z2 : ((k.cls (K := K)).rowArgs.zip ws)[j]? = some ((k.cls (K := K)).rowArgs[j], ws[j]) := by
    rw [List.getElem?_zip_eq_some]; simp [h2, hj]
  rw [z1, z2] at this
  simpa [Val.shape, Val.toArr, Arr.ofRows] using this

/-- compatible ensembles have the same normal-form metadata and widths -/
theorem stored_compatible {k : RowKind} {e : Ens K} {mo : List (String × Arr (Elem K))} {ws : List ℕ}
    {out : List (List (List (Elem K)))} (h : Stored k e mo ws out) {es : List (Ens K)} (hr : ∀ x ∈ es, Reach k x)
    (hc : ∀ x ∈ es, Compatible e.frozen x.frozen) : ∃ outs, List.Forall₂ (fun x o => Stored k x mo ws o) es outs := by
  induction es with
  | nil => exact ⟨[], .nil⟩
  | cons x t ih =>
    obtain ⟨outs, ho⟩ := ih (fun y hy => hr y (by simp [hy])) fun y hy => hc y (by simp [hy])
    obtain ⟨mo', ws', out', hx⟩ := reach_stored (hr x (by simp))
    have hcx := hc x (by simp)
    obtain rfl := mo_inj h hx hcx.1
    obtain rfl := ws_inj h hx hcx.2
    exact ⟨out' :: outs, .cons hx ho⟩

theorem Fixed.flatten {c : RowCls K} {mo : List (String × Arr (Elem K))} {ws : List ℕ} {outs : List (List (List (List (Elem K))))}
    (hne : outs ≠ []) (h : ∀ o ∈ outs, Fixed c mo ws o) : Fixed c mo ws outs.flatten := by
  obtain ⟨o0, t, rfl⟩ := List.exists_cons_of_ne_nil hne
  have h0 := h o0 (by simp)
  obtain ⟨m', h1, h2, h3, h4⟩ := h0.fix
  refine ⟨h0.names, h0.mok, h0.mnd, h0.sq, h0.wl, ⟨m', h1, h2, h3, ?_⟩, ?_⟩
  · intro r hr
    obtain ⟨o, ho, hr⟩ := List.mem_flatten.1 hr
    obtain ⟨m'', g1, g2, g3, g4⟩ := (h o ho).fix
    obtain rfl := Except.ok.inj (g1.symm.trans h1)
    exact g4 r hr
  · intro r hr
    obtain ⟨o, ho, hr⟩ := List.mem_flatten.1 hr
    exact (h o ho).len r hr

theorem flatten_length_stored {k : RowKind} {mo : List (String × Arr (Elem K))} {ws : List ℕ} {es : List (Ens K)}
    {outs : List (List (List (List (Elem K))))} (h : List.Forall₂ (fun x o => Stored k x mo ws o) es outs) :
    outs.flatten.length = (es.map fun x => x.frozen.npdf).sum := by
  induction h with
  | nil => rfl
  | cons h _ ih =>
    simp only [List.flatten_cons, List.length_append, List.map_cons, List.sum_cons, ih]
    rw [h.frozen]; rfl

/-- `concatenate` on ensembles in normal form with the same metadata and widths -/
theorem concat_stored {k : RowKind} {mo : List (String × Arr (Elem K))} {ws : List ℕ} {es : List (Ens K)}
    {outs : List (List (List (List (Elem K))))} (hne : es ≠ []) (h : List.Forall₂ (fun x o => Stored k x mo ws o) es outs) :
    concatenateEns es = (concatAncils (allAncil es)).bind fun anc => (checkArrayShapes anc outs.flatten.length).bind fun _ =>
      .ok ⟨rowCreate k.cls, rowCreate k.cls, frozenOf k.cls mo ws outs.flatten [outs.flatten.length], anc⟩ := by
  obtain ⟨e0, t, rfl⟩ := List.exists_cons_of_ne_nil hne
  cases h with
  | @cons _ o0 _ os h0 ht =>
    have hall : List.Forall₂ (fun x o => Stored k x mo ws o) (e0 :: t) (o0 :: os) := .cons h0 ht
    have hnd := List.nodup_append.1 h0.fixed.names.nd
    have hmeta : ∀ x ∈ (e0 :: t).map (fun e => e.frozen.metadata), x = e0.frozen.metadata := by
      intro x hx
      obtain ⟨y, hy, rfl⟩ := List.mem_map.1 hx
      have : ∃ o, Stored k y mo ws o := by
        clear h0 ht hx
        generalize e0 :: t = l at hall hy
        generalize o0 :: os = r at hall
        induction hall with
        | nil => simp at hy
        | cons h _ ih =>
          rcases List.mem_cons.1 hy with rfl | hy
          · exact ⟨_, h⟩
          · exact ih hy
      obtain ⟨o, ho⟩ := this
      rw [ho.frozen, h0.frozen]; rfl
    have hcmp := compareDicts_self e0.frozen.metadata (metadata_self h0).1 (metadata_self h0).2 _ hmeta
    have hobj : (e0 :: t).map (fun e => e.frozen.objdata) = (o0 :: os).map (storeRows (k.cls (K := K)).rowArgs ws) := by
      clear h0 ht hmeta hcmp
      generalize e0 :: t = l at hall
      generalize o0 :: os = r at hall
      induction hall with
      | nil => rfl
      | cons h _ ih =>
        rw [List.map_cons, List.map_cons, ih]
        congr 1
        rw [h.frozen]; rfl
    have hcat := concat_storeRows (k.cls (K := K)).rowArgs ws h0.fixed.wl hnd.2.1 (o0 :: os) (by simp)
    have hfix : Fixed (k.cls (K := K)) mo ws (o0 :: os).flatten := by
      apply Fixed.flatten (by simp)
      intro o ho
      obtain ⟨x, -, hx⟩ := forall₂_mem_right hall ho
      exact hx.fixed
    have hne' : (k.cls (K := K)).needsRows = true → (o0 :: os).flatten.length * ws.headD 0 ≠ 0 := by
      intro hn
      refine Nat.mul_ne_zero ?_ (h0.w hn)
      have := h0.ne hn
      cases o0 with
      | nil => exact absurd rfl this
      | cons a l => simp
    simp only [concatenateEns]
    rw [hcmp, hobj, hcat]
    simp only [Bind.bind, Except.bind, if_true]
    cases concatAncils (allAncil (e0 :: t)) with
    | error err => rfl
    | ok anc =>
      simp only [mkEns, Bind.bind]
      rw [h0.frozen, filter_frozenOf h0.fixed, h0.gen, h0.create]
      rw [rebuild_ok hfix hne' (Dict.update _ (metaDict mo))]
      · rfl
      · intro key
        rw [get?_update _ _ (by rw [keys_metaDict]; exact h0.fixed.mnd), get?_append]

end

end Verif.Lemmas
