import Verif.Lemmas.Stack
import Verif.Props.Select
import Mathlib.Tactic.NormNum

/-!
# C34, C35, C36: appending and concatenating
-/

set_option linter.unusedSectionVars false
set_option autoImplicit false

namespace Verif.Props.Stack

open Verif Verif.Np Verif.Model Verif.Spec Verif.Lemmas

variable {K : Type} [Field K] [LinearOrder K] [IsStrictOrderedRing K]

theorem allAncil_none {es : List (Ens K)} (h : ∃ x ∈ es, x.ancil = none) : allAncil es = none := by
  induction es with
  | nil => simp at h
  | cons x t ih =>
    simp only [allAncil]
    cases hx : x.ancil with
    | none => rfl
    | some a =>
      have : ∃ y ∈ t, y.ancil = none := by
        obtain ⟨y, hy, h0⟩ := h
        rcases List.mem_cons.1 hy with rfl | hy
        · rw [hx] at h0; simp at h0
        · exact ⟨y, hy, h0⟩
      rw [ih this]

theorem allAncil_some {es : List (Ens K)} {as : List (Dict K)} (h : List.Forall₂ (fun x a => x.ancil = some a) es as) :
    allAncil es = some as := by
  induction h with
  | nil => rfl
  | cons h _ ih => simp only [allAncil, h, ih]

theorem stacks_frozenOf {k : RowKind} {mo : List (String × Arr (Elem K))} {ws : List ℕ} {es : List (Ens K)}
    {outs : List (List (List (List (Elem K))))} (hne : es ≠ []) (h : List.Forall₂ (fun x o => Stored k x mo ws o) es outs) :
    Stacks (es.map Ens.frozen) (frozenOf (k.cls (K := K)) mo ws outs.flatten [outs.flatten.length]) := by
  have hmem : ∀ x ∈ es, ∃ o, Stored k x mo ws o := by
    intro x hx
    clear hne
    induction h with
    | nil => simp at hx
    | cons h _ ih =>
      rcases List.mem_cons.1 hx with rfl | hx
      · exact ⟨_, h⟩
      · exact ih hx
  have hobj : (es.map Ens.frozen).map Frozen.objdata = outs.map (storeRows (k.cls (K := K)).rowArgs ws) := by
    clear hne hmem
    induction h with
    | nil => rfl
    | cons h _ ih =>
      simp only [List.map_cons, ih]
      congr 1
      rw [h.frozen]; rfl
  constructor
  · intro f hf
    obtain ⟨x, hx, rfl⟩ := List.mem_map.1 hf
    obtain ⟨o, ho⟩ := hmem x hx
    rw [ho.frozen]; rfl
  · simp only [frozenOf, flatten_length_stored h, List.map_map]; rfl
  · rfl
  · rw [hobj]
    obtain ⟨x, hx⟩ := List.exists_mem_of_ne_nil es hne
    obtain ⟨o, ho⟩ := hmem x hx
    have hnd := List.nodup_append.1 ho.fixed.names.nd
    have hone : outs ≠ [] := by
      rintro rfl
      cases h; exact hne rfl
    apply stacks_of_concat (concat_storeRows _ ws ho.fixed.wl hnd.2.1 outs hone) (by simpa using hone)
    intro d hd
    obtain ⟨o', ho', rfl⟩ := List.mem_map.1 hd
    obtain ⟨y, -, hy⟩ := forall₂_mem_right h ho'
    exact storeRows_wf hy.fixed

/-- **C34.** Concatenating compatible ensembles of a row class (however obtained) succeeds and stacks the PDFs in order. Without
ancillary data in one of them the result has none; if all have tables of the same columns, those are stacked too. The row classes
only, hence partial; see `C34_analytic` for the analytic ones. -/
theorem C34_concatenate_partial (k : RowKind) (e0 : Ens K) (t : List (Ens K)) (hr : ∀ x ∈ e0 :: t, Reach k x)
    (hc : ∀ x ∈ t, Compatible e0.frozen x.frozen) :
    ((∃ x ∈ e0 :: t, x.ancil = none) → ∃ e, concatenateEns (e0 :: t) = .ok e ∧
      Stacks ((e0 :: t).map Ens.frozen) e.frozen ∧ e.ancil = none) ∧
    (∀ as, List.Forall₂ (fun x a => x.ancil = some a ∧ AncilCols a x.frozen.npdf) (e0 :: t) as →
      (∀ a ∈ as, ∀ b ∈ as, layout a = layout b) → ∃ e a, concatenateEns (e0 :: t) = .ok e ∧
        Stacks ((e0 :: t).map Ens.frozen) e.frozen ∧ e.ancil = some a ∧ StacksTab as a ∧ AncilCols a e.frozen.npdf) := by
  obtain ⟨mo, ws, out, h0⟩ := reach_stored (hr e0 (by simp))
  obtain ⟨outs, ho⟩ := stored_compatible h0 (es := e0 :: t) hr (by
    intro x hx
    rcases List.mem_cons.1 hx with rfl | hx
    · exact ⟨rfl, rfl⟩
    · exact hc x hx)
  have hcat := concat_stored (by simp) ho
  have hst := stacks_frozenOf (by simp) ho
  constructor
  · intro hn
    rw [allAncil_none hn] at hcat
    simp only [concatAncils, Except.bind, checkArrayShapes] at hcat
    exact ⟨_, hcat, hst, rfl⟩
  · intro as has hlay
    have hs : allAncil (e0 :: t) = some as := allAncil_some (has.imp fun x a h => h.1)
    have hcols : ∃ ns, List.Forall₂ AncilCols as ns ∧ ns.sum = ((e0 :: t).map fun x => x.frozen.npdf).sum := by
      clear hlay hs hcat hst ho hr hc
      generalize e0 :: t = l at has
      induction has with
      | nil => exact ⟨[], .nil, rfl⟩
      | @cons x a _ _ h _ ih =>
        obtain ⟨ns, h1, h2⟩ := ih
        exact ⟨x.frozen.npdf :: ns, .cons h.2 h1, by simp [h2]⟩
    obtain ⟨ns, hns, hsum⟩ := hcols
    have hane : as ≠ [] := by cases has; simp
    obtain ⟨a, ha1, ha2, ha3⟩ := concat_cols hane hns hlay
    have hlen : outs.flatten.length = ns.sum := by rw [flatten_length_stored ho, hsum]
    rw [hs] at hcat
    simp only [concatAncils, ha1, Except.map, Except.bind, checkArrayShapes, hlen, checkShapes_cols ha2] at hcat
    rw [hlen] at hst
    refine ⟨_, a, hcat, hst, rfl, ha3, ?_⟩
    show AncilCols a (outs.flatten.length)
    rw [hlen]
    exact ha2

/-- **C34**, associativity: concatenating the concatenations of parts is concatenating everything at once (ensembles without
ancillary data) -/
theorem C34_assoc (k : RowKind) (e0 : Ens K) (groups : List (List (Ens K))) (parts : List (Ens K)) (hg : groups ≠ [])
    (hr : ∀ g ∈ groups, g ≠ [] ∧ ∀ x ∈ g, Reach k x ∧ x.ancil = none ∧ Compatible e0.frozen x.frozen) (h0 : Reach k e0)
    (hp : List.Forall₂ (fun g p => concatenateEns g = .ok p) groups parts) :
    concatenateEns parts = concatenateEns groups.flatten ∧ ∃ e, concatenateEns parts = .ok e := by
  obtain ⟨mo, ws, out, hs0⟩ := reach_stored h0
  have hnone : ∀ (g : List (Ens K)) (outs : List (List (List (List (Elem K))))), g ≠ [] → (∀ x ∈ g, x.ancil = none) →
      List.Forall₂ (fun x o => Stored k x mo ws o) g outs → concatenateEns g =
      .ok ⟨rowCreate k.cls, rowCreate k.cls, frozenOf k.cls mo ws outs.flatten [outs.flatten.length], none⟩ := by
    intro g outs hne hn ho
    rw [concat_stored hne ho, allAncil_none]
    · rfl
    · obtain ⟨x, hx⟩ := List.exists_mem_of_ne_nil g hne
      exact ⟨x, hx, hn x hx⟩
  have key : ∃ outss : List (List (List (List (List (Elem K))))),
      List.Forall₂ (fun x o => Stored k x mo ws o) parts (outss.map List.flatten) ∧
      List.Forall₂ (fun x o => Stored k x mo ws o) groups.flatten outss.flatten ∧ (∀ p ∈ parts, p.ancil = none) := by
    clear hg
    induction hp with
    | nil => exact ⟨[], .nil, .nil, by simp⟩
    | @cons g p gs ps hgp _ ih =>
      obtain ⟨outss, h1, h2, h3⟩ := ih fun x hx => hr x (by simp [hx])
      obtain ⟨hgne, hgr⟩ := hr g (by simp)
      obtain ⟨outs, ho⟩ := stored_compatible hs0 (es := g) (fun x hx => (hgr x hx).1) fun x hx => (hgr x hx).2.2
      rw [hnone g outs hgne (fun x hx => (hgr x hx).2.1) ho] at hgp
      obtain rfl := Except.ok.inj hgp
      have hone : outs ≠ [] := by
        rintro rfl
        cases ho; exact hgne rfl
      have hfix : Fixed (k.cls (K := K)) mo ws outs.flatten := Fixed.flatten hone (by
        intro o ho'
        obtain ⟨x, -, hx⟩ := forall₂_mem_right ho ho'
        exact hx.fixed)
      refine ⟨outs :: outss, .cons ⟨rfl, rfl, rfl, hfix, hs0.w, hs0.plain, hs0.mwf, ?_⟩ h1, ?_, ?_⟩
      · intro hn h0'
        cases ho with
        | nil => exact hone rfl
        | cons hx _ =>
          have := hx.ne hn
          simp only [List.flatten_cons, List.append_eq_nil_iff] at h0'
          exact this h0'.1
      · simp only [List.flatten_cons]
        exact List.rel_append ho h2
      · intro q hq
        rcases List.mem_cons.1 hq with rfl | hq
        · rfl
        · exact h3 q hq
  obtain ⟨outss, h1, h2, h3⟩ := key
  have hpne : parts ≠ [] := by
    rintro rfl
    cases hp; exact hg rfl
  have hfne : groups.flatten ≠ [] := by
    obtain ⟨g, hgm⟩ := List.exists_mem_of_ne_nil groups hg
    obtain ⟨x, hx⟩ := List.exists_mem_of_ne_nil g (hr g hgm).1
    intro h0
    have : x ∈ groups.flatten := List.mem_flatten.2 ⟨g, hgm, hx⟩
    rw [h0] at this
    simp at this
  have e1 := hnone parts _ hpne h3 h1
  have e2 := hnone groups.flatten _ hfne (by
    intro x hx
    obtain ⟨g, hgm, hx⟩ := List.mem_flatten.1 hx
    exact ((hr g hgm).2 x hx).2.1) h2
  have hfl : (outss.map List.flatten).flatten = outss.flatten.flatten := by rw [List.flatten_flatten]
  rw [hfl] at e1
  exact ⟨e1.trans e2.symm, _, e1⟩

/-- **C34**, slicing out a part: the rows of the second of three (lists of) ensembles are that ensemble again (with a flat shape) -/
theorem C34_slice_part (k : RowKind) (e0 : Ens K) (pre post : List (Ens K)) (x : Ens K)
    (hr : ∀ y ∈ pre ++ x :: post, Reach k y ∧ y.ancil = none ∧ Compatible e0.frozen y.frozen) (h0 : Reach k e0) (e : Ens K)
    (hcat : concatenateEns (pre ++ x :: post) = .ok e) :
    ∃ e', getItem e (.slice (some ((pre.map fun y => y.frozen.npdf).sum : ℕ))
        (some ((pre.map fun y => y.frozen.npdf).sum + x.frozen.npdf : ℕ)) none) = .ok e' ∧
      e'.frozen = { x.frozen with shape := [x.frozen.npdf] } ∧ e'.ancil = none := by
  obtain ⟨mo, ws, out, hs0⟩ := reach_stored h0
  obtain ⟨outs, ho⟩ := stored_compatible hs0 (es := pre ++ x :: post) (fun y hy => (hr y hy).1) fun y hy => (hr y hy).2.2
  have hall : allAncil (pre ++ x :: post) = none := allAncil_none ⟨x, by simp, (hr x (by simp)).2.1⟩
  rw [concat_stored (by simp) ho, hall] at hcat
  simp only [concatAncils, Except.bind, checkArrayShapes] at hcat
  obtain rfl := Except.ok.inj hcat
  obtain ⟨opre, orest, hpre, hrest, rfl⟩ : ∃ a b, List.Forall₂ (fun x o => Stored k x mo ws o) pre a ∧
      List.Forall₂ (fun x o => Stored k x mo ws o) (x :: post) b ∧ outs = a ++ b := by
    refine ⟨outs.take pre.length, outs.drop pre.length, ?_, ?_, (List.take_append_drop _ _).symm⟩
    · have := List.forall₂_take pre.length ho
      simpa using this
    · have := List.forall₂_drop pre.length ho
      simpa using this
  cases hrest with
  | @cons _ ox _ opost hx hpost =>
    have hlpre := flatten_length_stored hpre
    have hnx : x.frozen.npdf = ox.length := by rw [hx.frozen]; rfl
    have hfix : Fixed (k.cls (K := K)) mo ws (opre ++ ox :: opost).flatten := Fixed.flatten (by simp) (by
        intro o ho'
        obtain ⟨y, -, hy⟩ := forall₂_mem_right ho ho'
        exact hy.fixed)
    rw [getItem_frozen (out := (opre ++ ox :: opost).flatten) rfl rfl hfix hs0.w]
    rw [← hlpre, hnx]
    rw [Select.C32_slice_key _ _ _ (by omega) (by simp)]
    simp only [Except.bind, sliceAncil, checkArrayShapes]
    have hsel : selRows (.many (List.range' opre.flatten.length (opre.flatten.length + ox.length - opre.flatten.length))) =
        List.range' opre.flatten.length ox.length := by simp [selRows]
    rw [hsel]
    rw [if_neg (by
      rintro ⟨h1, h2⟩
      have h3 := congrArg List.length h2
      simp at h3
      exact hx.ne h1 h3)]
    have hpick : pick (opre ++ ox :: opost).flatten (List.range' opre.flatten.length ox.length) = ox := by
      apply List.ext_getElem
      · simp [pick]
      · intro i h1 h2
        simp only [pick, List.getElem_map, List.getElem_range', one_mul, List.getD_eq_getElem?_getD, List.flatten_append,
          List.flatten_cons]
        rw [List.getElem?_append_right (by omega), Nat.add_sub_cancel_left, List.getElem?_append_left h2,
          List.getElem?_eq_getElem h2]
        rfl
    refine ⟨_, rfl, ?_, rfl⟩
    rw [hpick, hx.frozen]
    simp [frozenOf]

/-! ### append -/

/-- the constructor of a row class only looks its arguments up -/
theorem rowCreate_congr (c : RowCls K) {d d' : Dict K} (h : ∀ k, Dict.get? d k = Dict.get? d' k) : rowCreate c d = rowCreate c d' := by
  have hk : ∀ x, x ∈ Dict.keys d ↔ x ∈ Dict.keys d' := by
    intro x
    rw [← get?_isSome_iff, ← get?_isSome_iff, h x]
  have h1 : d.keys.any (fun k => k ∉ c.metaArgs.map (·.1) ++ c.rowArgs) = d'.keys.any (fun k => k ∉ c.metaArgs.map (·.1) ++ c.rowArgs) := by
    rw [Bool.eq_iff_iff, List.any_eq_true, List.any_eq_true]
    constructor
    · rintro ⟨x, hx, h⟩; exact ⟨x, (hk x).1 hx, h⟩
    · rintro ⟨x, hx, h⟩; exact ⟨x, (hk x).2 hx, h⟩
  have h2 : c.metaArgs.mapM (argVal d) = c.metaArgs.mapM (argVal d') := mapM_congr _ _ _ fun p _ => argVal_congr p (h p.1)
  have h3 : c.rowArgs.mapM (rowArr d) = c.rowArgs.mapM (rowArr d') := mapM_congr _ _ _ fun p _ => rowArr_congr p (h p)
  unfold rowCreate
  rw [h1, h2, h3]

/-- **C35** for the row classes, `b` being any ensemble: `a.append(b)` and `concatenate([a, b])` produce the same ensemble or both fail; for different metadata
the exceptions differ (`KeyError` and `ValueError`), otherwise it is the same one. -/
theorem C35_append_concatenate (k : RowKind) {a : Ens K} (ha : Reach k a) (b : Ens K) :
    match concatenateEns [a, b] with
    | .ok e => append a b = (.ok (), e)
    | .error err => (append a b).1 = .error err ∨
        (append a b).1 = .error .KeyError ∧ err = .ValueError ∧ compareDicts [a.frozen.metadata, b.frozen.metadata] = .ok false := by
  obtain ⟨mo, ws, out, hs⟩ := reach_stored ha
  have hanc : concatAncil a.ancil b.ancil = concatAncils (allAncil [a, b]) := by
    simp only [allAncil]
    cases a.ancil <;> cases b.ancil <;> rfl
  simp only [concatenateEns, append, appendData, List.map_cons, List.map_nil]
  cases hc : compareDicts [a.frozen.metadata, b.frozen.metadata] with
  | error err => simp [Bind.bind, Except.bind]
  | ok same =>
    cases same with
    | false => simp [Bind.bind, Except.bind]
    | true =>
      simp only [Bind.bind, Except.bind, if_true]
      cases hd : concatenateDicts [a.frozen.objdata, b.frozen.objdata] with
      | error err => simp
      | ok d =>
        simp only
        rw [hanc]
        cases concatAncils (allAncil [a, b]) with
        | error err => simp
        | ok anc =>
          simp only [mkEns, updateObjdata, update, Bind.bind, Except.bind]
          have hkd : Dict.keys d = (k.cls (K := K)).rowArgs := by rw [keys_concatenateDicts hd, objdata_keys hs]
          have hnd := List.nodup_append.1 hs.fixed.names.nd
          have hsame : a.genFunc (Dict.update (Dict.update ((a.frozen.metadata.filter fun p => p.1 ≠ "pdf_name" ∧ p.1 ≠ "pdf_version").map
              fun p => (p.1, p.2.squeeze)) a.frozen.objdata) d) = a.genFunc (Dict.update d
              ((a.frozen.metadata.filter fun p => p.1 ≠ "pdf_name" ∧ p.1 ≠ "pdf_version").map fun p => (p.1, p.2.squeeze))) := by
            rw [objdata_merge hs, hs.gen]
            apply rowCreate_congr
            intro x
            rw [hs.frozen, filter_frozenOf hs.fixed]
            rw [get?_update _ _ (by rw [hkd]; exact hnd.2.1), get?_update _ _ (by rw [keys_metaDict]; exact hs.fixed.mnd)]
            rw [get?_append]
            by_cases hx : x ∈ (k.cls (K := K)).rowArgs
            · have h1 : Dict.get? (metaDict mo) x = none := by
                rw [get?_eq_none_iff, keys_metaDict]
                intro hc
                obtain ⟨p, hp, rfl⟩ := List.mem_map.1 hc
                exact hnd.2.2 p.1 (hs.fixed.mok p hp) p.1 hx rfl
              obtain ⟨v, hv⟩ := (get?_isSome_iff d x).2 (by rw [hkd]; exact hx)
              rw [h1, hv]; rfl
            · have h1 : Dict.get? d x = none := by rw [get?_eq_none_iff, hkd]; exact hx
              have h2 : Dict.get? (storeRows (k.cls (K := K)).rowArgs ws out) x = none := by
                rw [get?_eq_none_iff, keys_storeRows _ _ _ hs.fixed.wl]; exact hx
              rw [h1, h2, Option.or_none, Option.none_or]
          rw [hsame]
          cases a.genFunc _ with
          | error err => simp
          | ok fr =>
            simp only [setAncil]
            cases checkArrayShapes anc fr.npdf with
            | error err => simp
            | ok u => simp

/-! ### analytic classes -/

theorem analyticCreate_col (name : String) (version : ℤ) (d : Dict K) (m : ℕ) (hd : d ≠ []) (hs : ∀ p ∈ d, p.2.shape = [m, 1]) :
    analyticCreate name version d = .ok ⟨classMeta name version, d, m, [m]⟩ := by
  have hh : (d.map fun p => p.2.shape).headD [] = [m, 1] := by
    cases d with
    | nil => exact absurd rfl hd
    | cons p t => simp [hs p (by simp)]
  unfold analyticCreate
  simp only [hh]
  rw [if_neg (by
    simp only [List.any_map, List.any_eq_true, Function.comp, decide_eq_true_eq, not_exists, not_and, not_not]
    exact hs)]
  simp

theorem classMeta_self (name : String) (version : ℤ) :
    (Dict.keys (classMeta name version : Dict K)).Nodup ∧ ∀ p ∈ (classMeta name version : Dict K), Selfsame p.2 := by
  refine ⟨by simp [Dict.keys, classMeta], ?_⟩
  intro p hp
  simp only [classMeta, List.mem_cons, List.not_mem_nil, or_false] at hp
  rcases hp with rfl | rfl
  · exact selfsame_bytes _ _
  · exact selfsame_nums _ [_] (by simp)

/-- **C34** for the analytic classes, with parameters given as `(n, 1)` arrays and the same parameters in every ensemble -/
theorem C34_analytic (name : String) (version : ℤ) (ds : List (Dict K)) (es : List (Ens K)) (ns : List ℕ) (hne : ds ≠ [])
    (hok : List.Forall₂ (fun d e => mkEns (analyticCreate name version) (analyticCreate name version) d none = .ok e) ds es)
    (hpar : List.Forall₂ (fun d n => d ≠ [] ∧ ∀ p ∈ d, ∃ c : Arr (Elem K), p.2 = .arr c ∧ c.Wf ∧ c.shape = [n, 1]) ds ns)
    (hkeys : ∀ x ∈ ds, ∀ y ∈ ds, Dict.keys x = Dict.keys y) :
    ∃ e, concatenateEns es = .ok e ∧ Stacks (es.map Ens.frozen) e.frozen ∧ e.frozen.npdf = ns.sum ∧ e.ancil = none := by
  have hform : List.Forall₂ (fun d e => ∃ n, e = ⟨analyticCreate name version, analyticCreate name version,
      ⟨classMeta name version, d, n, [n]⟩, none⟩) ds es ∧ (es.map fun e => e.frozen.npdf) = ns := by
    clear hkeys hne
    induction hok generalizing ns with
    | nil => cases hpar; exact ⟨.nil, rfl⟩
    | @cons d e _ _ h _ ih =>
      cases hpar with
      | @cons _ n _ ns' hd ht =>
        obtain ⟨i1, i2⟩ := ih ns' ht
        have hs : ∀ p ∈ d, p.2.shape = [n, 1] := by
          intro p hp
          obtain ⟨c, h1, h2, h3⟩ := hd.2 p hp
          rw [h1]; exact h3
        rw [mkEns, analyticCreate_col name version d n hd.1 hs] at h
        obtain rfl := Except.ok.inj h
        refine ⟨.cons ⟨n, rfl⟩ i1, ?_⟩
        rw [List.map_cons, i2]
  obtain ⟨hform, hns⟩ := hform
  have hobj : es.map (fun e => e.frozen.objdata) = ds := by
    clear hkeys hne hok hpar hns
    induction hform with
    | nil => rfl
    | cons h _ ih =>
      obtain ⟨n, rfl⟩ := h
      rw [List.map_cons, ih]
  have hes : ∀ e ∈ es, e.create = analyticCreate name version ∧ e.genFunc = analyticCreate name version ∧
      e.frozen.metadata = classMeta name version ∧ e.ancil = none := by
    intro e he
    obtain ⟨d, -, n, rfl⟩ := forall₂_mem_right hform he
    exact ⟨rfl, rfl, rfl, rfl⟩
  have hcols : List.Forall₂ AncilCols ds ns := hpar.imp fun d n h p hp => by
    obtain ⟨c, h1, h2, h3⟩ := h.2 p hp
    exact ⟨c, h1, h2, by rw [h3]; rfl⟩
  have hlay1 : ∀ d ∈ ds, d ≠ [] ∧ layout d = (Dict.keys d).map fun k => (k, [1]) := by
    intro d hd
    have : ∃ n, d ≠ [] ∧ ∀ p ∈ d, ∃ c : Arr (Elem K), p.2 = .arr c ∧ c.Wf ∧ c.shape = [n, 1] := by
      clear hkeys hne hok hform hobj hcols hns
      induction hpar with
      | nil => simp at hd
      | cons h _ ih =>
        rcases List.mem_cons.1 hd with rfl | hd
        · exact ⟨_, h⟩
        · exact ih hd
    obtain ⟨n, h1, h2⟩ := this
    refine ⟨h1, ?_⟩
    simp only [layout, Dict.keys, List.map_map]
    apply List.map_congr_left
    intro p hp
    obtain ⟨c, h3, -, h5⟩ := h2 p hp
    simp [Val.shape, Val.toArr, h3, h5]
  obtain ⟨d, hd1, hd2, hd3⟩ := concat_cols hne hcols (by
    intro x hx y hy
    rw [(hlay1 x hx).2, (hlay1 y hy).2, hkeys x hx y hy])
  obtain ⟨d0, t, rfl⟩ := List.exists_cons_of_ne_nil hne
  have hdk := keys_concatenateDicts hd1
  have hdne : d ≠ [] := by
    rintro rfl
    have := (hlay1 d0 (by simp)).1
    apply this
    simpa [Dict.keys] using hdk.symm
  have hdsh : ∀ p ∈ d, p.2.shape = [ns.sum, 1] := by
    intro p hp
    obtain ⟨c, h1, h2, h3⟩ := hd2 p hp
    have hg : ∃ v, Dict.get? d p.1 = some v := (get?_isSome_iff d p.1).2 (List.mem_map.2 ⟨p, hp, rfl⟩)
    -- every entry of `d` comes from stacking the entries of its key
    simp only [concatenateDicts] at hd1
    split_ifs at hd1
    rw [mapM_ok_iff] at hd1
    obtain ⟨key, hkey, hk⟩ := forall₂_mem_right hd1 hp
    cases hc : concatKey (d0 :: t) key with
    | error e => rw [hc] at hk; simp [Except.map] at hk
    | ok w =>
      rw [hc] at hk
      have hpw : p.2 = w := (congrArg Prod.snd (Except.ok.inj hk)).symm
      obtain ⟨vs, c', g1, g2, rfl⟩ := concatKey_inv hc
      obtain ⟨tl, g3, g4, rfl⟩ := Arr.concatenate_ok g2
      rw [hpw] at h1
      have hcs : c.shape = ((vs.map Val.toArr).map Arr.nrows).sum :: tl := by rw [← Val.arr.inj h1]
      rw [hcs] at h3
      simp only [List.head?_cons, Option.some.injEq] at h3
      have htl : tl = [1] := by
        cases g1 with
        | @cons _ v0 _ _ hv0 _ =>
          have := (g3 v0.toArr (by simp)).2
          rw [← this]
          have hp0 := (hlay1 d0 (by simp)).2
          have hm := mem_of_get? hv0
          have : (key, v0.shape.tail) ∈ layout d0 := List.mem_map.2 ⟨_, hm, rfl⟩
          rw [hp0] at this
          obtain ⟨_, _, he⟩ := List.mem_map.1 this
          exact (congrArg Prod.snd he).symm
      rw [hpw]
      simp only [Val.shape, Val.toArr]
      rw [h3, htl]
  obtain ⟨e0, es', rfl⟩ : ∃ e0 es', es = e0 :: es' := by cases hform; exact ⟨_, _, rfl⟩
  obtain ⟨hc0, hg0, hm0, ha0⟩ := hes e0 (by simp)
  have hcmp : compareDicts ((e0 :: es').map fun e => e.frozen.metadata) = .ok true := by
    refine compareDicts_self (classMeta name version) (classMeta_self name version).1 (classMeta_self name version).2 _ ?_
    intro x hx
    obtain ⟨e, he, rfl⟩ := List.mem_map.1 hx
    exact (hes e he).2.2.1
  have hmd : ((e0.frozen.metadata.filter fun p => p.1 ≠ "pdf_name" ∧ p.1 ≠ "pdf_version").map fun p => (p.1, p.2.squeeze)) = [] := by
    rw [hm0]
    simp [classMeta]
  have hcat : concatenateEns (e0 :: es') = .ok ⟨analyticCreate name version, analyticCreate name version,
      ⟨classMeta name version, d, ns.sum, [ns.sum]⟩, none⟩ := by
    simp only [concatenateEns]
    rw [hcmp, hobj, hd1, allAncil_none ⟨e0, by simp, ha0⟩, hmd, hc0, hg0]
    simp only [Bind.bind, Except.bind, if_true, concatAncils, Dict.update, List.foldl_nil, mkEns,
      analyticCreate_col name version d ns.sum hdne hdsh, checkArrayShapes]
  refine ⟨_, hcat, ⟨?_, ?_, rfl, ?_⟩, rfl, rfl⟩
  · intro f hf
    obtain ⟨e, he, rfl⟩ := List.mem_map.1 hf
    exact (hes e he).2.2.1.symm
  · rw [List.map_map]
    show ns.sum = _
    rw [← hns]; rfl
  · rw [List.map_map]
    show StacksTab ((e0 :: es').map fun e => e.frozen.objdata) d
    rw [hobj]
    exact hd3

/-- **C35** for the analytic classes, with parameters of any kind -/
theorem C35_analytic (name : String) (version : ℤ) (da db : Dict K) (anca ancb : Option (Dict K)) (a b : Ens K)
    (hnd : (Dict.keys da).Nodup)
    (ha : mkEns (analyticCreate name version) (analyticCreate name version) da anca = .ok a)
    (hb : mkEns (analyticCreate name version) (analyticCreate name version) db ancb = .ok b) :
    match concatenateEns [a, b] with
    | .ok e => append a b = (.ok (), e)
    | .error err => (append a b).1 = .error err := by
  have hinv : ∀ (d : Dict K) (anc : Option (Dict K)) (e : Ens K),
      mkEns (analyticCreate name version) (analyticCreate name version) d anc = .ok e →
      e.frozen.metadata = classMeta name version ∧ e.frozen.objdata = d := by
    intro d anc e h
    unfold mkEns at h
    obtain ⟨fr, h1, h2⟩ := bind_ok h
    obtain ⟨_, -, h2⟩ := bind_ok h2
    obtain rfl := Except.ok.inj h2
    unfold analyticCreate at h1
    simp only at h1
    split_ifs at h1 <;> · obtain rfl := Except.ok.inj h1; exact ⟨rfl, rfl⟩
  obtain ⟨hma, hoa⟩ := hinv _ _ _ ha
  obtain ⟨hmb, hob⟩ := hinv _ _ _ hb
  have hanc : concatAncil a.ancil b.ancil = concatAncils (allAncil [a, b]) := by
    simp only [allAncil]
    cases a.ancil <;> cases b.ancil <;> rfl
  have hc : compareDicts [a.frozen.metadata, b.frozen.metadata] = .ok true := by
    refine compareDicts_self (classMeta name version) (classMeta_self name version).1 (classMeta_self name version).2 _ ?_
    intro x hx
    simp only [List.mem_cons, List.not_mem_nil, or_false] at hx
    rcases hx with rfl | rfl
    · exact hma
    · exact hmb
  simp only [concatenateEns, append, appendData, List.map_cons, List.map_nil, hc, Bind.bind, Except.bind, if_true]
  cases hd : concatenateDicts [a.frozen.objdata, b.frozen.objdata] with
  | error err => simp
  | ok d =>
    simp only
    rw [hanc]
    cases concatAncils (allAncil [a, b]) with
    | error err => simp
    | ok anc =>
      have hmd : ((a.frozen.metadata.filter fun p => p.1 ≠ "pdf_name" ∧ p.1 ≠ "pdf_version").map fun p => (p.1, p.2.squeeze)) = [] := by
        rw [hma]
        simp [classMeta]
      have hkd := keys_concatenateDicts hd
      rw [hoa] at hkd
      have h1 : Dict.update (Dict.update ([] : Dict K) da) d = d := by
        rw [update_disjoint [] da hnd (by simp [Dict.keys]), List.nil_append]
        apply dict_ext
        · rw [keys_update_subset _ _ (by rw [hkd]; exact fun _ h => h), hkd]
        · rw [keys_update_subset _ _ (by rw [hkd]; exact fun _ h => h)]; exact hnd
        · intro x
          rw [get?_update _ _ (by rw [hkd]; exact hnd)]
          by_cases hx : x ∈ Dict.keys d
          · obtain ⟨v, hv⟩ := (get?_isSome_iff d x).2 hx
            rw [hv]; rfl
          · have h2 : Dict.get? d x = none := (get?_eq_none_iff d x).2 hx
            have h3 : Dict.get? da x = none := (get?_eq_none_iff da x).2 (by rw [← hkd]; exact hx)
            rw [h2, h3]; rfl
      simp only [mkEns, updateObjdata, update, Bind.bind, Except.bind]
      rw [hmd, hoa, h1]
      simp only [Dict.update, List.foldl_nil]
      cases a.genFunc d with
      | error err => simp
      | ok fr =>
        simp only [setAncil]
        cases checkArrayShapes anc fr.npdf with
        | error err => simp
        | ok u => simp

/-! ### ensembles made by another constructor -/

/-- `spline_gen.create_from_xy_vals(xvals, yvals, **kwargs)`, `spline_pdf.py` 186-205: without both required arguments Python raises
`TypeError`; what it builds from them (scipy splines) is left open as `build`. -/
def splineXyCreate (build : GenFunc K) : GenFunc K := fun data =>
  if "xvals" ∈ Dict.keys data ∧ "yvals" ∈ Dict.keys data then build data else .error .TypeError

/-- **C34** fails for splines made with `create_from_xy_vals`: although any two of them have the same metadata and may have tables of
equal layout, appending always raises `TypeError`, because the stored tables are passed to the function that wants x and y values. -/
theorem C34_spline_xy_fails (build : GenFunc K) (a b : Ens K) (d : Dict K) (hg : a.genFunc = splineXyCreate build)
    (ha : Dict.keys a.frozen.objdata = ["splx", "sply", "spln"]) (hma : a.frozen.metadata = classMeta "spline" 0)
    (hmb : b.frozen.metadata = classMeta "spline" 0) (hd : concatenateDicts [a.frozen.objdata, b.frozen.objdata] = .ok d)
    (hanca : a.ancil = none) :
    (append a b).1 = .error .TypeError ∧ concatenateEns [a, b] = .error .TypeError := by
  have hc : compareDicts [a.frozen.metadata, b.frozen.metadata] = .ok true := by
    refine compareDicts_self (classMeta "spline" 0) (classMeta_self "spline" 0).1 (classMeta_self "spline" 0).2 _ ?_
    intro x hx
    simp only [List.mem_cons, List.not_mem_nil, or_false] at hx
    rcases hx with rfl | rfl
    · exact hma
    · exact hmb
  have hmd : ((a.frozen.metadata.filter fun p => p.1 ≠ "pdf_name" ∧ p.1 ≠ "pdf_version").map fun p => (p.1, p.2.squeeze)) = [] := by
    rw [hma]
    simp [classMeta]
  have hkd := keys_concatenateDicts hd
  constructor
  · simp only [append, appendData, hc, hd, hanca, concatAncil, Bind.bind, Except.bind, if_true, updateObjdata, update]
    rw [hmd, hg]
    have : splineXyCreate build (Dict.update (Dict.update [] a.frozen.objdata) d) = .error .TypeError := by
      unfold splineXyCreate
      rw [if_neg]
      rintro ⟨h1, -⟩
      rw [mem_keys_update, mem_keys_update, hkd, ha] at h1
      simp [Dict.keys] at h1
    rw [this]
  · simp only [concatenateEns, List.map_cons, List.map_nil, hc, hd, allAncil, hanca, concatAncils, Bind.bind, Except.bind, if_true, mkEns]
    rw [hmd, hg]
    have : splineXyCreate build (Dict.update d []) = .error .TypeError := by
      unfold splineXyCreate
      rw [if_neg]
      rintro ⟨h1, -⟩
      rw [mem_keys_update, hkd, ha] at h1
      simp [Dict.keys] at h1
    rw [this]

/-! ### C36 -/

/-- two elements are equal, or numbers within the tolerance of `np.allclose` -/
def NearElem (x y : Elem K) : Prop := x = y ∨ ∃ a b : K, x = .num (some a) ∧ y = .num (some b) ∧ |a - b| ≤ 1 / 10 ^ 8 + 1 / 10 ^ 5 * |b|

theorem ne_false {x y : Elem K} (h : (!x.ne y) = true) : x = y := by
  unfold Elem.ne at h
  split at h
  · simp at h
  · simp at h
  · simpa using h

theorem allClose_near {l : List (Elem K × Elem K)} (h : allClose l = .ok true) : ∀ p ∈ l, NearElem p.1 p.2 := by
  induction l with
  | nil => simp
  | cons p t ih =>
    obtain ⟨c, hc, h⟩ := bind_ok h
    obtain ⟨r, hr, h⟩ := bind_ok h
    have hcr := Except.ok.inj h
    simp only [Bool.and_eq_true] at hcr
    obtain ⟨rfl, rfl⟩ := hcr
    intro q hq
    rcases List.mem_cons.1 hq with rfl | hq
    · unfold Elem.close at hc
      split at hc
      · rename_i a b h1 h2
        have := Except.ok.inj hc
        simp only [isclose, decide_eq_true_eq] at this
        right
        refine ⟨a, b, h1, h2, ?_⟩
        norm_num at this ⊢
        exact this
      · simp at hc
      · rename_i a b h1 h2
        have := Except.ok.inj hc
        simp only [beq_iff_eq] at this
        left
        rw [h1, h2, this]
      · simp at hc
    · exact ih hr q hq

theorem compareVals_near {v w : Val K} (h : compareVals v w = .ok true) :
    v.shape = w.shape ∧ ∀ p ∈ v.toArr.data.zip w.toArr.data, NearElem p.1 p.2 := by
  unfold compareVals at h
  split at h
  · have := ne_false (Except.ok.inj h)
    subst this
    refine ⟨rfl, ?_⟩
    intro p hp
    simp only [Val.toArr, List.zip_cons_cons, List.zip_nil_right, List.mem_singleton] at hp
    rw [hp]; exact Or.inl rfl
  · have := Except.ok.inj h
    simp only [beq_iff_eq] at this
    subst this
    refine ⟨rfl, ?_⟩
    intro p hp
    left
    rw [List.zip_eq_zipWith] at hp
    simp only [Val.toArr, List.zipWith_self, List.mem_map] at hp
    obtain ⟨x, -, rfl⟩ := hp
    rfl
  · simp only at h
    split_ifs at h with hs
    · refine ⟨hs, ?_⟩
      split at h
      · simp at h
      · simp at h
      · rename_i x y h1 h2
        have := ne_false (Except.ok.inj h)
        subst this
        intro p hp
        rw [h1, h2] at hp
        simp only [List.zip_cons_cons, List.zip_nil_right, List.mem_singleton] at hp
        rw [hp]; exact Or.inl rfl
      · exact allClose_near h

/-- **C36**, what acceptance guarantees: the same keys, the same shapes, and every entry equal or within the tolerance. (The full claim
asks for equality; `C36_order_matters` and `C36_small_grids_merged` show that it is false.) -/
theorem C36_accept_partial (d1 d2 : Dict K) (h : compareDicts [d1, d2] = .ok true) :
    (∀ k, k ∈ Dict.keys d1 ↔ k ∈ Dict.keys d2) ∧
    ∀ k v w, Dict.get? d1 k = some v → Dict.get? d2 k = some w →
      v.shape = w.shape ∧ (∀ p ∈ v.toArr.data.zip w.toArr.data, NearElem p.1 p.2) ∧
      (v.toArr.data.length = 1 → w.toArr.data.length = 1 → v.toArr.data = w.toArr.data) := by
  simp only [compareDicts, compareAll] at h
  have h2 : compareTwoDicts d1 d2 = .ok true := by
    cases hc : compareTwoDicts d1 d2 with
    | error e => rw [hc] at h; simp at h
    | ok b =>
      cases b with
      | false => rw [hc] at h; simp at h
      | true => rfl
  unfold compareTwoDicts at h2
  by_cases hs : sameKeys d1 d2 = true
  swap
  · rw [if_neg hs] at h2; simp at h2
  rw [if_pos hs] at h2
  refine ⟨(sameKeys_iff d1 d2).1 hs, ?_⟩
  intro k v w hv hw
  have hall : ∀ (d : Dict K), compareEntries d d2 = .ok true → ∀ p ∈ d, ∃ w, Dict.get? d2 p.1 = some w ∧ compareVals p.2 w = .ok true := by
    intro d
    induction d with
    | nil => simp
    | cons q t ih =>
      intro hd p hp
      simp only [compareEntries] at hd
      split at hd
      · simp at hd
      · rename_i vv hvv
        split at hd
        · simp at hd
        · simp at hd
        · rename_i hcv
          rcases List.mem_cons.1 hp with rfl | hp
          · exact ⟨vv, hvv, hcv⟩
          · exact ih hd p hp
  obtain ⟨w', hw', hcv⟩ := hall d1 h2 _ (mem_of_get? hv)
  simp only at hw' hcv
  rw [hw] at hw'
  obtain rfl := Option.some.inj hw'
  obtain ⟨h3, h4⟩ := compareVals_near hcv
  refine ⟨h3, h4, ?_⟩
  intro l1 l2
  -- single elements are compared exactly
  obtain ⟨x, hx⟩ := List.length_eq_one_iff.1 l1
  obtain ⟨y, hy⟩ := List.length_eq_one_iff.1 l2
  rw [hx, hy]
  unfold compareVals at hcv
  split at hcv
  · rename_i a b
    simp only [Val.toArr, List.cons.injEq, and_true] at hx hy
    rw [← hx, ← hy, ne_false (Except.ok.inj hcv)]
  · rename_i a b
    simp only [Val.toArr] at hx hy
    have := Except.ok.inj hcv
    simp only [beq_iff_eq] at this
    rw [← hx, ← hy, this]
  · simp only at hcv
    split_ifs at hcv with hsh
    rw [hx, hy] at hcv
    rw [ne_false (Except.ok.inj hcv)]

/-- accepted ensembles of `concatenate` have near-equal metadata -/
theorem C36_concatenate_partial (k : RowKind) {a : Ens K} (ha : Reach k a) (b e : Ens K) (h : concatenateEns [a, b] = .ok e) :
    compareDicts [a.frozen.metadata, b.frozen.metadata] = .ok true ∧ (Dict.keys a.frozen.metadata).Nodup ∧
      e.frozen.metadata = a.frozen.metadata := by
  obtain ⟨mo, ws, out, hs⟩ := reach_stored ha
  simp only [concatenateEns, List.map_cons, List.map_nil] at h
  obtain ⟨same, h1, h⟩ := bind_ok h
  split_ifs at h with hsame
  subst hsame
  refine ⟨h1, (metadata_self hs).1, ?_⟩
  obtain ⟨d, hd, h⟩ := bind_ok h
  obtain ⟨anc, -, h⟩ := bind_ok h
  obtain ⟨fr, hfr, -, rfl⟩ := mkEns_inv h
  simp only
  rw [hs.gen, hs.frozen, filter_frozenOf hs.fixed] at hfr
  obtain ⟨m, rs, mo', ws', out', hm, -, -, -, hmo', -, -, hfr'⟩ := rowCreate_inv hfr
  rw [hfr']
  obtain ⟨m', h2, h3, -, -⟩ := hs.fixed.fix
  have hnd := List.nodup_append.1 hs.fixed.names.nd
  have hkd : Dict.keys d = (k.cls (K := K)).rowArgs := by rw [keys_concatenateDicts hd, objdata_keys hs]
  have hmm : m = m' := by
    apply Except.ok.inj
    rw [← hm, ← h2]
    apply mapM_congr
    intro p hp
    apply argVal_congr
    rw [get?_update _ _ (by rw [keys_metaDict]; exact hs.fixed.mnd)]
    have : Dict.get? d p.1 = none := by
      rw [get?_eq_none_iff, hkd]
      intro hc
      exact hnd.2.2 p.1 (List.mem_map.2 ⟨p, hp, rfl⟩) p.1 hc rfl
    rw [this, Option.or_none]
  subst hmm
  obtain rfl := Except.ok.inj (h3.symm.trans hmo')
  rw [hs.frozen]
  rfl

section examples
open Verif.Props.ExEns

/-- an ensemble of histograms with one bin from 0 to `b` -/
def oneBin (b h : ℚ) : Frozen ℚ where
  metadata := [("pdf_name", .arr ⟨[1], [.bytes "hist"]⟩), ("pdf_version", qarr [1] [0]), ("bins", qarr [1, 2] [0, b])]
  objdata := [("pdfs", qarr [1, 1] [h])]
  npdf := 1
  shape := [1]

def oneBinData (b : ℚ) : Dict ℚ := [("bins", qarr [2] [0, b]), ("pdfs", qarr [1, 1] [1])]

def oneBinEns (b h : ℚ) : Ens ℚ := ⟨rowCreate histCls, rowCreate histCls, oneBin b h, none⟩

/-- **C36** is false: acceptance depends on the order of the operands. The ensembles are what `Ensemble(hist, ...)` makes of
`oneBinData`. -/
theorem C36_order_matters :
    let b : ℚ := 1 + 1/10^5 + 101/10^10
    rowCreate histCls (oneBinData 1) = .ok (oneBin 1 1) ∧ rowCreate histCls (oneBinData b) = .ok (oneBin b (1 / b)) ∧
    ((concatenateEns [oneBinEns 1 1, oneBinEns b (1 / b)]).map Ens.frozen).isOk = true ∧
    concatenateEns [oneBinEns b (1 / b), oneBinEns 1 1] = .error .ValueError := by
  refine ⟨by decide +kernel, by decide +kernel, by decide +kernel, ?_⟩
  have : compareDicts [(oneBinEns (1 + 1/10^5 + 101/10^10 : ℚ) (1 / (1 + 1/10^5 + 101/10^10))).frozen.metadata,
      (oneBinEns 1 1).frozen.metadata] = .ok false := by decide +kernel
  simp only [concatenateEns, List.map_cons, List.map_nil, this, Bind.bind, Except.bind]
  rfl

/-- **C36** is false: grids on a small scale are merged although they differ by a factor five, and the second PDF, uniform on
`[0, 5e-9]`, comes out as the uniform distribution on `[0, 1e-9]`. -/
theorem C36_small_grids_merged :
    rowCreate histCls (oneBinData (1/10^9)) = .ok (oneBin (1/10^9) (10^9)) ∧
    rowCreate histCls (oneBinData (5/10^9)) = .ok (oneBin (5/10^9) (2*10^8)) ∧
    (concatenateEns [oneBinEns (1/10^9) (10^9), oneBinEns (5/10^9) (2*10^8)]).map Ens.frozen =
      .ok { metadata := (oneBin (1/10^9) (10^9)).metadata, objdata := [("pdfs", qarr [2, 1] [10^9, 10^9])], npdf := 2, shape := [2] } := by
  refine ⟨by decide +kernel, by decide +kernel, by decide +kernel⟩

/-- three histograms and their first one: concatenated, and sliced back -/
example : ∃ e, concatenateEns [histEns none, histEns none] = .ok e ∧ Stacks [histFrozen, histFrozen] e.frozen ∧ e.frozen.npdf = 6 := by
  obtain ⟨e, h1, h2, -⟩ := (C34_concatenate_partial .hist (histEns none) [histEns none] (by
    intro x hx
    simp only [List.mem_cons, List.not_mem_nil, or_false, or_self] at hx
    rw [hx]; exact histReach none rfl) (by
    intro x hx
    rw [List.mem_singleton.1 hx]; exact ⟨rfl, rfl⟩)).1 ⟨_, List.mem_cons_self, rfl⟩
  exact ⟨e, h1, h2, h2.npdf⟩

/-- with ancillary columns -/
example : ∃ e a, concatenateEns [histEns (some narrow), histEns (some narrow)] = .ok e ∧ e.ancil = some a ∧ AncilCols a e.frozen.npdf := by
  obtain ⟨e, a, h1, -, h3, -, h5⟩ := (C34_concatenate_partial .hist (histEns (some narrow)) [histEns (some narrow)] (by
    intro x hx
    simp only [List.mem_cons, List.not_mem_nil, or_false, or_self] at hx
    rw [hx]; exact histReach _ (by decide +kernel)) (by
    intro x hx
    rw [List.mem_singleton.1 hx]; exact ⟨rfl, rfl⟩)).2 [narrow, narrow]
    (.cons ⟨rfl, narrow_cols⟩ (.cons ⟨rfl, narrow_cols⟩ .nil)) (by
      intro x hx y hy
      simp only [List.mem_cons, List.not_mem_nil, or_false, or_self] at hx hy
      rw [hx, hy])
  exact ⟨e, a, h1, h3, h5⟩

end examples

end Verif.Props.Stack
