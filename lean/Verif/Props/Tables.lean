import Verif.Lemmas.Tables
import Verif.Spec.Tables
import Verif.Props.State
import Verif.Props.ExEns

/-!
# Round trips through tables and files: C46, C47
-/

set_option linter.unusedSectionVars false
set_option autoImplicit false

namespace Verif.Props.Tables

open Verif Verif.Np Verif.Model Verif.Spec Verif.Lemmas Verif.Props.State Verif.Props.ExEns

section
variable {K : Type} [Field K] [LinearOrder K] [IsStrictOrderedRing K]

theorem holds_buildTables (e : Ens K) : Holds (buildTables e) e := by
  refine ⟨⟨_, rfl, .refl _⟩, ⟨_, rfl, .refl _⟩, ?_⟩
  unfold buildTables
  cases e.ancil <;> rfl

/-- **C46**: tables that contain an ensemble of a row class (as written by `build_tables`, columns in any order) are read as the same
ensemble: same class, metadata, per-PDF data and ancillary data. The PDFs are numbered by one index afterwards. For every reachable
ensemble whose ancillary data fit it. Not proved: nested shapes, for which it is false (see below). -/
theorem C46_round_trip_partial {r : Reg K} (hr : Registered r) {k : RowKind} {e : Ens K} (h : Reach k e) (ha : AncilOk e) {t : Tabs K}
    (ht : Holds t e) : fromTables r t = .ok (flatEns e) := by
  obtain ⟨mo, ws, out, hs⟩ := reach_stored h
  obtain ⟨md, hmd, hpm⟩ := ht.metadata
  obtain ⟨dt, hdt, hpd⟩ := ht.data
  have hf := hs.fixed
  have hfr := hs.frozen
  rw [hfr] at hpm hpd
  obtain ⟨data, hdata, hname, ⟨vv, hvv⟩, hget⟩ := buildDataDict_stored hf hs.mwf (stored_noBytes hs) e.frozen.shape hpm hpd
  obtain ⟨d1, d2, hp1, hp2, hn1, hn2, hd2⟩ := pop_two hname hvv
  have hall : ∀ x, Dict.get? d2 x = Dict.get? (metaDict mo ++ storeRows (k.cls (K := K)).rowArgs ws out) x := by
    intro x
    have hnot : ∀ y, y ∉ (k.cls (K := K)).metaArgs.map (·.1) ++ (k.cls (K := K)).rowArgs →
        Dict.get? (metaDict mo ++ storeRows (k.cls (K := K)).rowArgs ws out) y = none := by
      intro y hy
      rw [get?_append, get?_metaDict_none, Option.none_or, get?_eq_none_iff, keys_storeRows _ _ _ hf.wl]
      · exact fun hc => hy (List.mem_append_right _ hc)
      · intro hc
        obtain ⟨p, hp, he⟩ := List.mem_map.1 hc
        exact hy (List.mem_append_left _ (he ▸ hf.mok p hp))
    by_cases h1 : x = "pdf_name"
    · subst h1; rw [hn1, hnot _ hf.names.name]
    · by_cases h2 : x = "pdf_version"
      · subst h2; rw [hn2, hnot _ hf.names.version]
      · rw [hd2 x h1 h2, hget x h1 h2]
  have hcr : rowCreate (k.cls (K := K)) d2 = .ok (frozenOf k.cls mo ws out [out.length]) := by
    apply rebuild_ok hf _ d2 hall
    intro hn h0
    rcases Nat.mul_eq_zero.1 h0 with h0 | h0
    · exact hs.ne hn (List.length_eq_zero_iff.1 h0)
    · exact hs.w hn h0
  have hnp : e.frozen.npdf = out.length := by rw [hfr]; rfl
  have hanc := (ancilOk_iff e).1 ha
  rw [hnp] at hanc
  have hfind : Reg.find r (.py (.str (k.cls (K := K)).name)) = .ok (rowCreate k.cls) := by
    simp only [Reg.find, hr k]
  have hm : (frozenOf k.cls mo ws out [out.length]).npdf = out.length := rfl
  simp only [fromTables, Tabs.get, hmd, hdt, hdata, hp1, hp2, hfind, Bind.bind, Except.bind, mkEns, hcr, ht.ancil, hm, hanc]
  have hfe : flatEns e = ⟨rowCreate k.cls, rowCreate k.cls, frozenOf k.cls mo ws out [out.length], e.ancil⟩ := by
    obtain ⟨c, g, fr, an⟩ := e
    have h1 := hs.create
    have h2 := hs.gen
    simp only at h1 h2 hfr
    subst h1 h2
    rw [hfr]
    rfl
  rw [hfe]

/-- writing the tables of an ensemble and reading them -/
theorem C46_build_read_partial {r : Reg K} (hr : Registered r) {k : RowKind} {e : Ens K} (h : Reach k e) (ha : AncilOk e) :
    fromTables r (buildTables e) = .ok (flatEns e) := C46_round_trip_partial hr h ha (holds_buildTables e)

/-- a class unknown to the factory cannot be read -/
theorem C46_unknown_class {r : Reg K} {k : RowKind} {e : Ens K} (h : Reach k e) {t : Tabs K}
    (ht : Holds t e) (hr : r.lookup (k.cls (K := K)).name = none) : fromTables r t = .error .KeyError := by
  obtain ⟨mo, ws, out, hs⟩ := reach_stored h
  obtain ⟨md, hmd, hpm⟩ := ht.metadata
  obtain ⟨dt, hdt, hpd⟩ := ht.data
  have hf := hs.fixed
  rw [hs.frozen] at hpm hpd
  obtain ⟨data, hdata, hname, ⟨vv, hvv⟩, hget⟩ := buildDataDict_stored hf hs.mwf (stored_noBytes hs) e.frozen.shape hpm hpd
  obtain ⟨d1, d2, hp1, hp2, hn1, hn2, hd2⟩ := pop_two hname hvv
  have hfind : Reg.find r (.py (.str (k.cls (K := K)).name)) = .error .KeyError := by
    simp only [Reg.find, hr]
  simp only [fromTables, Tabs.get, hmd, hdt, hdata, hp1, hp2, hfind, Bind.bind, Except.bind]

end

/-- the histograms with ancillary data, read back with the columns in another order -/
example : fromTables stdReg [("ancil", narrow), ("data", histFrozen.objdata), ("meta", histFrozen.metadata.reverse)] =
    .ok (flatEns (histEns (some narrow))) :=
  C46_round_trip_partial registered_std (histReach _ (by decide +kernel)) ((ancilOk_iff _).2 (by decide +kernel))
    ⟨⟨_, rfl, List.reverse_perm _⟩, ⟨_, rfl, .refl _⟩, rfl⟩

/-- the tables written for an ensemble, read back: what the object is then -/
def reread (create : GenFunc ℚ) (data : Dict ℚ) : Except Err (Frozen ℚ) := do
  let e ← mkEns create create data none
  let e' ← fromTables (("norm", analyticCreate "norm" 0) :: stdReg) (buildTables e)
  .ok e'.frozen

/-- four histograms in a 2 × 2 arrangement -/
def nestedData : Dict ℚ := [("bins", qarr [3] [0, 1, 2]), ("pdfs", qarr [2, 2, 2] [1, 1, 1, 1, 1, 1, 1, 1])]

/-- the arrangement of a nested ensemble is not written: shape `(2, 2)` becomes `(4,)` -/
theorem C46_nested_flattened : (rowCreate histCls nestedData).map (fun f => f.shape) = .ok [2, 2] ∧
    (reread (rowCreate histCls) nestedData).map (fun f => f.shape) = .ok [4] := by
  decide +kernel

section
variable {K : Type} [Field K] [LinearOrder K] [IsStrictOrderedRing K]

/-- **C46 for the analytic classes**: parameters with at least two axes (one row per PDF) come back as they are, for any parameter names
and values -/
theorem C46_analytic {r : Reg K} {name : String} {v : ℤ} (hr : r.lookup name = some (analyticCreate name v)) {data : Dict K}
    {ancil : Option (Dict K)} {e : Ens K} (h : mkEns (analyticCreate name v) (analyticCreate name v) data ancil = .ok e)
    (hk : (Dict.keys data).Nodup) (hn : "pdf_name" ∉ Dict.keys data) (hv : "pdf_version" ∉ Dict.keys data)
    (hd : ∀ p ∈ data, ∃ a : Arr (Elem K), p.2 = .arr a ∧ 2 ≤ a.shape.length) :
    fromTables r (buildTables e) = .ok e := by
  obtain ⟨fr, hfr, hanc, rfl⟩ := mkEns_inv h
  have hob : fr.objdata = data ∧ fr.metadata = classMeta name v := by
    unfold analyticCreate at hfr
    simp only at hfr
    split_ifs at hfr <;> · obtain rfl := Except.ok.inj hfr; exact ⟨rfl, rfl⟩
  have hdc := mapM_dataCol data (by
    intro p hp
    obtain ⟨a, ha, h2⟩ := hd p hp
    rw [ha]
    simp only [dataCol]
    rw [if_neg (by omega)])
  have hanc' : (buildTables (⟨analyticCreate name v, analyticCreate name v, fr, ancil⟩ : Ens K)).lookup "ancil" = ancil :=
    (holds_buildTables _).ancil
  have hmd : (classMeta (K := K) name v).mapM (fun p => (metaCol p.2).map fun w => (p.1, w)) =
      .ok [("pdf_name", .py (.str name)), ("pdf_version", .arr ⟨[], [.num (some (v : K))]⟩)] := by
    simp [classMeta, metaCol, decodeVal, Except.map, Bind.bind, Except.bind, pure, Except.pure]
  have hup : Dict.update [("pdf_name", .py (.str name)), ("pdf_version", .arr ⟨[], [.num (some (v : K))]⟩)] data =
      [("pdf_name", .py (.str name)), ("pdf_version", .arr ⟨[], [.num (some (v : K))]⟩)] ++ data := by
    apply update_disjoint _ _ hk
    intro x hx hc
    simp only [Dict.keys, List.map_cons, List.map_nil, List.mem_cons, List.not_mem_nil, or_false] at hc
    rcases hc with rfl | rfl
    · exact hn hx
    · exact hv hx
  have hfl : ∀ x : String, x ∉ Dict.keys data → data.filter (fun p => p.1 ≠ x) = data := by
    intro x hx
    rw [List.filter_eq_self]
    intro p hp
    simp only [decide_eq_true_eq]
    rintro rfl
    exact hx (List.mem_map.2 ⟨p, hp, rfl⟩)
  have hbd : buildDataDict (classMeta name v) data =
      .ok ([("pdf_name", .py (.str name)), ("pdf_version", .arr ⟨[], [.num (some (v : K))]⟩)] ++ data) := by
    simp only [buildDataDict, hmd, hdc, Bind.bind, Except.bind, hup]
  have h1 : Tabs.get (buildTables (⟨analyticCreate name v, analyticCreate name v, fr, ancil⟩ : Ens K)) "meta" = .ok (classMeta name v) := by
    rw [← hob.2]; rfl
  have h2 : Tabs.get (buildTables (⟨analyticCreate name v, analyticCreate name v, fr, ancil⟩ : Ens K)) "data" = .ok data := by
    rw [← hob.1]; simp [buildTables, Tabs.get, List.lookup]
  have h3 : Dict.popVal ([("pdf_name", .py (.str name)), ("pdf_version", .arr ⟨[], [.num (some (v : K))]⟩)] ++ data) "pdf_name" =
      .ok (.py (.str name), ("pdf_version", .arr ⟨[], [.num (some (v : K))]⟩) :: data) := by
    simp only [Dict.popVal, List.cons_append, List.nil_append, get?_cons, if_true, List.filter_cons]
    simp
    simpa using hfl _ hn
  have h4 : Dict.popVal (("pdf_version", .arr ⟨[], [.num (some (v : K))]⟩) :: data) "pdf_version" =
      .ok (.arr ⟨[], [.num (some (v : K))]⟩, data) := by
    simp only [Dict.popVal, get?_cons, if_true, List.filter_cons]
    simp
    simpa using hfl _ hv
  have h5 : Reg.find r (.py (.str name)) = .ok (analyticCreate name v) := by simp only [Reg.find, hr]
  simp only [fromTables, h1, h2, hbd, h3, h4, h5, hanc', Bind.bind, Except.bind, mkEns, hfr, hanc]

end

/-- three Gaussians, parameters of shape (3, 1) -/
def normData : Dict ℚ := [("loc", qarr [3, 1] [0, 1, 2]), ("scale", qarr [3, 1] [1, 1, 2])]

example : ∃ e : Ens ℚ, mkEns (analyticCreate "norm" 0) (analyticCreate "norm" 0) normData (some narrow) = .ok e ∧
    fromTables [("norm", analyticCreate "norm" 0)] (buildTables e) = .ok e := by
  have h : mkEns (analyticCreate "norm" 0) (analyticCreate "norm" 0) normData (some narrow) =
    .ok ⟨analyticCreate "norm" 0, analyticCreate "norm" 0, ⟨classMeta "norm" 0, normData, 3, [3]⟩, some narrow⟩ := rfl
  refine ⟨_, h, C46_analytic (r := [("norm", analyticCreate "norm" 0)]) rfl h (by decide) (by decide) (by decide) ?_⟩
  intro p hp
  simp only [normData] at hp
  simp only [List.mem_cons, List.not_mem_nil, or_false] at hp
  rcases hp with rfl | rfl <;> exact ⟨_, rfl, by simp⟩

/-- parameters with one axis: the ensemble counts as one PDF, but is read back as three -/
theorem C46_analytic_flat_changes :
    (analyticCreate "norm" 0 [("loc", qarr [3] [0, 1, 2]), ("scale", qarr [3] [1, 1, 2])]).map (fun f => f.npdf) = .ok 1 ∧
      (reread (analyticCreate "norm" 0) [("loc", qarr [3] [0, 1, 2]), ("scale", qarr [3] [1, 1, 2])]).map (fun f => f.npdf) = .ok 3 := by
  decide +kernel

/-! ### dictionaries of ensembles -/

section
variable {K : Type} [Field K] [LinearOrder K] [IsStrictOrderedRing K]

theorem dedup_block {α : Type} [DecidableEq α] (a : α) (n : ℕ) (l : List α) (h : a ∉ l) :
    (List.replicate (n + 1) a ++ l).dedup = a :: l.dedup := by
  induction n with
  | zero => simp [List.dedup_cons_of_notMem h]
  | succ n ih =>
    rw [List.replicate_succ, List.cons_append, List.dedup_cons_of_mem (by simp), ih]

/-- a dictionary with plain names as keys -/
def plainKeys (d : List (String × Ens K)) : List (List String × Ens K) := d.map fun p => ([p.1], p.2)

theorem writeDict_cons (p : String × Ens K) (d : List (String × Ens K)) :
    writeDict (plainKeys (p :: d)) = ((buildTables p.2).map fun q => ([p.1, q.1], q.2)) ++ writeDict (plainKeys d) := by
  simp [writeDict, plainKeys]

theorem heads (d : List (String × Ens K)) (hn : (d.map (·.1)).Nodup) : groupNames (writeDict (plainKeys d)) [] = d.map (·.1) := by
  have key : ∀ d : List (String × Ens K), (∀ x, x ∈ ((writeDict (plainKeys d)).filterMap fun p => p.1.head?) ↔ x ∈ d.map (·.1)) ∧
      ((d.map (·.1)).Nodup → ((writeDict (plainKeys d)).filterMap fun p => p.1.head?).dedup = d.map (·.1)) := by
    intro d
    induction d with
    | nil => simp [writeDict, plainKeys]
    | cons p d ih =>
      have hb : ∃ n, (((buildTables p.2).map fun q => ([p.1, q.1], q.2)).filterMap fun p => p.1.head?) = List.replicate (n + 1) p.1 := by
        unfold buildTables
        cases p.2.ancil with
        | none => exact ⟨1, rfl⟩
        | some a => exact ⟨2, rfl⟩
      obtain ⟨n, hb⟩ := hb
      rw [writeDict_cons, List.filterMap_append, hb]
      constructor
      · intro x
        simp only [List.mem_append, List.mem_replicate, ih.1, List.map_cons, List.mem_cons]
        simp
      · intro hn
        simp only [List.map_cons, List.nodup_cons] at hn
        rw [dedup_block _ _ _ (by rw [ih.1]; exact hn.1), ih.2 hn.2]
        rfl
  have := (key d).2 hn
  simpa [groupNames] using this

theorem below (d : List (String × Ens K)) (hn : (d.map (·.1)).Nodup) (p : String × Ens K) (hp : p ∈ d) :
    groupNames (writeDict (plainKeys d)) [p.1] = (buildTables p.2).map (·.1) := by
  have self : ∀ q : String × Ens K, ((buildTables q.2).map fun t => ([q.1, t.1], t.2)).filterMap
      (fun x => if x.1.take 1 = [q.1] then (x.1.drop 1).head? else none) = (buildTables q.2).map (·.1) := by
    intro q
    unfold buildTables
    cases q.2.ancil <;> simp
  have other : ∀ (d : List (String × Ens K)), p.1 ∉ d.map (·.1) → (writeDict (plainKeys d)).filterMap
      (fun x => if x.1.take 1 = [p.1] then (x.1.drop 1).head? else none) = [] := by
    intro d hnot
    rw [List.filterMap_eq_nil_iff]
    intro x hx
    simp only [writeDict, plainKeys, List.mem_flatMap, List.mem_map] at hx
    obtain ⟨q, ⟨q', hq', rfl⟩, t, -, rfl⟩ := hx
    rw [if_neg]
    simp only [List.cons_append, List.nil_append, List.take_succ_cons, List.take_zero, List.cons.injEq, and_true]
    intro he
    exact hnot (he ▸ List.mem_map.2 ⟨q', hq', rfl⟩)
  have key : (writeDict (plainKeys d)).filterMap (fun x => if x.1.take 1 = [p.1] then (x.1.drop 1).head? else none) =
      (buildTables p.2).map (·.1) := by
    induction d with
    | nil => simp at hp
    | cons q d ih =>
      simp only [List.map_cons, List.nodup_cons] at hn
      rw [writeDict_cons, List.filterMap_append]
      rcases List.mem_cons.1 hp with rfl | hp
      · rw [self, other d hn.1, List.append_nil]
      · rw [ih hn.2 hp]
        have : ((buildTables q.2).map fun t => ([q.1, t.1], t.2)).filterMap
            (fun x => if x.1.take 1 = [p.1] then (x.1.drop 1).head? else none) = [] := by
          rw [List.filterMap_eq_nil_iff]
          intro x hx
          obtain ⟨t, -, rfl⟩ := List.mem_map.1 hx
          rw [if_neg]
          simp only [List.take_succ_cons, List.take_zero, List.cons.injEq, and_true]
          intro e
          exact hn.1 (e ▸ List.mem_map.2 ⟨p, hp, rfl⟩)
        rw [this, List.nil_append]
  unfold groupNames
  simp only [List.length_cons, List.length_nil, zero_add]
  rw [key]
  unfold buildTables
  cases p.2.ancil <;> rfl

theorem lookup_below (d : List (String × Ens K)) (hn : (d.map (·.1)).Nodup) (p : String × Ens K) (hp : p ∈ d) (n : String) (c : Dict K)
    (hc : (buildTables p.2).lookup n = some c) : (writeDict (plainKeys d)).lookup [p.1, n] = some c := by
  induction d with
  | nil => simp at hp
  | cons q d ih =>
    simp only [List.map_cons, List.nodup_cons] at hn
    rw [writeDict_cons, List.lookup_append]
    rcases List.mem_cons.1 hp with rfl | hp
    · have : ((buildTables p.2).map fun t => ([p.1, t.1], t.2)).lookup [p.1, n] = (buildTables p.2).lookup n := by
        generalize buildTables p.2 = l
        induction l with
        | nil => rfl
        | cons t l ih =>
          by_cases h : n = t.1
          · simp [List.lookup, h]
          · have h1 : (n == t.1) = false := by simpa using h
            have h2 : ([p.1, n] == [p.1, t.1]) = false := by simpa using h
            simp only [List.map_cons, List.lookup, h1, h2, ih]
      rw [this, hc]
      rfl
    · have hne : q.1 ≠ p.1 := fun e => hn.1 (e ▸ List.mem_map.2 ⟨p, hp, rfl⟩)
      have : ((buildTables q.2).map fun t => ([q.1, t.1], t.2)).lookup [p.1, n] = none := by
        rw [List.lookup_eq_none_iff]
        intro x hx
        obtain ⟨t, -, rfl⟩ := List.mem_map.1 hx
        simp only [bne_iff_ne, ne_eq, List.cons.injEq, not_and]
        intro e
        exact absurd e.symm hne
      rw [this, Option.none_or]
      exact ih hn.2 hp

theorem readGroup_eq (r : Reg K) (d : List (String × Ens K)) (hn : (d.map (·.1)).Nodup) (p : String × Ens K) (hp : p ∈ d) :
    readGroup r (writeDict (plainKeys d)) p.1 = (fromTables r (buildTables p.2)).map fun e => (p.1, e) := by
  unfold readGroup
  rw [below d hn p hp]
  have hts : ((buildTables p.2).map (·.1)).mapM (fun n => (groupCols (writeDict (plainKeys d)) [p.1, n]).map fun c => (n, c)) =
      .ok (buildTables p.2) := by
    have hlk : ∀ t ∈ buildTables p.2, (buildTables p.2).lookup t.1 = some t.2 := by
      unfold buildTables
      cases p.2.ancil <;> simp [List.lookup]
    rw [mapM_ok_iff, List.forall₂_map_left_iff, List.forall₂_same]
    intro t ht
    simp only [groupCols, lookup_below d hn p hp t.1 t.2 (hlk t ht)]
    rfl
  rw [hts]
  simp only [Bind.bind, Except.bind]
  cases fromTables r (buildTables p.2) <;> rfl

/-- **C47**: a dictionary of ensembles, of any row classes, written with `write_dict` and read with `read_dict`, has the same keys and the
same ensembles. Keys are plain names (without a slash): with a slash it is false, see below. -/
theorem C47_round_trip_partial {r : Reg K} (hr : Registered r) (d : List (String × Ens K)) (hn : (d.map (·.1)).Nodup)
    (h : ∀ p ∈ d, (∃ k, Reach k p.2) ∧ AncilOk p.2) :
    readDict r (writeDict (plainKeys d)) = .ok (d.map fun p => (p.1, flatEns p.2)) := by
  unfold readDict
  rw [heads d hn, mapM_ok_iff, List.forall₂_map_left_iff, List.forall₂_map_right_iff, List.forall₂_same]
  intro p hp
  obtain ⟨⟨k, hk⟩, ha⟩ := h p hp
  rw [readGroup_eq r d hn p hp, C46_build_read_partial hr hk ha]
  rfl

/-- **C47 is false** for keys with a slash: `write_dict` makes nested groups of them, and `read_dict` raises `KeyError` -/
theorem C47_slash_fails (r : Reg K) (a b : String) (e : Ens K) : readDict r (writeDict [([a, b], e)]) = .error .KeyError := by
  have hw : ∃ l, writeDict [([a, b], e)] = l ∧ (l = [([a, b, "meta"], e.frozen.metadata), ([a, b, "data"], e.frozen.objdata)] ∨
      ∃ x, l = [([a, b, "meta"], e.frozen.metadata), ([a, b, "data"], e.frozen.objdata), ([a, b, "ancil"], x)]) := by
    refine ⟨_, rfl, ?_⟩
    obtain ⟨cr, gf, fr, an⟩ := e
    cases an with
    | none => left; rfl
    | some x => right; exact ⟨x, rfl⟩
  obtain ⟨l, hl, h⟩ := hw
  rw [hl]
  have h1 : groupNames l [] = [a] := by rcases h with rfl | ⟨x, rfl⟩ <;> simp [groupNames]
  have h2 : groupNames l [a] = [b] := by rcases h with rfl | ⟨x, rfl⟩ <;> simp [groupNames]
  have h3 : groupCols l [a, b] = .ok [] := by rcases h with rfl | ⟨x, rfl⟩ <;> simp [groupCols, List.lookup]
  have h4 : fromTables r [(b, [])] = .error .KeyError := by
    unfold fromTables Tabs.get
    by_cases hb : "meta" = b
    · subst hb
      simp [List.lookup, Bind.bind, Except.bind]
    · have : ("meta" == b) = false := by simpa using hb
      simp [List.lookup, this, Bind.bind, Except.bind]
  simp only [readDict, h1]
  apply mapM_error_head
  simp [readGroup, h2, h3, h4, Bind.bind, Except.bind, Except.map, pure, Except.pure]

end

/-- two ensembles under the names `a` and `b` -/
example : readDict stdReg (writeDict (plainKeys [("a", histEns (some narrow)), ("b", histEns none)])) =
    .ok [("a", flatEns (histEns (some narrow))), ("b", flatEns (histEns none))] := by
  apply C47_round_trip_partial registered_std _ (by decide)
  intro p hp
  simp only [List.mem_cons, List.not_mem_nil, or_false] at hp
  rcases hp with rfl | rfl
  · exact ⟨⟨.hist, histReach _ (by decide +kernel)⟩, (ancilOk_iff _).2 (by decide +kernel)⟩
  · exact ⟨⟨.hist, histReach _ (by decide +kernel)⟩, (ancilOk_iff _).2 (by decide +kernel)⟩

section
variable {K : Type} [Field K] [LinearOrder K] [IsStrictOrderedRing K]

/-- the ways in which a table can hold the class name `s`: text, bytes, a list or a one-dimensional array of several (equal) entries, a numpy byte
string, an array with one entry and more axes -/
inductive NameForm (s : String) : Val K → Prop
  | text : NameForm s (.py (.str s))
  | bytes : NameForm s (.py (.bytes s))
  | listText (l : List (Elem K)) : NameForm s (.lst (.str s :: l))
  | listBytes (l : List (Elem K)) : NameForm s (.lst (.bytes s :: l))
  | scalar : NameForm s (.arr ⟨[], [.bytes s]⟩)
  | column (n : ℕ) (l : List (Elem K)) : NameForm s (.arr ⟨[n], .bytes s :: l⟩)
  | table (n : ℕ) : NameForm s (.arr ⟨List.replicate (n + 2) 1, [.bytes s]⟩)

/-- **C46, class name**: tables whose class name is stored as text, bytes, a list, a column or a nested array are all read as the same ensemble (or
all refused with the same exception). -/
theorem C46_name_forms (r : Reg K) (s : String) (v w : Val K) (hv : NameForm s v) (hw : NameForm s w) (md : Dict K) (t : Tabs K) :
    fromTables r (("meta", ("pdf_name", v) :: md) :: t) = fromTables r (("meta", ("pdf_name", w) :: md) :: t) := by
  have key : ∀ v : Val K, NameForm s v → metaCol v = .ok (.py (.str s)) := by
    intro v h
    cases h with
    | text => rfl
    | bytes => rfl
    | listText => rfl
    | listBytes => rfl
    | scalar => rfl
    | column => rfl
    | table n =>
      have : (⟨List.replicate (n + 2) 1, [.bytes s]⟩ : Arr (Elem K)).squeeze.shape = [] := by
        simp only [Arr.squeeze]
        rw [List.filter_eq_nil_iff]
        intro x hx
        simp [List.eq_of_mem_replicate hx]
      simp only [metaCol, List.length_replicate]
      rw [if_pos (by omega), if_pos this]
      rfl
  have hb : ∀ dt, buildDataDict (("pdf_name", v) :: md) dt = buildDataDict (("pdf_name", w) :: md) dt := by
    intro dt
    simp only [buildDataDict, List.mapM_cons, key v hv, key w hw]
  simp only [fromTables, Tabs.get, List.lookup, beq_self_eq_true, Bind.bind, Except.bind, hb]
  rfl

/-- the names `hist` as a list of bytes and as a nested array -/
example (md : Dict ℚ) (t : Tabs ℚ) := C46_name_forms stdReg "hist" _ _ (.listBytes []) (.table 1) md t

end

end Verif.Props.Tables
