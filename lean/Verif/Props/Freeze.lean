import Verif.Model.Freeze
import Verif.Lemmas.Kinds
import Verif.Props.ExEns

/-!
# C96: freezing builds the object twice, with input checking on
-/

set_option linter.unusedSectionVars false
set_option autoImplicit false

namespace Verif.Spec

open Verif Verif.Np Verif.Model

variable {K : Type} [Field K] [LinearOrder K]

/-- the constructor of the class, with its `check_input` flag -/
def RowKind.ctor : RowKind → RowCls K
  | .hist => histCtor
  | .interp => interpCtor
  | .irr => irrCtor
  | .mix => mixCls
  | .quant => quantCls
  | .packed => packedCtor
  | .spline => splineCls
  | .sparse => sparseCtor

end Verif.Spec

namespace Verif.Props.Freeze

open Verif Verif.Np Verif.Model Verif.Spec Verif.Lemmas Verif.Props.ExEns

section
variable {K : Type} [Field K] [LinearOrder K] [IsStrictOrderedRing K]

/-- a successful construction, in full -/
theorem rowCreate_iff (c : RowCls K) (data : Dict K) (fr : Frozen K) : rowCreate c data = .ok fr ↔
    ∃ m rs mo ws out, data.keys.any (fun k => k ∉ c.metaArgs.map (·.1) ++ c.rowArgs) = false ∧
      c.metaArgs.mapM (argVal data) = .ok m ∧ c.rowArgs.mapM (rowArr data) = .ok rs ∧
      (∀ a ∈ rs, a.shape.dropLast = (rs.headD ⟨[], []⟩).shape.dropLast) ∧
      ¬(c.rank2 = true ∧ (rs.headD ⟨[], []⟩).shape.dropLast.length ≠ 1) ∧
      ¬(c.needsRows = true ∧ (rs.headD ⟨[], []⟩).size = 0) ∧
      c.metaOut m = .ok mo ∧ c.widths m (rs.map fun a => a.shape.getLastD 0) = .ok ws ∧
      (List.range (rs.headD ⟨[], []⟩).shape.dropLast.prod).mapM (fun i => c.norm m (pdfRows rs i)) = .ok out ∧
      fr = { metadata := classMeta c.name c.version ++ mo.map fun p => (p.1, .arr p.2.expand0)
             objdata := storeRows c.rowArgs ws out
             npdf := (rs.headD ⟨[], []⟩).shape.dropLast.prod
             shape := (rs.headD ⟨[], []⟩).shape.dropLast } := by
  constructor
  · intro h
    unfold rowCreate at h
    split at h
    · simp at h
    next hk =>
    obtain ⟨m, hm, h⟩ := bind_ok h
    obtain ⟨rs, hrs, h⟩ := bind_ok h
    simp only at h
    split at h
    · simp at h
    next hlead =>
    split at h
    · simp at h
    next hrank =>
    split at h
    · simp at h
    next hne =>
    obtain ⟨mo, hmo, h⟩ := bind_ok h
    obtain ⟨ws, hws, h⟩ := bind_ok h
    obtain ⟨out, hout, h⟩ := bind_ok h
    exact ⟨m, rs, mo, ws, out, by simpa using hk, hm, hrs,
      by simpa only [List.any_eq_true, decide_eq_true_eq, not_exists, not_and, not_not] using hlead,
      hrank, hne, hmo, hws, hout, (Except.ok.inj h).symm⟩
  · rintro ⟨m, rs, mo, ws, out, hk, hm, hrs, hlead, hrank, hne, hmo, hws, hout, rfl⟩
    unfold rowCreate
    rw [hk]
    simp only [Bool.false_eq_true, if_false, hm, hrs, Bind.bind, Except.bind]
    rw [if_neg, if_neg hrank, if_neg hne, hmo]
    · simp only [hws, hout]
    · simpa only [List.any_eq_true, decide_eq_true_eq, not_exists, not_and, not_not] using hlead

/-- the constructor differs from the outcome only in what is recorded and in the treatment of rows -/
theorem ctor_fields (k : RowKind) : (k.ctor (K := K)).name = (k.cls (K := K)).name ∧
    (k.ctor (K := K)).version = (k.cls (K := K)).version ∧
    (k.ctor (K := K)).metaArgs = k.cls.metaArgs ∧ (k.ctor (K := K)).rowArgs = (k.cls (K := K)).rowArgs ∧
    (k.ctor (K := K)).needsRows = (k.cls (K := K)).needsRows ∧ (k.ctor (K := K)).rank2 = (k.cls (K := K)).rank2 ∧
    (k.ctor (K := K)).widths = k.cls.widths := by
  cases k <;> exact ⟨rfl, rfl, rfl, rfl, rfl, rfl, rfl⟩

/-- the classes that do not record the flag -/
def forgets : RowKind → Bool
  | .hist | .interp | .irr | .packed | .sparse => true
  | .mix | .quant | .spline => false

theorem ctor_same (k : RowKind) (h : forgets k = false) : k.ctor (K := K) = k.cls := by
  cases k <;> first | rfl | simp [forgets] at h

theorem forgets_arg (k : RowKind) (h : forgets k = true) : checkInputArg ∈ (k.cls (K := K)).metaArgs := by
  cases k <;> first | (simp [forgets] at h; done) | simp [RowKind.cls, histCls, interpCls, irrCls, packedCls, sparseCls]

/-- with the flag set, constructor and outcome agree -/
theorem ctor_checked (k : RowKind) (hf : forgets k = true) {m : Dict K} (h : truthy m "check_input" = true) :
    (k.ctor (K := K)).metaOut m = k.cls.metaOut m ∧ (k.ctor (K := K)).norm m = k.cls.norm m := by
  have hlt : ∀ x : List K, (x = [] ∨ x.length < 2) ↔ x.length < 2 := by
    intro x
    refine ⟨?_, Or.inr⟩
    rintro (rfl | h)
    · simp
    · exact h
  cases k with
  | hist => exact ⟨rfl, by funext r; simp [RowKind.ctor, RowKind.cls, histCtor, h]⟩
  | interp => exact ⟨by simp [RowKind.ctor, RowKind.cls, interpCtor, interpCls, h, hlt], by funext r; simp [RowKind.ctor, RowKind.cls, interpCtor, h]⟩
  | irr => exact ⟨rfl, by funext r; simp [RowKind.ctor, RowKind.cls, irrCtor, h]⟩
  | packed => exact ⟨by simp [RowKind.ctor, RowKind.cls, packedCtor, packedCls, h, hlt], by funext r; simp [RowKind.ctor, RowKind.cls, packedCtor, h]⟩
  | sparse =>
    refine ⟨?_, rfl⟩
    simp only [RowKind.ctor, RowKind.cls, sparseCtor, sparseCls, h, and_true, ← or_assoc, hlt]
  | mix => simp [forgets] at hf
  | quant => simp [forgets] at hf
  | spline => simp [forgets] at hf

theorem create_checked (k : RowKind) (hf : forgets k = true) {data : Dict K} (h : truthy data "check_input" = true) :
    rowCreate (k.ctor (K := K)) data = rowCreate k.cls data := by
  obtain ⟨h1, h2, h3, h4, h5, h6, h7⟩ := ctor_fields (K := K) k
  have hl : (k.ctor (K := K)).leadErr = (k.cls (K := K)).leadErr := by cases k <;> rfl
  unfold rowCreate
  rw [h3, h4, h5, h6, h7, h1, h2, hl]
  split
  · rfl
  cases hm : (k.cls (K := K)).metaArgs.mapM (argVal data) with
  | error e => rfl
  | ok m =>
    have ht := truthy_args _ data m (List.nodup_append.1 (kind_names (K := K) k).nd).1 hm (forgets_arg k hf)
    obtain ⟨e1, e2⟩ := ctor_checked (K := K) k hf (ht.trans h)
    simp only [Bind.bind, Except.bind, e1, e2]

theorem filter_meta {c : RowCls K} (hn : Names c) {mo : List (String × Arr (Elem K))} (hmok : ∀ p ∈ mo, p.1 ∈ c.metaArgs.map (·.1))
    {ws : List ℕ} {out : List (List (List (Elem K)))} {n : ℕ} {s : List ℕ} :
    ctorParams ⟨classMeta c.name c.version ++ mo.map (fun p => (p.1, .arr p.2.expand0)), storeRows c.rowArgs ws out, n, s⟩ =
      metaDict mo ++ storeRows c.rowArgs ws out := by
  unfold ctorParams
  congr 1
  simp only [classMeta, List.filter_append, List.map_append]
  have e1 : (mo.map fun p => (p.1, (Val.arr p.2.expand0 : Val K))).filter (fun p => decide (p.1 ≠ "pdf_name" ∧ p.1 ≠ "pdf_version")) =
      mo.map fun p => (p.1, .arr p.2.expand0) := by
    rw [List.filter_eq_self]
    intro q hq
    obtain ⟨p, hp, rfl⟩ := List.mem_map.1 hq
    have := hmok p hp
    simp only [decide_eq_true_eq]
    exact ⟨fun h => hn.name (List.mem_append_left _ (h ▸ this)), fun h => hn.version (List.mem_append_left _ (h ▸ this))⟩
  rw [e1]
  simp [metaDict, Arr.expand0, Val.toArr, Function.comp_def]

/-- what happens with the flag off: rows and widths are kept, and the recorded metadata make the class behave as with the given arguments -/
theorem ctor_unchecked (k : RowKind) (hf : forgets k = true) {m : Dict K} (h : truthy m "check_input" = false)
    {mo : List (String × Arr (Elem K))} (hmo : (k.ctor (K := K)).metaOut m = .ok mo) :
    (∀ r o, (k.ctor (K := K)).norm m r = .ok o → o = r) ∧ (∀ ws ws', (k.ctor (K := K)).widths m ws = .ok ws' → ws' = ws) ∧
    (∀ p ∈ mo, p.1 ∈ (k.cls (K := K)).metaArgs.map (·.1)) ∧
    ∃ m', (k.cls (K := K)).metaArgs.mapM (argVal (metaDict mo)) = .ok m' ∧ (k.cls (K := K)).metaOut m' = (k.cls (K := K)).metaOut m ∧
      (k.cls (K := K)).widths m' = (k.cls (K := K)).widths m ∧ (k.cls (K := K)).norm m' = (k.cls (K := K)).norm m := by
  cases k with
  | hist =>
    obtain ⟨b, hb, hmo⟩ := bind_ok hmo
    split_ifs at hmo with h0
    obtain rfl := Except.ok.inj hmo
    refine ⟨?_, ?_, by simp [RowKind.cls, histCls], ?_⟩
    · intro r o hr
      simp only [RowKind.ctor, histCtor, h, Bool.false_eq_true, if_false] at hr
      exact (Except.ok.inj hr).symm
    · intro ws ws' hws
      obtain ⟨b', -, hws⟩ := bind_ok hws
      split_ifs at hws
      exact (Except.ok.inj hws).symm
    · set m' : Dict K := [("bins", .arr (vec b)), ("check_input", .py (.bool true))] with hm'
      have hg : grid1 m' "bins" = .ok b := grid1_vec b "bins" m' (by simp [hm', get?_cons])
      refine ⟨m', ?_, ?_, ?_, ?_⟩
      · simp [RowKind.cls, histCls, argVal, metaDict, get?_cons, get?_nil, checkInputArg, hm', Bind.bind, Except.bind, pure, Except.pure]
      all_goals simp only [RowKind.cls, histCls, hb, hg]
  | interp =>
    obtain ⟨b, hb, hmo⟩ := bind_ok hmo
    split_ifs at hmo with h0
    obtain rfl := Except.ok.inj hmo
    refine ⟨?_, ?_, by simp [RowKind.cls, interpCls], ?_⟩
    · intro r o hr
      simp only [RowKind.ctor, interpCtor, h, Bool.false_eq_true, if_false] at hr
      exact (Except.ok.inj hr).symm
    · intro ws ws' hws
      obtain ⟨b', -, hws⟩ := bind_ok hws
      split_ifs at hws
      exact (Except.ok.inj hws).symm
    · set m' : Dict K := [("xvals", .arr (vec b)), ("check_input", .py (.bool true))] with hm'
      have hg : grid1 m' "xvals" = .ok b := grid1_vec b "xvals" m' (by simp [hm', get?_cons])
      refine ⟨m', ?_, ?_, ?_, ?_⟩
      · simp [RowKind.cls, interpCls, argVal, metaDict, get?_cons, get?_nil, checkInputArg, hm', Bind.bind, Except.bind, pure, Except.pure]
      all_goals simp only [RowKind.cls, interpCls, hb, hg]
  | irr =>
    obtain rfl : mo = [] := (Except.ok.inj hmo).symm
    refine ⟨?_, ?_, by simp, [("check_input", .py (.bool true))], ?_, rfl, rfl, rfl⟩
    · intro r o hr
      simp only [RowKind.ctor, irrCtor, h, Bool.false_eq_true, if_false] at hr
      exact (Except.ok.inj hr).symm
    · intro ws ws' hws
      simp only [RowKind.ctor, irrCtor, irrCls] at hws
      split at hws
      · split_ifs at hws
        exact (Except.ok.inj hws).symm
      · simp at hws
    · simp [RowKind.cls, irrCls, argVal, metaDict, get?_nil, checkInputArg, Bind.bind, Except.bind, pure, Except.pure]
  | packed =>
    obtain ⟨b, hb, hmo⟩ := bind_ok hmo
    obtain ⟨p, hp, hmo⟩ := bind_ok hmo
    obtain ⟨f, hf', hmo⟩ := bind_ok hmo
    split_ifs at hmo with h0
    obtain rfl := Except.ok.inj hmo
    refine ⟨?_, ?_, by simp [RowKind.cls, packedCls], ?_⟩
    · intro r o hr
      simp only [RowKind.ctor, packedCtor, h, Bool.false_eq_true, if_false] at hr
      exact (Except.ok.inj hr).symm
    · intro ws ws' hws
      obtain ⟨b', -, hws⟩ := bind_ok hws
      split at hws
      · split_ifs at hws
        exact (Except.ok.inj hws).symm
      · simp at hws
    · set m' : Dict K := [("xvals", .arr (vec b)), ("packing_type", .arr ⟨[], [.num (some p)]⟩),
        ("log_floor", .arr ⟨[], [.num (some f)]⟩), ("check_input", .py (.bool true))] with hm'
      have hg : grid1 m' "xvals" = .ok b := grid1_vec b "xvals" m' (by simp [hm', get?_cons])
      have hp' : numArg m' "packing_type" = .ok p := by simp [numArg, argData, hm', get?_cons, Val.toArr]
      have hf'' : numArg m' "log_floor" = .ok f := by simp [numArg, argData, hm', get?_cons, Val.toArr]
      refine ⟨m', ?_, ?_, ?_, rfl⟩
      · simp [RowKind.cls, packedCls, argVal, metaDict, get?_cons, get?_nil, checkInputArg, hm', Bind.bind, Except.bind, pure, Except.pure]
      all_goals simp only [RowKind.cls, packedCls, hb, hg, hp, hp', hf', hf'']
  | sparse =>
    obtain ⟨x, hx, hmo⟩ := bind_ok hmo
    obtain ⟨mu, hmu, hmo⟩ := bind_ok hmo
    obtain ⟨sg, hsg, hmo⟩ := bind_ok hmo
    obtain ⟨dm, hdm, hmo⟩ := bind_ok hmo
    split_ifs at hmo with h0
    obtain rfl := Except.ok.inj hmo
    refine ⟨fun r o hr => (Except.ok.inj hr).symm, ?_, by simp [RowKind.cls, sparseCls], ?_⟩
    · intro ws ws' hws
      simp only [RowKind.ctor, sparseCtor, sparseCls] at hws
      split at hws
      · exact (Except.ok.inj hws).symm
      · simp at hws
    · set m' : Dict K := [("xvals", .arr (vec x)), ("mu", .arr (vec mu)), ("sig", .arr (vec sg)), ("dims", .arr (vec dm)),
        ("cut", .py (.num (some (1 / 100000)))), ("check_input", .py (.bool true))] with hm'
      have h1 : grid1 m' "xvals" = .ok x := grid1_vec x "xvals" m' (by simp [hm', get?_cons])
      have h2 : grid1 m' "mu" = .ok mu := grid1_vec mu "mu" m' (by simp [hm', get?_cons])
      have h3 : grid1 m' "sig" = .ok sg := grid1_vec sg "sig" m' (by simp [hm', get?_cons])
      have h4 : grid1 m' "dims" = .ok dm := grid1_vec dm "dims" m' (by simp [hm', get?_cons])
      refine ⟨m', ?_, ?_, rfl, rfl⟩
      · simp [RowKind.cls, sparseCls, argVal, metaDict, get?_cons, get?_nil, checkInputArg, hm', Bind.bind, Except.bind, pure, Except.pure]
      · simp only [RowKind.cls, sparseCls, h1, h2, h3, h4, hx, hmu, hsg, hdm]
  | mix => simp [forgets] at hf
  | quant => simp [forgets] at hf
  | spline => simp [forgets] at hf

/-- the unchecked pass refuses no more than the checked one -/
theorem ctor_weaker (k : RowKind) {m : Dict K} (h : truthy m "check_input" = false) {mo : List (String × Arr (Elem K))}
    (hmo : (k.cls (K := K)).metaOut m = .ok mo) : (k.ctor (K := K)).metaOut m = .ok mo ∧
      (forgets k = true → ∀ r, (k.ctor (K := K)).norm m r = .ok r) := by
  cases k with
  | hist => exact ⟨hmo, fun _ r => by simp [RowKind.ctor, histCtor, h]⟩
  | interp =>
    obtain ⟨b, hb, hmo⟩ := bind_ok hmo
    split_ifs at hmo with h0
    have hne : b ≠ [] := by rintro rfl; simp at h0
    refine ⟨?_, fun _ r => by simp [RowKind.ctor, interpCtor, h]⟩
    simp only [RowKind.ctor, interpCtor, hb, Bind.bind, Except.bind, h, Bool.false_eq_true, and_false, or_false, if_neg hne]
    exact hmo
  | irr => exact ⟨hmo, fun _ r => by simp [RowKind.ctor, irrCtor, h]⟩
  | packed =>
    obtain ⟨b, hb, hmo⟩ := bind_ok hmo
    obtain ⟨p, hp, hmo⟩ := bind_ok hmo
    obtain ⟨f, hf', hmo⟩ := bind_ok hmo
    split_ifs at hmo with h0
    have hne : b ≠ [] := by rintro rfl; simp at h0
    refine ⟨?_, fun _ r => by simp [RowKind.ctor, packedCtor, h]⟩
    simp only [RowKind.ctor, packedCtor, hb, hp, hf', Bind.bind, Except.bind, h, Bool.false_eq_true, and_false, or_false, if_neg hne, false_and, if_false]
    exact hmo
  | sparse =>
    obtain ⟨x, hx, hmo⟩ := bind_ok hmo
    obtain ⟨mu, hmu, hmo⟩ := bind_ok hmo
    obtain ⟨sg, hsg, hmo⟩ := bind_ok hmo
    obtain ⟨dm, hdm, hmo⟩ := bind_ok hmo
    split_ifs at hmo with h0
    simp only [not_or] at h0
    have hne : x ≠ [] := by rintro rfl; simp at h0
    refine ⟨?_, fun _ r => rfl⟩
    simp only [RowKind.ctor, sparseCtor, hx, hmu, hsg, hdm, Bind.bind, Except.bind, h, Bool.false_eq_true, and_false, false_or, hne,
      h0.2.1, h0.2.2.1, h0.2.2.2, if_false]
    exact hmo
  | mix => exact ⟨hmo, fun hf => by simp [forgets] at hf⟩
  | quant => exact ⟨hmo, fun hf => by simp [forgets] at hf⟩
  | spline => exact ⟨hmo, fun hf => by simp [forgets] at hf⟩

/-- the flag is not among the metadata of the classes that forget it -/
theorem no_flag (k : RowKind) (hf : forgets k = true) {m : Dict K} {mo : List (String × Arr (Elem K))}
    (hmo : (k.ctor (K := K)).metaOut m = .ok mo ∨ (k.cls (K := K)).metaOut m = .ok mo) : "check_input" ∉ mo.map (·.1) := by
  cases k with
  | hist =>
    have hmo : (histCls (K := K)).metaOut m = .ok mo := by rcases hmo with h | h <;> exact h
    obtain ⟨b, hb, hmo⟩ := bind_ok hmo
    split_ifs at hmo
    obtain rfl := Except.ok.inj hmo
    simp
  | interp =>
    rcases hmo with hmo | hmo
    all_goals
      obtain ⟨b, hb, hmo⟩ := bind_ok hmo
      split_ifs at hmo
      obtain rfl := Except.ok.inj hmo
      simp
  | irr =>
    have hmo : (irrCls (K := K)).metaOut m = .ok mo := by rcases hmo with h | h <;> exact h
    obtain rfl : mo = [] := (Except.ok.inj hmo).symm
    simp
  | packed =>
    rcases hmo with hmo | hmo
    all_goals
      obtain ⟨b, -, hmo⟩ := bind_ok hmo
      obtain ⟨p, -, hmo⟩ := bind_ok hmo
      obtain ⟨f, -, hmo⟩ := bind_ok hmo
      split_ifs at hmo
      obtain rfl := Except.ok.inj hmo
      simp
  | sparse =>
    rcases hmo with hmo | hmo
    all_goals
      obtain ⟨x, -, hmo⟩ := bind_ok hmo
      obtain ⟨mu, -, hmo⟩ := bind_ok hmo
      obtain ⟨sg, -, hmo⟩ := bind_ok hmo
      obtain ⟨dm, -, hmo⟩ := bind_ok hmo
      split_ifs at hmo
      obtain rfl := Except.ok.inj hmo
      simp
  | mix => simp [forgets] at hf
  | quant => simp [forgets] at hf
  | spline => simp [forgets] at hf

theorem truthy_params (k : RowKind) (hf : forgets k = true) {mo : List (String × Arr (Elem K))} (h : "check_input" ∉ mo.map (·.1))
    {ws : List ℕ} (hwl : ws.length = (k.cls (K := K)).rowArgs.length) (out : List (List (List (Elem K)))) :
    truthy (metaDict mo ++ storeRows (k.cls (K := K)).rowArgs ws out) "check_input" = true := by
  have h1 : Dict.get? (metaDict mo) "check_input" = none := get?_metaDict_none mo _ h
  have h2 : Dict.get? (storeRows (k.cls (K := K)).rowArgs ws out) "check_input" = none := by
    rw [get?_eq_none_iff, keys_storeRows _ _ _ hwl]
    intro hc
    have := (List.nodup_append.1 (kind_names (K := K) k).nd).2.2 "check_input" (List.mem_map.2 ⟨_, forgets_arg k hf, rfl⟩) "check_input" hc
    exact this rfl
  unfold truthy argData
  rw [get?_append, h1, h2]
  rfl

/-- **C96.** Making a distribution object in two passes, as scipy does when it is frozen, gives what a single pass with input checking on
gives: for every class, all arguments, whatever `check_input` is. (`quant` reports its flag and keeps it; see `C96_quant_keeps_partial`.) -/
theorem C96_two_passes (k : RowKind) {data : Dict K} (hp : k.Plain data) (hw : ArraysWf data) (fr : Frozen K) :
    createFrozen (k.ctor (K := K)) data = .ok fr ↔ rowCreate k.cls data = .ok fr := by
  by_cases hA : forgets k = false ∨ truthy data "check_input" = true
  · -- the first pass is already the checked one
    have h1 : rowCreate (k.ctor (K := K)) data = rowCreate k.cls data := by
      cases hf : forgets k with
      | false => rw [ctor_same k hf]
      | true => exact create_checked k hf (by rcases hA with h | h; · rw [hf] at h; simp at h
                                              · exact h)
    have hgo : ∀ f, rowCreate k.cls data = .ok f → createFrozen (k.ctor (K := K)) data = .ok f := by
      intro f h
      obtain ⟨mo, ws, out, hfr, hfix, hne⟩ := fixed_of_create (kind_names k) hw h (kind_reinit k data hp)
      have hpar : ctorParams f = metaDict mo ++ storeRows (k.cls (K := K)).rowArgs ws out := by
        rw [hfr]
        exact filter_meta (kind_names k) hfix.mok
      have h2 : rowCreate (k.ctor (K := K)) (ctorParams f) = .ok (frozenOf k.cls mo ws out [out.length]) := by
        have : rowCreate (k.ctor (K := K)) (ctorParams f) = rowCreate k.cls (ctorParams f) := by
          cases hf : forgets k with
          | false => rw [ctor_same k hf]
          | true =>
            obtain ⟨m, rs, mo2, ws2, out2, hm, -, -, -, hmo2, -, -, hfr2⟩ := rowCreate_inv h
            have hmo : mo = mo2 := by
              rw [hfr] at hfr2
              have e1 := congrArg Frozen.metadata hfr2
              simp only [frozenOf, List.append_cancel_left_eq] at e1
              apply List.map_injective_iff.2 _ e1
              rintro ⟨a, ⟨s1, d1⟩⟩ ⟨b, ⟨s2, d2⟩⟩ hab
              simp [Arr.expand0] at hab
              simp [hab]
            apply create_checked k hf
            rw [hpar]
            exact truthy_params k hf (hmo ▸ no_flag k hf (Or.inr hmo2)) hfix.wl out
        rw [this]
        exact rebuild_ok hfix hne _ (fun _ => by rw [hpar])
      unfold createFrozen
      rw [h1, h]
      simp only [Bind.bind, Except.bind, h2]
      congr 1
      rw [hfr]
      simp [frozenOf]
    constructor
    · intro h
      obtain ⟨f, hf, -⟩ := bind_ok h
      rw [h1] at hf
      have := hgo f hf
      rw [this] at h
      rw [hf, ← Except.ok.inj h]
    · exact hgo fr
  · -- the first pass keeps the values, the second one checks them
    rw [not_or, Bool.not_eq_false, Bool.not_eq_true] at hA
    obtain ⟨hf, ht⟩ := hA
    obtain ⟨e1, e2, e3, e4, e5, e6, e7⟩ := ctor_fields (K := K) k
    have hnd := (List.nodup_append.1 (kind_names (K := K) k).nd).1
    -- the outcome of the second pass
    have second : ∀ (m : Dict K) (rs : List (Arr (Elem K))) (mo : List (String × Arr (Elem K))),
        (k.cls (K := K)).metaArgs.mapM (argVal data) = .ok m → (k.cls (K := K)).rowArgs.mapM (rowArr data) = .ok rs →
        (∀ a ∈ rs, a.shape.dropLast = (rs.headD ⟨[], []⟩).shape.dropLast) →
        ¬((k.cls (K := K)).needsRows = true ∧ (rs.headD ⟨[], []⟩).size = 0) →
        (k.ctor (K := K)).metaOut m = .ok mo →
        rowCreate (k.ctor (K := K)) (metaDict mo ++ storeRows (k.cls (K := K)).rowArgs (rs.map fun a => a.shape.getLastD 0)
          ((List.range (rs.headD ⟨[], []⟩).shape.dropLast.prod).map (pdfRows rs))) = (do
            let mo' ← (k.cls (K := K)).metaOut m
            let ws' ← (k.cls (K := K)).widths m (rs.map fun a => a.shape.getLastD 0)
            let out' ← (List.range (rs.headD ⟨[], []⟩).shape.dropLast.prod).mapM (fun i => (k.cls (K := K)).norm m (pdfRows rs i))
            .ok { metadata := classMeta (k.cls (K := K)).name (k.cls (K := K)).version ++ mo'.map fun p => (p.1, .arr p.2.expand0)
                  objdata := storeRows (k.cls (K := K)).rowArgs ws' out'
                  npdf := (rs.headD ⟨[], []⟩).shape.dropLast.prod
                  shape := [(rs.headD ⟨[], []⟩).shape.dropLast.prod] }) := by
      intro m rs mo hm hrs hlead hne hmo
      have htm : truthy m "check_input" = false := (truthy_args _ data m hnd hm (forgets_arg k hf)).trans ht
      obtain ⟨-, -, hmok, m', hm', g1, g2, g3⟩ := ctor_unchecked k hf htm hmo
      have hrsF := (mapM_ok_iff _ _ _).1 hrs
      have hrsl : rs.length = (k.cls (K := K)).rowArgs.length := hrsF.length_eq.symm
      have hwf : ∀ a ∈ rs, a.Wf ∧ a.shape ≠ [] := by
        intro a ha
        obtain ⟨j, hj, rfl⟩ := List.mem_iff_getElem.1 ha
        have := (List.forall₂_iff_get.1 hrsF).2 j (by omega) hj
        simp only [List.get_eq_getElem] at this
        exact rowArr_wf hw this
      have hwl : (rs.map fun a => a.shape.getLastD 0).length = (k.cls (K := K)).rowArgs.length := by simpa using hrsl
      rw [create_checked k hf (truthy_params k hf (no_flag k hf (Or.inl hmo)) hwl _),
        reread (kind_names k) hmok hwl ?_ hm' _ (fun _ => rfl), g1, g2, g3, if_neg]
      · simp only [List.length_map, List.length_range, List.mapM_map]
        rfl
      · rintro ⟨hn, h0⟩
        apply hne
        refine ⟨hn, ?_⟩
        cases hrs' : rs with
        | nil => rw [hrs'] at hrsl; exact absurd (List.length_eq_zero_iff.1 hrsl.symm) (kind_names (K := K) k).rne
        | cons a t =>
          rw [hrs'] at h0
          simp only [List.headD_cons, List.map_cons, List.length_map, List.length_range] at h0 ⊢
          have ha := hwf a (by rw [hrs']; simp)
          unfold Arr.size
          rw [← prod_dropLast a.shape ha.2]
          exact h0
      · intro r hr
        obtain ⟨i, hi, rfl⟩ := List.mem_map.1 hr
        rw [List.mem_range] at hi
        simp only [pdfRows, List.map_map]
        apply List.map_congr_left
        intro a ha
        have h2 := hwf a ha
        have := Arr.length_row (flat2 a) (flat2_wf h2.1 h2.2) i (by
          simp only [flat2, Arr.nrows, List.headD_cons]
          rw [hlead a ha]; exact hi)
        simp only [Function.comp]
        rw [this]
        simp [flat2, Arr.rowSize]
    have hrows : ∀ (m : Dict K) (rs : List (Arr (Elem K))) (n : ℕ) (o : List (List (List (Elem K)))),
        (∀ r o, (k.ctor (K := K)).norm m r = .ok o → o = r) →
        (List.range n).mapM (fun i => (k.ctor (K := K)).norm m (pdfRows rs i)) = .ok o → o = (List.range n).map (pdfRows rs) := by
      intro m rs n o hid ho
      rw [mapM_ok_iff] at ho
      have : List.Forall₂ (fun i o => o = pdfRows rs i) (List.range n) o := ho.imp fun i o h => hid _ _ h
      clear ho
      generalize List.range n = l at this
      induction this with
      | nil => rfl
      | cons h _ ih => rw [List.map_cons, ← ih, h]
    constructor
    · intro h
      obtain ⟨f, hf1, h⟩ := bind_ok h
      obtain ⟨g, hg, h⟩ := bind_ok h
      obtain rfl := Except.ok.inj h
      obtain ⟨m, rs, mo, ws, out, hk, hm, hrs, hlead, hrank, hne, hmo, hws, hout, rfl⟩ := (rowCreate_iff _ _ _).1 hf1
      rw [e3] at hm hk
      rw [e4] at hrs hk
      rw [e5] at hne
      rw [e6] at hrank
      have htm : truthy m "check_input" = false := (truthy_args _ data m hnd hm (forgets_arg k hf)).trans ht
      obtain ⟨hid, hwid, hmok, -⟩ := ctor_unchecked k hf htm hmo
      obtain rfl := hwid _ _ hws
      obtain rfl := hrows m rs _ out hid hout
      rw [e1, e2, e4, filter_meta (kind_names k) hmok, second m rs mo hm hrs hlead hne hmo] at hg
      obtain ⟨mo', hmo', hg⟩ := bind_ok hg
      obtain ⟨ws', hws', hg⟩ := bind_ok hg
      obtain ⟨out', hout', hg⟩ := bind_ok hg
      obtain rfl := Except.ok.inj hg
      rw [rowCreate_iff]
      exact ⟨m, rs, mo', ws', out', hk, hm, hrs, hlead, hrank, hne, hmo', hws', hout', rfl⟩
    · intro h
      obtain ⟨m, rs, mo, ws, out, hk, hm, hrs, hlead, hrank, hne, hmo, hws, hout, rfl⟩ := (rowCreate_iff _ _ _).1 h
      have htm : truthy m "check_input" = false := (truthy_args _ data m hnd hm (forgets_arg k hf)).trans ht
      obtain ⟨hmo1, hid1⟩ := ctor_weaker k htm hmo
      obtain ⟨hid, hwid, hmok, -⟩ := ctor_unchecked k hf htm hmo1
      have hws1 : (k.ctor (K := K)).widths m (rs.map fun a => a.shape.getLastD 0) = .ok ws := by rw [e7]; exact hws
      obtain rfl := hwid _ _ hws1
      have first : rowCreate (k.ctor (K := K)) data = .ok
          { metadata := classMeta (k.cls (K := K)).name (k.cls (K := K)).version ++ mo.map fun p => (p.1, .arr p.2.expand0)
            objdata := storeRows (k.cls (K := K)).rowArgs (rs.map fun a => a.shape.getLastD 0)
              ((List.range (rs.headD ⟨[], []⟩).shape.dropLast.prod).map (pdfRows rs))
            npdf := (rs.headD ⟨[], []⟩).shape.dropLast.prod
            shape := (rs.headD ⟨[], []⟩).shape.dropLast } := by
        rw [rowCreate_iff, e1, e2, e3, e4, e5, e6]
        exact ⟨m, rs, mo, _, _, hk, hm, hrs, hlead, hrank, hne, hmo1, hws1,
          mapM_ok_map _ _ _ (fun i _ => hid1 hf _), rfl⟩
      unfold createFrozen
      rw [first]
      simp only [Bind.bind, Except.bind]
      rw [filter_meta (kind_names k) hmok, second m rs mo hm hrs hlead hne hmo1, hmo, hws, hout]
      rfl

/-- the outcome does not look at the flag -/
theorem cls_ignores (k : RowKind) (hf : forgets k = true) {m m2 : Dict K} (h : ∀ key, key ≠ "check_input" → Dict.get? m key = Dict.get? m2 key) :
    (k.cls (K := K)).metaOut m = (k.cls (K := K)).metaOut m2 ∧ (k.cls (K := K)).widths m = (k.cls (K := K)).widths m2 ∧
      (k.cls (K := K)).norm m = (k.cls (K := K)).norm m2 := by
  have hg : ∀ key, key ≠ "check_input" → grid1 m key = grid1 m2 key := by
    intro key hk; unfold grid1; rw [h key hk]
  have hn : ∀ key, key ≠ "check_input" → numArg m key = numArg m2 key := by
    intro key hk; unfold numArg argData; rw [h key hk]
  cases k with
  | hist => simp only [RowKind.cls, histCls, hg "bins" (by decide), and_self]
  | interp => simp only [RowKind.cls, interpCls, hg "xvals" (by decide), and_self]
  | irr => exact ⟨rfl, rfl, rfl⟩
  | packed => simp only [RowKind.cls, packedCls, hg "xvals" (by decide), hn "packing_type" (by decide), hn "log_floor" (by decide), and_self]
  | sparse => simp only [RowKind.cls, sparseCls, hg "xvals" (by decide), hg "mu" (by decide), hg "sig" (by decide), hg "dims" (by decide), and_self]
  | mix => simp [forgets] at hf
  | quant => simp [forgets] at hf
  | spline => simp [forgets] at hf

theorem create_ignores (k : RowKind) (hf : forgets k = true) {data data' : Dict K}
    (h : ∀ key, key ≠ "check_input" → Dict.get? data key = Dict.get? data' key) {fr : Frozen K}
    (hc : rowCreate k.cls data = .ok fr) : rowCreate k.cls data' = .ok fr := by
  have hnd := (List.nodup_append.1 (kind_names (K := K) k).nd).1
  have hmem := forgets_arg (K := K) k hf
  obtain ⟨m, rs, mo, ws, out, hk, hm, hrs, hlead, hrank, hne, hmo, hws, hout, rfl⟩ := (rowCreate_iff _ _ _).1 hc
  obtain ⟨m2, hm2⟩ : ∃ m2, (k.cls (K := K)).metaArgs.mapM (argVal data') = .ok m2 := by
    have hF := (mapM_ok_iff _ _ _).1 hm
    have hall : ∀ p ∈ (k.cls (K := K)).metaArgs, ∃ v, argVal data' p = .ok v := by
      intro p hp
      by_cases hpc : p.1 = "check_input"
      · have : p = checkInputArg := by
          have := List.inj_on_of_nodup_map hnd hp hmem hpc
          exact this
        subst this
        unfold argVal checkInputArg
        cases Dict.get? data' "check_input" <;> exact ⟨_, rfl⟩
      · obtain ⟨j, hj, rfl⟩ := List.mem_iff_getElem.1 hp
        have := (List.forall₂_iff_get.1 hF).2 j hj (by have := hF.length_eq; omega)
        simp only [List.get_eq_getElem] at this
        rw [argVal_congr _ (h _ hpc)] at this
        exact ⟨_, this⟩
    clear hF hm hk hmem hnd hmo hws hout hrs hlead hrank hne hc
    generalize (k.cls (K := K)).metaArgs = l at hall
    induction l with
    | nil => exact ⟨[], rfl⟩
    | cons p t ih =>
      obtain ⟨v, hv⟩ := hall p (by simp)
      obtain ⟨t', ht'⟩ := ih fun q hq => hall q (by simp [hq])
      exact ⟨v :: t', by rw [mapM_cons, hv, ht']⟩
  have hget : ∀ key, key ≠ "check_input" → Dict.get? m key = Dict.get? m2 key := by
    intro key hne'
    by_cases hmemk : ∃ d, (key, d) ∈ (k.cls (K := K)).metaArgs
    · obtain ⟨d, hd⟩ := hmemk
      rw [get?_args _ data m hnd hm key d hd, get?_args _ data' m2 hnd hm2 key d hd, h key hne']
    · have hkeys : ∀ (d : Dict K) (m : Dict K), (k.cls (K := K)).metaArgs.mapM (argVal d) = .ok m → Dict.get? m key = none := by
        intro d m hm
        rw [get?_eq_none_iff]
        intro hin
        obtain ⟨q, hq, rfl⟩ := List.mem_map.1 hin
        have hF := (mapM_ok_iff _ _ _).1 hm
        obtain ⟨j, hj, rfl⟩ := List.mem_iff_getElem.1 hq
        have := (List.forall₂_iff_get.1 hF).2 j (by have := hF.length_eq; omega) hj
        simp only [List.get_eq_getElem] at this
        apply hmemk
        refine ⟨((k.cls (K := K)).metaArgs[j]'(by have := hF.length_eq; omega)).2, ?_⟩
        have hname : m[j].1 = ((k.cls (K := K)).metaArgs[j]'(by have := hF.length_eq; omega)).1 := by
          unfold argVal at this
          split at this <;> first | (simp at this; done) | (rw [← Except.ok.inj this])
        rw [hname]
        exact List.getElem_mem _
      rw [hkeys data m hm, hkeys data' m2 hm2]
  obtain ⟨i1, i2, i3⟩ := cls_ignores (K := K) k hf hget
  rw [rowCreate_iff]
  refine ⟨m2, rs, mo, ws, out, ?_, hm2, ?_, hlead, hrank, hne, i1 ▸ hmo, i2 ▸ hws, i3 ▸ hout, rfl⟩
  · rw [List.any_eq_false] at hk ⊢
    intro key hkey
    by_cases hc' : key = "check_input"
    · subst hc'
      simp only [decide_eq_true_eq, not_not]
      exact List.mem_append_left _ (List.mem_map.2 ⟨_, hmem, rfl⟩)
    · apply hk
      rw [← get?_isSome_iff] at hkey ⊢
      rwa [h key hc']
  · rw [← hrs]
    apply mapM_congr
    intro key hkey
    apply rowArr_congr
    refine (h key ?_).symm
    rintro rfl
    exact (List.nodup_append.1 (kind_names (K := K) k).nd).2.2 _ (List.mem_map.2 ⟨_, hmem, rfl⟩) _ hkey rfl

/-- the classes whose `check_input` flag has no effect -/
def Forgets (k : RowKind) : Prop := k = .hist ∨ k = .interp ∨ k = .irr ∨ k = .packed ∨ k = .sparse

/-- **C96.** For histograms, interpolated grids (common, per-row, packed) and sparse representations `check_input` has no effect on the
object that is made: any two sets of arguments that differ in the flag only make the same object, or both raise. -/
theorem C96_flag_ignored (k : RowKind) (hk : Forgets k) {data data' : Dict K} (hp : k.Plain data) (hw : ArraysWf data) (hw' : ArraysWf data')
    (h : ∀ key, key ≠ "check_input" → Dict.get? data key = Dict.get? data' key) (fr : Frozen K) :
    createFrozen (k.ctor (K := K)) data = .ok fr ↔ createFrozen (k.ctor (K := K)) data' = .ok fr := by
  have hf : forgets k = true := by rcases hk with rfl | rfl | rfl | rfl | rfl <;> rfl
  have hp' : k.Plain data' := by
    rcases hk with rfl | rfl | rfl | rfl | rfl
    · intro v hv; exact hp v (by rw [h "bins" (by decide)]; exact hv)
    all_goals trivial
  rw [C96_two_passes k hp hw, C96_two_passes k hp' hw']
  exact ⟨create_ignores k hf h, create_ignores k hf fun key hk => (h key hk).symm⟩

theorem quant_keeps {data : Dict K} (hp : RowKind.quant.Plain data) (hw : ArraysWf data) (ht : truthy data "check_input" = false)
    {fr : Frozen K} (h : createFrozen (RowKind.quant.ctor (K := K)) data = .ok fr) :
    ∃ (q : List K) (v : Val K) (a : Arr (Elem K)), Dict.get? data "quants" = some v ∧ v.toArr.data = nums q ∧
      Dict.get? fr.metadata "quants" = some (.arr (vec q).expand0) ∧
      Dict.get? fr.metadata "check_input" = some (.arr ⟨[1], [.bool false]⟩) ∧
      Dict.get? data "locs" = some (.arr a) ∧ Dict.get? fr.objdata "locs" = some (.arr (flat2 a)) := by
  rw [C96_two_passes .quant hp hw] at h
  have hnd := (List.nodup_append.1 (kind_names (K := K) .quant).nd).1
  obtain ⟨m, rs, mo, ws, out, hk, hm, hrs, hlead, hrank, hne, hmo, hws, hout, rfl⟩ := (rowCreate_iff _ _ _).1 h
  have htm : truthy m "check_input" = false := (truthy_args _ data m hnd hm (by simp [RowKind.cls, quantCls])).trans ht
  have hg := get?_args _ data m hnd hm "quants" none (by simp [RowKind.cls, quantCls])
  rw [Option.or_none] at hg
  obtain ⟨a, ha, rfl⟩ : ∃ a, rowArr data "locs" = .ok a ∧ rs = [a] := by
    simp only [RowKind.cls, quantCls, List.mapM_cons, List.mapM_nil] at hrs
    obtain ⟨a, ha, hrs⟩ := bind_ok hrs
    exact ⟨a, ha, (Except.ok.inj hrs).symm⟩
  have hla : Dict.get? data "locs" = some (.arr a) := by
    unfold rowArr at ha
    cases hl : Dict.get? data "locs" with
    | none => rw [hl] at ha; simp at ha
    | some v =>
      rw [hl] at ha
      cases v with
      | arr b => simp only at ha; split_ifs at ha; rw [Except.ok.inj ha]
      | py e => simp at ha
      | lst l => simp at ha
  obtain ⟨haw, has⟩ := rowArr_wf hw ha
  obtain ⟨q', hq', hmo⟩ := bind_ok hmo
  obtain ⟨s, hs, hmo⟩ := bind_ok hmo
  split_ifs at hmo
  obtain rfl := Except.ok.inj hmo
  obtain ⟨q, hq, hq'⟩ := bind_ok hq'
  rw [htm] at hq'
  simp [quantInit, Bind.bind, Except.bind] at hq'
  subst hq'
  obtain ⟨q2, hq2, hws⟩ := bind_ok hws
  rw [hq] at hq2
  obtain rfl := Except.ok.inj hq2
  obtain ⟨q2, hq2, hws⟩ := bind_ok hws
  have : q2 = q := by
    obtain ⟨q3, hq3, hq2⟩ := bind_ok hq2
    rw [hq] at hq3
    obtain rfl := Except.ok.inj hq3
    rw [htm] at hq2
    simp [quantInit, Bind.bind, Except.bind] at hq2
    exact hq2.symm
  subst this
  split_ifs at hws with hw1
  obtain rfl := Except.ok.inj hws
  simp only [List.map_cons, List.map_nil, List.cons.injEq, and_true] at hw1
  have hv : ∃ v, Dict.get? m "quants" = some v ∧ v.toArr.data = nums q2 := by
    unfold grid1 at hq
    cases hg' : Dict.get? m "quants" with
    | none => rw [hg'] at hq; simp at hq
    | some v =>
      rw [hg'] at hq
      simp only at hq
      refine ⟨v, rfl, ?_⟩
      split at hq
      next l' _ hfin =>
        obtain rfl := Except.ok.inj hq
        exact (finites_some_iff _ _).1 hfin
      next => simp at hq
  obtain ⟨v, hv1, hv2⟩ := hv
  refine ⟨q2, v, a, by rw [← hg]; exact hv1, hv2, ?_, ?_, hla, ?_⟩
  · simp [RowKind.cls, quantCls, classMeta, get?_cons]
  · simp [RowKind.cls, quantCls, classMeta, get?_cons, htm, Arr.expand0]
  · have hrow : out = (List.range a.shape.dropLast.prod).map (fun i => [(flat2 a).row i]) := by
      rw [mapM_ok_iff] at hout
      have hn : ∀ i o, (RowKind.quant.cls (K := K)).norm m (pdfRows [a] i) = .ok o → o = [(flat2 a).row i] := by
        intro i o ho
        simp only [RowKind.cls, quantCls, pdfRows, List.map_cons, List.map_nil] at ho
        split at ho
        · simp at ho
        next l hfin =>
        obtain ⟨⟨q3, l3⟩, h3, ho⟩ := bind_ok ho
        obtain rfl := Except.ok.inj ho
        obtain ⟨q4, hq4, h3⟩ := bind_ok h3
        rw [htm] at h3
        obtain ⟨⟨q5, l5⟩, h5, h3⟩ := bind_ok h3
        simp only [quantInit, Bool.false_eq_true, if_false] at h5
        split_ifs at h5
        obtain ⟨rfl, rfl⟩ := Prod.mk.inj (Except.ok.inj h5)
        simp only at h3
        obtain ⟨-, rfl⟩ := Prod.mk.inj (Except.ok.inj h3)
        rw [(finites_some_iff _ _).1 hfin]
      simp only [List.headD_cons] at hout
      clear h
      generalize List.range a.shape.dropLast.prod = l at hout
      induction hout with
      | nil => rfl
      | cons h' _ ih => rw [List.map_cons, ← ih, hn _ _ h']
    have hget := get?_storeRows ["locs"] [q2.length] out rfl (by simp) 0 (by simp)
    simp only [List.getElem_cons_zero] at hget
    show Dict.get? (storeRows ["locs"] [q2.length] out) "locs" = _
    rw [hget]
    congr 2
    rw [hrow]
    unfold tab
    simp only [List.map_map, Function.comp_def, List.getD_cons_zero]
    have hwf2 := flat2_wf haw has
    have hrr := Arr.ofRows_rows (flat2 a) hwf2 (by simp [flat2])
    conv_rhs => rw [← hrr]
    simp only [flat2, List.tail_cons, hw1]
    rfl

/-- **C96, quantiles**: this class keeps the flag. With `check_input=False` (or `0`) the quantiles and locations are stored exactly as given, and so is the
flag.
Missing: the other classes, which drop the flag (`C96_flag_ignored`). -/
theorem C96_quant_keeps_partial {data : Dict K} (hp : RowKind.quant.Plain data) (hw : ArraysWf data)
    (ht : Dict.get? data "check_input" = some (.py (.bool false)) ∨ Dict.get? data "check_input" = some (.py (.num (some 0))))
    {fr : Frozen K} (h : createFrozen (RowKind.quant.ctor (K := K)) data = .ok fr) :
    ∃ (q : List K) (v : Val K) (a : Arr (Elem K)), Dict.get? data "quants" = some v ∧ v.toArr.data = nums q ∧
      Dict.get? fr.metadata "quants" = some (.arr (vec q).expand0) ∧
      Dict.get? fr.metadata "check_input" = some (.arr ⟨[1], [.bool false]⟩) ∧
      Dict.get? data "locs" = some (.arr a) ∧ Dict.get? fr.objdata "locs" = some (.arr (flat2 a)) :=
  quant_keeps hp hw (by rcases ht with h | h <;> simp [truthy, argData, h, Val.toArr]) h

end

/-- one histogram that is not normalised, built with `check_input=False` -/
def uncheckedData : Dict ℚ := [("bins", qarr [3] [0, 1, 3]), ("pdfs", qarr [1, 2] [1, 1]), ("check_input", .py (.bool false))]

/-- **C96 is violated**: heights 1, 1 of a histogram given with `check_input=False`. The constructor keeps them, the object that is used
has 1/3, 1/3. -/
theorem C96_unchecked_changed :
    (rowCreate histCtor uncheckedData).map (fun f => f.objdata) = .ok [("pdfs", qarr [1, 2] [1, 1])] ∧
    (createFrozen histCtor uncheckedData).map (fun f => f.objdata) = .ok [("pdfs", qarr [1, 2] [1/3, 1/3])] := by
  decide +kernel

/-- an interpolated PDF on one grid point, unchecked -/
def onePointData : Dict ℚ := [("xvals", qarr [1] [0]), ("yvals", qarr [2, 1] [1, 1]), ("check_input", .py (.bool false))]

/-- a grid of one point, which the constructor accepts with `check_input=False`, is refused when the object is frozen -/
theorem C96_one_point_refused :
    (rowCreate interpCtor onePointData).map (fun f => f.npdf) = .ok 2 ∧ createFrozen interpCtor onePointData = .error .IndexError := by
  decide +kernel

/-- quantiles 1/4, 1/2, 3/4 are padded by default and kept with `check_input=False` -/
def quantData (c : Bool) : Dict ℚ :=
  [("quants", qarr [3] [1/4, 1/2, 3/4]), ("locs", qarr [1, 3] [0, 1, 2]), ("check_input", .py (.bool c))]

example : ((createFrozen quantCls (quantData false)).map fun f => f.objdata) = .ok [("locs", qarr [1, 3] [0, 1, 2])] ∧
    ((createFrozen quantCls (quantData true)).map fun f => f.objdata.map fun p => p.2.shape) = .ok [[1, 5]] := by decide +kernel

example := C96_quant_keeps_partial (K := ℚ) (data := quantData false) (fr := ((createFrozen quantCls (quantData false)).toOption).getD ⟨[], [], 0, []⟩)
  (by intro v hv; obtain rfl := Option.some.inj (hv.symm.trans (show _ = some (qarr [3] [1/4, 1/2, 3/4]) by decide +kernel)); decide +kernel)
  (by show ∀ p ∈ quantData false, p.2.toArr.Wf; decide +kernel) (by decide +kernel) (by decide +kernel)

example := C96_flag_ignored (K := ℚ) .hist (Or.inl rfl) (data := uncheckedData) (data' := Dict.set uncheckedData "check_input" (.py (.bool true)))
  (by intro v hv; obtain rfl := Option.some.inj (hv.symm.trans (show _ = some (qarr [3] [0, 1, 3]) by decide +kernel)); decide +kernel)
  (by show ∀ p ∈ uncheckedData, p.2.toArr.Wf; decide +kernel)
  (by show ∀ p ∈ Dict.set uncheckedData "check_input" (.py (.bool true)), p.2.toArr.Wf; decide +kernel)
  (by intro key hk; rw [get?_set, if_neg (Ne.symm hk)])

end Verif.Props.Freeze
