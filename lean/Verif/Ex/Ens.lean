import Verif.Props.Frame
import Verif.Props.SliceEval
import Verif.Props.Shapes
import Verif.Props.Tables
import Verif.Props.Chunks
import Verif.Props.Writing
import Verif.Props.Alloc
import Mathlib.Data.Rat.Floor

/-!
# Concrete instances of the theorems on ensembles and files (C32-C53)

Each `example` applies a theorem to data: the kernel checks that the hypotheses hold there, so none of the theorems is vacuous.
-/

set_option linter.unusedSectionVars false
set_option autoImplicit false

namespace Verif.Ex.Ens

open Verif Verif.Np Verif.Model Verif.Spec Verif.Props Verif.Props.ExEns

/-! ### C32-C36 -/

example := Select.C32_slice_step 7 (some 1) none 3 (by decide)
example := Select.C32_slice_step 7 none (some (-1)) 2 (by decide)
example := Select.C32_out_of_range .hist (histReach none rfl) 3 (by decide)
example := Select.C32_out_of_range .hist (histReach none rfl) (-4) (by decide)

/-- the histograms 2, 0, 1 of three -/
theorem turned : ∃ e, getItem (histEns none) (.list [-1, 0, 1]) = .ok e ∧ Selects histFrozen e.frozen [2, 0, 1] ∧ e.ancil = none ∧
    Reach .hist e := by
  have h := Select.C32_select_partial .hist (histReach none rfl) rfl (.list [-1, 0, 1])
  have hr : (Key.list [-1, 0, 1]).resolve (histEns none).frozen.npdf = .ok (.many [2, 0, 1]) := by decide
  rw [hr] at h
  simp only at h
  rwa [if_neg (by decide)] at h

/-- selecting from the selected -/
example : ∃ e1 e2, getItem (histEns none) (.list [-1, 0, 1]) = .ok e1 ∧ getItem e1 (.int 0) = .ok e2 ∧
    getItem (histEns none) (.list [2]) = .ok e2 := by
  obtain ⟨e1, h1, hs, ha, hr⟩ := turned
  have hn : e1.frozen.npdf = 3 := hs.npdf
  have h := Select.C32_select_partial .hist hr ha (.int 0)
  rw [hn, show (Key.int 0).resolve 3 = .ok (.one 0) by decide] at h
  simp only at h
  rw [if_neg (by decide)] at h
  obtain ⟨e2, h2, -⟩ := h
  obtain ⟨s1, s2, r1, r2, h3⟩ := Select.C32_compose .hist (histReach none rfl) rfl _ _ h1 h2
  have hr1 : (Key.list [-1, 0, 1]).resolve (histEns none).frozen.npdf = .ok (.many [2, 0, 1]) := by decide
  obtain rfl := Except.ok.inj (hr1.symm.trans r1)
  have hr2 : (Key.int 0).resolve 3 = .ok (.one 0) := by decide
  obtain rfl := Except.ok.inj (hr2.symm.trans r2)
  exact ⟨e1, e2, h1, h2, h3⟩

example := Select.C32_empty_selection_fails .irr (Or.inl rfl) (.made State.irrMade) rfl

/-- the three histograms twice, as an ensemble of six -/
theorem six : ∃ e, concatenateEns [histEns none, histEns none] = .ok e ∧ Stacks [histFrozen, histFrozen] e.frozen := by
  obtain ⟨e, h1, h2, -⟩ := (Stack.C34_concatenate_partial .hist (histEns none) [histEns none] (by
    intro x hx
    simp only [List.mem_cons, List.not_mem_nil, or_false, or_self] at hx
    rw [hx]; exact histReach none rfl) (by
    intro x hx
    rw [List.mem_singleton.1 hx]; exact ⟨rfl, rfl⟩)).1 ⟨_, List.mem_cons_self, rfl⟩
  exact ⟨e, h1, h2⟩

example : ∃ six, concatenateEns [histEns none, histEns none] = .ok six ∧
    concatenateEns [six, six] = concatenateEns [histEns none, histEns none, histEns none, histEns none] ∧
    ∃ e, concatenateEns [six, six] = .ok e := by
  obtain ⟨e, h, -⟩ := six
  refine ⟨e, h, Stack.C34_assoc .hist (histEns none) [[histEns none, histEns none], [histEns none, histEns none]] [e, e] (by simp) ?_
    (histReach none rfl) (.cons h (.cons h .nil))⟩
  intro g hg
  simp only [List.mem_cons, List.not_mem_nil, or_false, or_self] at hg
  subst hg
  refine ⟨by simp, fun x hx => ?_⟩
  simp only [List.mem_cons, List.not_mem_nil, or_false, or_self] at hx
  subst hx
  exact ⟨histReach none rfl, rfl, rfl, rfl⟩

example : ∃ e e', concatenateEns [histEns none, histEns none] = .ok e ∧
    getItem e (.slice (some ((3 : ℕ) : ℤ)) (some ((6 : ℕ) : ℤ)) none) = .ok e' ∧ e'.frozen = histFrozen ∧ e'.ancil = none := by
  obtain ⟨e, h, -⟩ := six
  obtain ⟨e', h1, h2, h3⟩ := Stack.C34_slice_part .hist (histEns none) [histEns none] [] (histEns none) (by
    intro x hx
    simp only [List.cons_append, List.nil_append, List.mem_cons, List.not_mem_nil, or_false, or_self] at hx
    subst hx
    exact ⟨histReach none rfl, rfl, rfl, rfl⟩) (histReach none rfl) e h
  exact ⟨e, e', h, h1, h2, h3⟩

/-- two ensembles of normal distributions -/
example : ∃ e, concatenateEns [Select.normEns, Select.normEns] = .ok e ∧ Stacks [Select.normEns.frozen, Select.normEns.frozen] e.frozen ∧
    e.frozen.npdf = 4 ∧ e.ancil = none := by
  have hp : Select.normData ≠ [] ∧ ∀ p ∈ Select.normData, ∃ c : Arr (Elem ℚ), p.2 = .arr c ∧ c.Wf ∧ c.shape = [2, 1] := by
    refine ⟨by simp [Select.normData], fun p hp => ?_⟩
    simp only [Select.normData, List.mem_cons, List.not_mem_nil, or_false] at hp
    rcases hp with rfl | rfl
    · exact ⟨_, rfl, by decide +kernel, rfl⟩
    · exact ⟨_, rfl, by decide +kernel, rfl⟩
  exact Stack.C34_analytic "norm" 0 [Select.normData, Select.normData] [Select.normEns, Select.normEns] [2, 2] (by simp)
    (.cons Select.normMade (.cons Select.normMade .nil)) (.cons hp (.cons hp .nil)) (by
      intro x hx y hy
      simp only [List.mem_cons, List.not_mem_nil, or_false, or_self] at hx hy
      rw [hx, hy])

/-- what a spline ensemble stores -/
def splTables : Dict ℚ := [("splx", qarr [1, 3] [0, 1, 2]), ("sply", qarr [1, 3] [0, 1, 0]), ("spln", qarr [1, 1] [1])]

def splEns (build : GenFunc ℚ) : Model.Ens ℚ :=
  ⟨Stack.splineXyCreate build, Stack.splineXyCreate build, ⟨classMeta "spline" 0, splTables, 1, [1]⟩, none⟩

example (build : GenFunc ℚ) := Stack.C34_spline_xy_fails build (splEns build) (splEns build)
  [("splx", qarr [2, 3] [0, 1, 2, 0, 1, 2]), ("sply", qarr [2, 3] [0, 1, 0, 0, 1, 0]), ("spln", qarr [2, 1] [1, 1])]
  rfl (by show Dict.keys splTables = _; decide +kernel) rfl rfl (by show concatenateDicts [splTables, splTables] = _; decide +kernel) rfl

example := Stack.C35_append_concatenate .hist (histReach none rfl) (histEns (some narrow))
example := Stack.C35_analytic "norm" 0 Select.normData Select.normData none none _ _ (by decide +kernel) Select.normMade Select.normMade
example := Stack.C36_accept_partial histFrozen.metadata histFrozen.metadata (by decide +kernel)

example : ∃ e, concatenateEns [histEns none, histEns none] = .ok e ∧ e.frozen.metadata = histFrozen.metadata := by
  obtain ⟨e, h, -⟩ := six
  exact ⟨e, h, (Stack.C36_concatenate_partial .hist (histReach none rfl) (histEns none) e h).2.2⟩

/-! ### C37-C40 -/

/-- the calls of the example beside the theorems -/
def calls : List (Op ℚ) := [.gridded 0, .setAncil (some State.twoRows), .update State.oneHist none, .gridded 0]

theorem calls_benign : State.BenignRun State.storedPdf (fresh (histEns (some narrow)) fun _ => [0]) calls :=
  ⟨Or.inr (by decide +kernel), Or.inr (by decide +kernel), Or.inl ⟨⟨none, by decide +kernel⟩, by simp⟩, Or.inr (by decide +kernel), trivial⟩

theorem calls_clean : State.CleanRun State.storedPdf (fresh (histEns (some narrow)) fun _ => [0]) calls := by
  refine ⟨fun _ => by decide +kernel, fun _ => by decide +kernel, ?_, fun _ => by decide +kernel, trivial⟩
  rintro ⟨err, h⟩
  have : (step State.storedPdf (step State.storedPdf (step State.storedPdf (fresh (histEns (some narrow)) fun _ => [0]) (.gridded 0)).2
    (.setAncil (some State.twoRows))).2 (.update State.oneHist none)).1 = .ok none := by decide +kernel
  rw [this] at h
  simp at h

example := State.C37_invariant_partial State.storedPdf (fresh (histEns (some narrow)) fun _ => [0]) calls
  ((State.ancilOk_iff _).2 (by decide +kernel)) calls_benign
example := State.C37_new _ _ histData (some narrow) _ (histMade (some narrow) (by decide +kernel)).ok
example : ∃ e, getItem (histEns none) (.list [-1, 0, 1]) = .ok e ∧ State.AncilOk e := by
  obtain ⟨e, h, -⟩ := turned
  exact ⟨e, h, State.C37_selected _ _ _ h⟩

/-- one histogram, as stored -/
def oneFrozen : Frozen ℚ := ⟨classMeta "hist" 0 ++ [("bins", qarr [1, 3] [0, 1, 3])], [("pdfs", qarr [1, 2] [1/3, 1/3])], 1, [1]⟩

example := State.C37_failed_update_breaks (histEns (some narrow)) State.oneHist State.twoRows narrow oneFrozen .ValueError rfl
  (by decide +kernel) (by decide +kernel) (by decide +kernel)
example := State.C38_not_stale_partial State.storedPdf (histEns (some narrow)) (fun _ => [0]) calls calls_clean 0
example := State.C38_stale_after_failed_update State.storedPdf (fresh (histEns (some narrow)) fun _ => [0]) State.oneHist State.twoRows
  oneFrozen .ValueError 0 (some (qarr [3, 2] [1/3, 1/3, 1, 0, 0, 1/2])) (by decide +kernel) (by decide +kernel) (by decide +kernel)
  (by decide +kernel)
/-- values that depend on the grid -/
def gridPdf : Frozen ℚ → List ℚ → Except Err (List ℚ) := fun f x => .ok (x.map fun p => p + f.npdf)

example := State.C38_stale_after_grid_mutation gridPdf (histEns none) (fun _ => [0, 1]) 0 [5] [3, 4] (by decide +kernel)
  (by decide +kernel)
example := State.C38_stale_after_alteration gridPdf (histEns none) (fun _ => [0, 1]) 0 oneFrozen [3, 4] (by decide +kernel)
  (by decide +kernel)
example := State.C39_update_partial (histEns (some narrow)) State.oneHist (some State.twoRows) .ValueError (by decide +kernel)
example := State.C39_update_objdata_partial (histEns none) [("pdfs", qarr [1, 3] [1, 1, 1])] .ValueError (by decide +kernel)
example := State.C39_append .hist (histReach (some narrow) (by decide +kernel)) (histReach (some wide) (by decide +kernel))
  ((State.ancilOk_iff _).2 (by decide +kernel)) ((State.ancilOk_iff _).2 (by decide +kernel)) .ValueError (by decide +kernel)
example := State.C40_kept_partial .mix (.made State.mixMade) [("means", qarr [1, 2] [5, 6])] (by decide) none (by decide +kernel)
example := State.C40_replaced .mix (.made State.mixMade) [("means", qarr [1, 2] [5, 6])] (by decide) (by decide +kernel)
  (by show ∀ p ∈ [("means", qarr [1, 2] [5, 6])], p.2.toArr.Wf; decide +kernel) none (by decide +kernel) "means" ⟨[1, 2], nums [5, 6]⟩
  (by simp [qarr]) (by simp [State.Verbatim])
example := State.C40_all_given .hist (histReach none rfl) [("pdfs", qarr [1, 2] [1, 1])] (by decide +kernel)
  (by simp [Dict.keys, RowKind.cls, histCls]) none

/-! ### C42-C45 -/

example := Shapes.C42_histogramize_partial (K := ℚ) [fun x => x, fun x => x / 2] [1, 2] rfl (by simp) 0 [1, 2]
example := Shapes.C43_mode_partial (K := ℚ) [10, 20, 30] (by simp) [[0, 5, 5], [7, 0, 5]] (by decide +kernel)
example := Shapes.C44_flatten (⟨[2, 2, 3], List.range 12⟩ : Arr ℕ) [2, 2] 3 rfl
example := Shapes.C44_single_pdf_fails (⟨[3], List.range 3⟩ : Arr ℕ) 3 rfl

example : ∃ e s vals, getItem (histEns none) (.list [-1, 0, 1]) = .ok e ∧ (Key.list [-1, 0, 1]).resolve 3 = .ok s ∧
    ensEval histEval histFrozen [1/2, 2] = .ok vals ∧
    ensEval histEval e.frozen [1/2, 2] = .ok ((selRows s).map fun i => vals.getD i []) := by
  obtain ⟨e, h, -⟩ := turned
  obtain ⟨s, vals, h1, h2, -, h4⟩ := SliceEval.C45_slice_eval_partial .hist (histReach none rfl) _ h histEval [1/2, 2]
    (by decide +kernel)
  exact ⟨e, s, vals, h, h1, h2, h4⟩

example : ∃ e vals, getItem (histEns none) (.int ((2 : ℕ) : ℤ)) = .ok e ∧ ensEval histEval histFrozen [1/2, 2] = .ok vals ∧
    ensEval histEval e.frozen [1/2, 2] = .ok [vals.getD 2 []] := by
  have h := Select.C32_select_partial .hist (histReach none rfl) rfl (.int ((2 : ℕ) : ℤ))
  have hr : (Key.int ((2 : ℕ) : ℤ)).resolve (histEns none).frozen.npdf = .ok (.one 2) := by decide
  rw [hr] at h
  simp only at h
  rw [if_neg (by decide)] at h
  obtain ⟨e, h1, -⟩ := h
  obtain ⟨vals, h2, h3⟩ := SliceEval.C45_single_partial .hist (histReach none rfl) 2 (by decide) h1 histEval [1/2, 2]
    (by decide +kernel)
  exact ⟨e, vals, h1, h2, h3⟩

/-! ### C46-C53 -/

example := Tables.C46_build_read_partial registered_std (histReach (some narrow) (by decide +kernel))
  ((State.ancilOk_iff _).2 (by decide +kernel))
example := Tables.C46_unknown_class (r := []) (histReach none rfl) (Tables.holds_buildTables _) rfl
example := Chunks.C48_range_bounds 7 3 2 0 6 7 (by decide) (by decide)
example := Chunks.C48_every_row_once 7 3 2 (by decide) (by decide) 4 (by decide)
example := Chunks.C48_one_rank 7 3 (by decide)
example := Chunks.C48_without_ancil_partial registered_std (histReach none rfl) (Tables.holds_buildTables _) rfl 2 0 1 2 (by decide)

theorem narrow_file : Chunks.FileAncil (histEns (some narrow)).ancil 3 := by
  intro a h
  obtain rfl := Option.some.inj h
  exact ⟨narrow_cols, by decide⟩

example := Chunks.C48_stack registered_std (histReach (some narrow) (by decide +kernel)) (Tables.holds_buildTables _) narrow_file 2
  (by decide) (by decide)
example := Chunks.C49_kept_items registered_std (histReach (some narrow) (by decide +kernel)) (Tables.holds_buildTables _) rfl
  narrow_cols (by decide) 2 0 1 2 (by decide) (by decide)
example := Chunks.C49_newest_partial registered_std (histReach (some narrow) (by decide +kernel)) (Tables.holds_buildTables _) rfl
  narrow_cols (by decide) 2 0 1 2 (by decide) (by decide)

example := Alloc.C53_ensemble_ok (histEns (some narrow)) 7 (by
  intro g hg p hp
  have hg : g ∈ [("data", histFrozen.objdata), ("ancil", narrow)] := hg
  simp only [List.mem_cons, List.not_mem_nil, or_false] at hg
  rcases hg with rfl | rfl
  · rw [List.mem_singleton.1 hp]; exact ⟨_, rfl, by simp⟩
  · rw [List.mem_singleton.1 hp]; exact ⟨_, rfl, by simp⟩)
example := Alloc.C53_ensemble (e := histEns (some narrow)) (n := 7) (al := [("data", [("pdfs", [7, 2])]), ("ancil", [("id", [7])])])
  (by decide +kernel)
example := Alloc.C53_hist_list (K := ℚ) 7 (nums [0, 1, 3]) [("bins", .lst (nums [0, 1, 3]))] rfl
example := Alloc.C53_quant_missing (K := ℚ) 7 [("locs", qarr [1, 2] [0, 1])] rfl

/-- writes of the rows of a table of three, in two parts -/
def put0 : Put ℚ := ⟨"data", "pdfs", 0, 2, qarr [2, 2] [1, 2, 3, 4]⟩
def put1 : Put ℚ := ⟨"data", "pdfs", 2, 3, qarr [1, 2] [5, 6]⟩
def file0 : Tabs ℚ := [("data", [("pdfs", qarr [3, 2] [0, 0, 0, 0, 0, 0])])]

theorem file0_wf : Lemmas.FileWf file0 := by
  intro g hg p hp a ha
  rw [List.mem_singleton.1 hg] at hp
  rw [List.mem_singleton.1 hp] at ha
  obtain rfl := Val.arr.inj ha
  decide +kernel

example := Writing.C50_any_order (os := [put0, put1]) (os' := [put1, put0]) (.swap _ _ _)
  (by
    intro o ho
    simp only [List.mem_cons, List.not_mem_nil, or_false] at ho
    rcases ho with rfl | rfl <;> decide +kernel)
  (by simp [Lemmas.Put.Apart, put0, put1]) (f := file0)
  (f' := [("data", [("pdfs", qarr [3, 2] [1, 2, 3, 4, 5, 6])])]) file0_wf
example : runOps file0 [put0, put1] = .ok [("data", [("pdfs", qarr [3, 2] [1, 2, 3, 4, 5, 6])])] := by decide +kernel

/-- the whole table written as one chunk -/
example := Writing.C50_tables (.num (some 0)) (D := dataTabs (histEns (some narrow))) (n := 3)
  ⟨by decide +kernel, by decide +kernel, by
    intro g hg
    have hg : g ∈ [("data", histFrozen.objdata), ("ancil", narrow)] := hg
    simp only [List.mem_cons, List.not_mem_nil, or_false] at hg
    rcases hg with rfl | rfl
    · intro p hp; rw [List.mem_singleton.1 hp]; exact ⟨_, rfl, by decide +kernel, rfl⟩
    · exact narrow_cols⟩
  (e0 := histEns (some narrow)) (s0 := 0) (t0 := 3) (by decide +kernel) (rs := [(0, 3)]) (es := [histEns (some narrow)])
  (.cons ⟨by decide, by decide, by decide +kernel⟩ .nil) (fun i hi => ⟨(0, 3), by simp, Nat.zero_le _, hi⟩)
  (os := chunkOps (histEns (some narrow)) 0 3) (by simp)

example := Writing.C51_unfinished (.num (some 0)) (e := histEns (some narrow)) (n := 3)
  (al := [("data", [("pdfs", [3, 2])]), ("ancil", [("id", [3])])]) (al' := [("data", [("pdfs", [3, 2])])]) (by decide +kernel)
  (by decide) (os := [put1]) (f := [("data", [("pdfs", .arr ⟨[3, 2], [.num (some 0), .num (some 0), .num (some 0), .num (some 0), .num (some 5), .num (some 6)]⟩)])])
  (by decide +kernel) stdReg
example := Writing.C51_finished (f := dataTabs (histEns none)) (e := histEns none) ⟨_, _, rfl⟩ rfl
example := Alloc.C53_interp (data := [("xvals", qarr [3] [0, 1, 2]), ("yvals", qarr [1, 3] [0, 1, 0])])
  (by show ∀ p ∈ [("xvals", qarr [3] [0, 1, 2]), ("yvals", qarr [1, 3] [0, 1, 0])], p.2.toArr.Wf; decide +kernel)
  (fr := ⟨classMeta "interp" 0 ++ [("xvals", qarr [1, 3] [0, 1, 2])], [("yvals", qarr [1, 3] [0, 1, 0])], 1, [1]⟩) (by decide +kernel) 7
example := Alloc.C53_irregular (data := [("xvals", qarr [1, 3] [0, 1, 2]), ("yvals", qarr [1, 3] [0, 1, 0])])
  (fr := ⟨classMeta "interp_irregular" 0, [("xvals", qarr [1, 3] [0, 1, 2]), ("yvals", qarr [1, 3] [0, 1, 0])], 1, [1]⟩) (by decide +kernel) 7
example := Alloc.C53_mixmod (data := State.mixData) (fr := State.mixFrozen) (by decide +kernel) 7
example := Alloc.C53_spline_iff (data := splTables) (fr := ⟨classMeta "spline" 0, splTables, 1, [1]⟩) (by decide +kernel) 7
example := Alloc.C53_quant_iff (data := quantData)
  (by show ∀ p ∈ quantData, p.2.toArr.Wf; decide +kernel)
  (fr := ⟨classMeta "quant" 0 ++ [("quants", qarr [1, 3] [0, 1/2, 1]), ("pdf_constructor_name", .arr ⟨[1], [.str "piecewise_linear"]⟩),
    ("check_input", .arr ⟨[1], [.bool true]⟩)], [("locs", qarr [2, 3] [0, 1, 2, 0, 1, 4])], 2, [2]⟩) (by decide +kernel) 7
/-- one packed PDF -/
def packData : Dict ℚ := [("xvals", qarr [3] [0, 1, 2]), ("ypacked", qarr [1, 3] [0, 255, 0]), ("ymax", qarr [1, 1] [1])]

example := Alloc.C53_packed_iff (data := packData) (by show ∀ p ∈ packData, p.2.toArr.Wf; decide +kernel)
  (fr := ⟨classMeta "packed_interp" 0 ++ [("xvals", qarr [1, 3] [0, 1, 2]), ("packing_type", qarr [1] [0]), ("log_floor", qarr [1] [-3])],
    [("ypacked", qarr [1, 3] [0, 255, 0]), ("ymax", qarr [1, 1] [1])], 1, [1]⟩) (by decide +kernel) 7
example := Alloc.C53_analytic_iff (data := Select.normData) (name := "norm") (v := 0) (fr := Select.normEns.frozen) (by decide +kernel)
  (by
    intro p hp
    simp only [Select.normData, List.mem_cons, List.not_mem_nil, or_false] at hp
    rcases hp with rfl | rfl <;> exact ⟨_, rfl⟩) 7

end Verif.Ex.Ens
