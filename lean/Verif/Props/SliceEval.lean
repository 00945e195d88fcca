import Verif.Model.EnsEval
import Verif.Props.Evaluation
import Verif.Props.Frame
import Mathlib.Data.Rat.Floor

/-!
# C45: slicing commutes with evaluation
-/

set_option linter.unusedSectionVars false
set_option autoImplicit false

namespace Verif.Props.SliceEval

open Verif Verif.Np Verif.Model Verif.Spec Verif.Lemmas Verif.Props.ExEns Verif.Props.State

variable {K : Type} [Field K] [LinearOrder K] [IsStrictOrderedRing K] {β : Type}

/-- a successful selection holds the selected PDFs, whatever the ancillary data -/
theorem select_ok (k : RowKind) {e e' : Ens K} (h : Reach k e) (key : Key) (hg : getItem e key = .ok e') :
    ∃ s, key.resolve e.frozen.npdf = .ok s ∧ Selects e.frozen e'.frozen (selRows s) ∧ ∀ i ∈ selRows s, i < e.frozen.npdf := by
  obtain ⟨mo, ws, out, hs⟩ := reach_stored h
  have hn : e.frozen.npdf = out.length := by rw [hs.frozen]; rfl
  rw [getItem_frozen hs.create hs.frozen hs.fixed hs.w] at hg
  obtain ⟨s, hr, hg⟩ := bind_ok hg
  obtain ⟨anc, -, hg⟩ := bind_ok hg
  split_ifs at hg
  obtain ⟨_, -, hg⟩ := bind_ok hg
  obtain rfl := Except.ok.inj hg
  refine ⟨s, by rw [hn]; exact hr, ?_, by rw [hn]; exact resolve_lt hr⟩
  have := selects_frozenOf hs.fixed e.frozen.shape (selRows s) (resolve_lt hr)
  rw [← hs.frozen] at this
  exact this

theorem tableRow_selects {k : RowKind} {e : Ens K} (h : Reach k e) {fr' : Frozen K} {is : List ℕ} (hsel : Selects e.frozen fr' is) (j : ℕ)
    (hj : j < is.length) : tableRow fr' j = tableRow e.frozen is[j] := by
  funext key
  unfold tableRow
  obtain ⟨mo, ws, out, hs⟩ := reach_stored h
  cases hg : Dict.get? e.frozen.objdata key with
  | none =>
    have : Dict.get? fr'.objdata key = none := by
      rw [get?_eq_none_iff, hsel.keys, ← get?_eq_none_iff]; exact hg
    rw [this]
  | some v =>
    have : ∃ a, v = .arr a := by
      have hm := mem_of_get? hg
      rw [hs.frozen] at hm
      have hm : (key, v) ∈ storeRows (k.cls (K := K)).rowArgs ws out := hm
      rw [storeRows_eq, List.mem_map] at hm
      obtain ⟨p, -, hp⟩ := hm
      exact ⟨_, (congrArg Prod.snd hp).symm⟩
    obtain ⟨a, rfl⟩ := this
    obtain ⟨b, hb, -, hrow⟩ := hsel.rows key a hg
    rw [hb]
    exact hrow j hj

/-- **C45.** For every ensemble of a row class, however obtained: evaluating a selection at increasing points gives exactly the selected
lines of evaluating the whole ensemble. `f` is any function of the metadata and of the PDF's own table lines, such as `histEval`,
`interpEval` or `mixRowEval`. Missing from the full claim: points that are not increasing (`C45_unsorted_differs`). -/
theorem C45_slice_eval_partial (k : RowKind) {e e' : Ens K} (h : Reach k e) (key : Key) (hg : getItem e key = .ok e')
    (f : Dict K → (String → List (Elem K)) → K → β) (x : List K) (hx : x.Pairwise (· < ·)) :
    ∃ s vals, key.resolve e.frozen.npdf = .ok s ∧ ensEval f e.frozen x = .ok vals ∧ vals.length = e.frozen.npdf ∧
      ensEval f e'.frozen x = .ok ((selRows s).map fun i => vals.getD i []) := by
  obtain ⟨s, hr, hsel, hlt⟩ := select_ok k h key hg
  refine ⟨s, _, hr, Evaluation.C01_shared_grid_partial _ _ _ (Or.inl hx), by simp [Evaluation.SharedSpec], ?_⟩
  rw [ensEval, Evaluation.C01_shared_grid_partial _ _ _ (Or.inl hx)]
  congr 1
  apply List.ext_getElem
  · simp [Evaluation.SharedSpec, hsel.npdf]
  · intro j h1 h2
    simp only [List.length_map] at h2
    have hl := hlt _ (List.getElem_mem h2)
    simp only [Evaluation.SharedSpec, List.getElem_map, List.getElem_range, hsel.metadata, tableRow_selects h hsel j h2]
    rw [List.getD_eq_getElem?_getD, List.getElem?_map, List.getElem?_range hl]
    rfl

/-- **C45**, a single PDF: `ens[i].pdf(x)` is line `i` of `ens.pdf(x)` -/
theorem C45_single_partial (k : RowKind) {e e' : Ens K} (h : Reach k e) (i : ℕ) (hi : i < e.frozen.npdf)
    (hg : getItem e (.int i) = .ok e') (f : Dict K → (String → List (Elem K)) → K → β) (x : List K) (hx : x.Pairwise (· < ·)) :
    ∃ vals, ensEval f e.frozen x = .ok vals ∧ ensEval f e'.frozen x = .ok [vals.getD i []] := by
  obtain ⟨s, vals, hr, h1, -, h2⟩ := C45_slice_eval_partial k h _ hg f x hx
  have : (Key.int (i : ℤ)).resolve e.frozen.npdf = .ok (.one i) :=
    ((Verif.Props.Select.C32_int_key e.frozen.npdf i).1 i).2 ⟨hi, Or.inl rfl⟩
  rw [this] at hr
  obtain rfl := Except.ok.inj hr
  exact ⟨vals, h1, h2⟩

/-- three histograms, evaluated before and after slicing -/
example : Reach .hist (histEns none) ∧ (getItem (histEns none) (.int 2)).map Ens.frozen = .ok
    ⟨histFrozen.metadata, [("pdfs", qarr [1, 2] [0, 1/2])], 1, [1]⟩ ∧
    ensEval histEval histFrozen [1/2, 2] = .ok [[some (.ok (1/3)), some (.ok (1/3))], [some (.ok 1), some (.ok 0)], [some (.ok 0), some (.ok (1/2))]] ∧
    ensEval histEval ⟨histFrozen.metadata, [("pdfs", qarr [1, 2] [0, 1/2])], 1, [1]⟩ [1/2, 2] = .ok [[some (.ok 0), some (.ok (1/2))]] :=
  ⟨histReach none rfl, by decide +kernel, by decide +kernel, by decide +kernel⟩

/-- **C45** is false for points that are not increasing: the three histograms at `[2, 1/2]`; line 2 of the whole is the values at
`[1/2, 2]`, the slice gives the values at `[2, 1/2]`. -/
theorem C45_unsorted_differs : ∃ (e e' : Ens ℚ) (x : List ℚ) (vals : List (List (Option (Except Err ℚ)))), Reach .hist e ∧
    getItem e (.int 2) = .ok e' ∧ ensEval histEval e.frozen x = .ok vals ∧ ensEval histEval e'.frozen x ≠ .ok [vals.getD 2 []] := by
  have hg : getItem (histEns none) (.int 2) = .ok ⟨rowCreate histCls, rowCreate histCls, ⟨histFrozen.metadata, [("pdfs", qarr [1, 2] [0, 1/2])], 1, [1]⟩, none⟩ := by
    have h := Verif.Props.Select.C32_select_partial .hist (histReach none rfl) rfl (.int 2)
    have hr : (Key.int 2).resolve (histEns none).frozen.npdf = .ok (.one 2) := by decide +kernel
    rw [hr] at h
    simp only [RowKind.cls, histCls, Bool.false_eq_true, false_and, if_false] at h
    obtain ⟨e', he', -, ha, hre⟩ := h
    obtain ⟨mo, ws, out, hs⟩ := reach_stored hre
    have hfr : (getItem (histEns none) (.int 2)).map Ens.frozen = .ok ⟨histFrozen.metadata, [("pdfs", qarr [1, 2] [0, 1/2])], 1, [1]⟩ := by
      decide +kernel
    rw [he'] at hfr ⊢
    have hfr := Except.ok.inj hfr
    rw [← hfr]
    obtain ⟨c, g, fr, a⟩ := e'
    obtain rfl := ha
    have h1 := hs.create
    have h2 := hs.gen
    simp only at h1 h2
    subst h1 h2
    rfl
  refine ⟨histEns none, _, [2, 1/2], [[some (.ok (1/3)), some (.ok (1/3))], [some (.ok 1), some (.ok 0)], [some (.ok 0), some (.ok (1/2))]],
    histReach none rfl, hg, by decide +kernel, by decide +kernel⟩

end Verif.Props.SliceEval
