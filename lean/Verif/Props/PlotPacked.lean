import Verif.Props.Plot
import Verif.Props.EndToEndReal

/-!
# C109 (third part): the native plot of packed PDFs
-/

set_option linter.unusedSectionVars false
set_option autoImplicit false

namespace Verif.Props.PlotPacked

open Verif Verif.Np Verif.Model Verif.Spec Verif.Lemmas Verif.Props.InterpPdf Verif.Props.EndToEnd Verif.Props.EndToEndReal Verif.Props.Plot

/-- **C109: the native plot of a packed PDF** is one curve through the points of the grid, each at the height of the unpacked value divided by the area below the
unpacked values, for both kinds of packing. -/
theorem C109_packed_native {e e' : Ens ℝ} (h : Reach .packed e) (i : ℕ) (hi : i < e.frozen.npdf) (hg : getItem e (.int i) = .ok e') (xs : List ℝ) (kind : ℕ)
    (hk : kind = 0 ∨ kind = 1) (floor top : ℝ) (codes : List ℕ) (hx : metaGrid e.frozen.metadata "xvals" = xs)
    (hp : metaGrid e.frozen.metadata "packing_type" = [(kind : ℝ)]) (hf : metaGrid e.frozen.metadata "log_floor" = [floor])
    (hc : finites (tableRow e.frozen i "ypacked") = some (codes.map fun c => ((c : ℕ) : ℝ))) (ht : finites (tableRow e.frozen i "ymax") = some [top])
    (hgr : XGrid xs codes.length) (ha : area xs (codes.map (unpacked kind floor top)) ≠ 0)
    (isProp : String → Bool) (a : PlotArgs ℝ) (ax : ℝ × ℝ) (u v : ℝ) (hl : Limits a ax u v) (hnp : a.npts = none) (ho : ∀ o ∈ a.others, isProp o = true) :
    gridPlotNative isProp packedEval e (.int i) a =
      .ok (ax, [xs.zip (codes.map fun c => some (unpacked kind floor top c / area xs (codes.map (unpacked kind floor top))))]) := by
  obtain ⟨h1, h2, h3, h4⟩ := one_row .packed h i hi hg packedEval xs
  have hall : a.rest.all isProp = true := by simpa [PlotArgs.rest, hnp, List.all_eq_true] using ho
  have hy : (if [(kind : ℝ)] = [0] then linearUnpackRow codes top else logUnpackRow floor codes top) = codes.map (unpacked kind floor top) := by
    rcases hk with rfl | rfl
    · simp only [Nat.cast_zero, if_true, linearUnpackRow]
      apply List.map_congr_left
      intro c _
      simp only [unpacked, if_true]
      ring
    · simp only [Nat.cast_one, List.cons.injEq, one_ne_zero, false_and, if_false, logUnpackRow]
      apply List.map_congr_left
      intro c _
      simp only [logValue, unpacked, one_ne_zero, if_false]
      split_ifs
      · simp
      · congr 2; ring
  have hgr' : XGrid xs (codes.map (unpacked kind floor top)).length := by simpa using hgr
  obtain ⟨y, c, hn, -, hy2, -⟩ := (C12_interp_normalises xs _ hgr').2 ha
  have hgy : XGrid xs y.length := by rw [hy2]; simpa using hgr
  have hv : xs.map (packedEval e.frozen.metadata (tableRow e.frozen i)) = y.map some := by
    have h15 := (C15_pdf_through_points xs y hgy).1
    apply List.ext_getElem
    · simp [hgy.size]
    · intro j j1 j2
      simp only [List.length_map] at j1 j2
      rw [List.getElem_map, List.getElem_map]
      simp only [packedEval, hc, ht, hx, hp, hf, unpack_codes, List.headD_cons, hy, hn]
      exact h15 j _ _ (List.getElem?_eq_getElem j1) (List.getElem?_eq_getElem j2)
  simp only [gridPlotNative, hg, limits_getAxes hl, bind, Except.bind, h2, hx, h4, axesPlot, squeeze2]
  rw [if_pos (Or.inl (by simp))]
  simp [hall, hv, hgy.size, hy2, Function.comp_def]

/-- **C109: native plots over a common grid** (interpolated, packed and sparse PDFs): one curve through all points of the grid and no others, each at the height of the
density of the chosen PDF. -/
theorem C109_grid_native {K β : Type} [Field K] [LinearOrder K] [IsStrictOrderedRing K] (k : RowKind) {e e' : Ens K} (h : Reach k e) (i : ℕ) (hi : i < e.frozen.npdf)
    (hg : getItem e (.int i) = .ok e') (f : Dict K → (String → List (Elem K)) → K → β) (isProp : String → Bool) (a : PlotArgs K) (ax : K × K) (u v : K)
    (hl : Limits a ax u v) (hnp : a.npts = none) (ho : ∀ o ∈ a.others, isProp o = true) :
    gridPlotNative isProp f e (.int i) a =
      .ok (ax, [(metaGrid e.frozen.metadata "xvals").map fun x => (x, f e.frozen.metadata (tableRow e.frozen i) x)]) := by
  obtain ⟨h1, h2, h3, h4⟩ := one_row k h i hi hg f (metaGrid e.frozen.metadata "xvals")
  have hall : a.rest.all isProp = true := by simpa [PlotArgs.rest, hnp, List.all_eq_true] using ho
  have hz : ∀ x : List K, x.zip (x.map (f e.frozen.metadata (tableRow e.frozen i))) = x.map fun t => (t, f e.frozen.metadata (tableRow e.frozen i) t) := fun x => by
    have := List.zip_map' (f := fun x : K => x) (g := f e.frozen.metadata (tableRow e.frozen i)) (l := x)
    simpa using this
  simp only [gridPlotNative, hg, limits_getAxes hl, bind, Except.bind, h2, h4, axesPlot, squeeze2]
  rw [if_pos (Or.inl (by simp))]
  simp [hall, hz]

/-- what `qp.packed_interp` keeps of its arguments -/
theorem packed_made (xs : List ℝ) (h2 : 2 ≤ xs.length) (kind : ℕ) (hk : kind = 0 ∨ kind = 1) (floor : ℝ)
    (rows : List (List ℕ × ℝ)) (hlen : ∀ r ∈ rows, r.1.length = xs.length) :
    ∃ e, mkEns (rowCreate packedCls) (rowCreate packedCls) (packedArgs xs kind floor rows) none = .ok e ∧ e.frozen.npdf = rows.length ∧
      (rows ≠ [] → metaGrid e.frozen.metadata "xvals" = xs ∧ metaGrid e.frozen.metadata "packing_type" = [(kind : ℝ)] ∧
        metaGrid e.frozen.metadata "log_floor" = [floor]) ∧
      ∀ (i : ℕ) r, rows[i]? = some r → tableRow e.frozen i "ypacked" = nums (r.1.map fun c => ((c : ℕ) : ℝ)) ∧ tableRow e.frozen i "ymax" = nums [r.2] := by
  set mo : List (String × Arr (Elem ℝ)) := [("xvals", vec xs), ("packing_type", ⟨[], [.num (some (kind : ℝ))]⟩), ("log_floor", ⟨[], [.num (some floor)]⟩)] with hmo
  have hgrid : grid1 ([("xvals", .arr (vec xs)), ("packing_type", .arr ⟨[], [.num (some (kind : ℝ))]⟩), ("log_floor", .arr ⟨[], [.num (some floor)]⟩),
      ("check_input", .py (.bool true))] : Dict ℝ) "xvals" = .ok xs := by
    simp [grid1, get?_cons, Val.toArr, vec, finites_nums]
  have hkind : ¬ ((kind : ℝ) ≠ 0 ∧ (kind : ℝ) ≠ 1) := by
    rintro ⟨a, b⟩
    rcases hk with rfl | rfl
    · simp at a
    · simp at b
  obtain ⟨e, h1, h3, h4⟩ := create_eval rows (fun r => [nums (r.1.map fun c => ((c : ℕ) : ℝ)), nums [r.2]])
    (fun r => [nums (r.1.map fun c => ((c : ℕ) : ℝ)), nums [r.2]])
    (c := packedCls (K := ℝ)) names_packed (mo := mo) (mo' := mo)
    (ws := [xs.length, 1]) (ws' := [xs.length, 1]) (by simp [packedCls, hmo]) (by simp [packedCls])
    (fun r hr => by simp [nums_length, hlen r hr])
    (m := [("xvals", .arr (vec xs)), ("packing_type", .arr ⟨[], [.num (some (kind : ℝ))]⟩), ("log_floor", .arr ⟨[], [.num (some floor)]⟩),
      ("check_input", .py (.bool true))])
    (by simp [packedCls, hmo, metaDict, checkInputArg, argVal, get?_cons, get?_nil, Bind.bind, Except.bind, pure, Except.pure])
    (data := packedArgs xs kind floor rows)
    (by simp [packedArgs, hmo, metaDict, storeRows, packedCls, table, Function.comp_def])
    (by simp [packedCls])
    (by
      simp only [packedCls, hgrid, numArg, argData, get?_cons, Val.toArr, Bind.bind, Except.bind, if_neg (not_lt.2 h2)]
      simp [hmo]
      omega)
    (by simp [packedCls, hgrid, Bind.bind, Except.bind])
    (fun r hr => by simp [packedCls, nums, Elem.isText])
    (by simp [packedCls])
    (fun r hr => by simp [nums_length, hlen r hr])
  set md : Dict ℝ := classMeta (packedCls (K := ℝ)).name (packedCls (K := ℝ)).version ++ mo.map fun p => (p.1, .arr p.2.expand0) with hmd
  have gx : metaGrid md "xvals" = xs := by
    simp [metaGrid, hmd, hmo, classMeta, get?_cons, Val.toArr, vec, Arr.expand0, finites_nums]
  have gp : metaGrid md "packing_type" = [(kind : ℝ)] := by
    simp [metaGrid, hmd, hmo, classMeta, get?_cons, Val.toArr, Arr.expand0, finites, Elem.finite?]
  have gf : metaGrid md "log_floor" = [floor] := by
    simp [metaGrid, hmd, hmo, classMeta, get?_cons, Val.toArr, Arr.expand0, finites, Elem.finite?]
  have h5 := h4 (fun m row _ => (m, row "ypacked", row "ymax")) (fun r _ => (md, nums (r.1.map fun c => ((c : ℕ) : ℝ)), nums [r.2])) (fun r hr row hrow => by
    have hr0 : row "ypacked" = nums (r.1.map fun c => ((c : ℕ) : ℝ)) := hrow 0 (by simp [packedCls])
    have hr1 : row "ymax" = nums [r.2] := hrow 1 (by simp [packedCls])
    rw [hr0, hr1]) [0] (by simp)
  rw [ensEval, Evaluation.C01_shared_grid_partial _ _ _ (Or.inl (by simp))] at h5
  have h6 := Except.ok.inj h5
  have h7 : ∀ (i : ℕ) r, rows[i]? = some r → (e.frozen.metadata, tableRow e.frozen i "ypacked", tableRow e.frozen i "ymax") =
      (md, nums (r.1.map fun c => ((c : ℕ) : ℝ)), nums [r.2]) := by
    intro i r hr
    obtain ⟨hi, rfl⟩ := List.getElem?_eq_some_iff.1 hr
    have := congrArg (·[i]?) h6
    simpa [Evaluation.SharedSpec, h3, hi] using this
  refine ⟨e, h1, h3, fun hne => ?_, fun i r hr => ?_⟩
  · obtain ⟨r, t, rfl⟩ := List.exists_cons_of_ne_nil hne
    have := h7 0 r rfl
    rw [Prod.mk.injEq] at this
    rw [this.1]
    exact ⟨gx, gp, gf⟩
  · have := h7 i r hr
    simp only [Prod.mk.injEq] at this
    exact this.2

/-- **C109: the native plot of a packed PDF, from the arguments to the picture**: `qp.Ensemble(qp.packed_interp, ...)` and `plot_native(key=i)`. -/
theorem C109_packed_made (xs : List ℝ) (hs : xs.Pairwise (· < ·)) (h2 : 2 ≤ xs.length) (kind : ℕ) (hk : kind = 0 ∨ kind = 1) (floor : ℝ)
    (rows : List (List ℕ × ℝ)) (hlen : ∀ r ∈ rows, r.1.length = xs.length) (i : ℕ) (codes : List ℕ) (top : ℝ) (hi : rows[i]? = some (codes, top))
    (ha : area xs (codes.map (unpacked kind floor top)) ≠ 0)
    (isProp : String → Bool) (a : PlotArgs ℝ) (ax : ℝ × ℝ) (u v : ℝ) (hl : Limits a ax u v) (hnp : a.npts = none) (ho : ∀ o ∈ a.others, isProp o = true) :
    ∃ e, mkEns (rowCreate packedCls) (rowCreate packedCls) (packedArgs xs kind floor rows) none = .ok e ∧
      gridPlotNative isProp packedEval e (.int i) a =
        .ok (ax, [xs.zip (codes.map fun c => some (unpacked kind floor top c / area xs (codes.map (unpacked kind floor top))))]) := by
  obtain ⟨e, h1, h3, h4, h5⟩ := packed_made xs h2 kind hk floor rows hlen
  have hlt := (List.getElem?_eq_some_iff.1 hi).1
  obtain ⟨m1, m2, m3⟩ := h4 (by rintro rfl; simp at hlt)
  obtain ⟨t1, t2⟩ := h5 i _ hi
  have hm : (codes, top) ∈ rows := List.mem_of_getElem? hi
  have hreach : Reach .packed e := .made (data := packedArgs xs kind floor rows) (ancil := none) ⟨h1, trivial, by
    intro p hp
    have hw : ∀ (w : ℕ) (l : List (List ℝ)), (∀ r ∈ l, r.length = w) → (table w l).toArr.Wf := by
      intro w l hl
      refine Arr.wf_ofRows _ _ fun r hr => ?_
      obtain ⟨r, h, rfl⟩ := List.mem_map.1 hr
      simp [nums, hl r h]
    simp only [packedArgs, List.mem_cons, List.not_mem_nil, or_false] at hp
    rcases hp with rfl | rfl | rfl | rfl | rfl
    · simp [Val.toArr, vec, Arr.Wf, nums]
    · simp [Val.toArr, Arr.Wf]
    · simp [Val.toArr, Arr.Wf]
    · exact hw _ _ (by rintro _ h; obtain ⟨r, hr, rfl⟩ := List.mem_map.1 h; simpa using hlen r hr)
    · exact hw _ _ (by rintro _ h; obtain ⟨r, hr, rfl⟩ := List.mem_map.1 h; rfl)⟩
  have hanc : e.ancil = none := by
    unfold mkEns at h1
    cases hc : rowCreate packedCls (packedArgs xs kind floor rows) with
    | error err => rw [hc] at h1; cases h1
    | ok fr =>
      rw [hc] at h1
      simp only [Bind.bind, Except.bind, checkArrayShapes] at h1
      obtain rfl := Except.ok.inj h1
      rfl
  have hsel := Verif.Props.Select.C32_select_partial .packed hreach hanc (.int i)
  rw [((Verif.Props.Select.C32_int_key e.frozen.npdf i).1 i).2 ⟨by omega, Or.inl rfl⟩] at hsel
  simp only [RowKind.cls, packedCls, Bool.false_eq_true, false_and, if_false] at hsel
  obtain ⟨e', he', -⟩ := hsel
  refine ⟨e, h1, C109_packed_native hreach i (by omega) he' xs kind hk floor top codes m1 m2 m3 (by rw [t1, finites_nums]) (by rw [t2, finites_nums])
    ⟨hs, (hlen _ hm).symm, by rw [hlen _ hm]; exact h2⟩ ha isProp a ax u v hl hnp ho⟩

/-- the second of two PDFs with linear packing: heights 0, 2 and 0, divided by the area 2 -/
example := C109_packed_made [0, 1, 2] (by norm_num) (by simp) 0 (.inl rfl) 0 [([255, 255, 255], 1), ([0, 255, 0], 2)] (by simp) 1 [0, 255, 0] 2 rfl
  (by norm_num [area, unpacked]) (fun _ => true) ⟨some (0, 5), none, none, ["color"]⟩ (0, 5) 0 5 (.existing _ _ _) rfl (by simp)

end Verif.Props.PlotPacked
