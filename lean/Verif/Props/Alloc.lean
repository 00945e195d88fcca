import Verif.Model.Alloc
import Verif.Lemmas.Kinds
import Verif.Props.ExEns
import Mathlib.Data.Rat.Floor

/-!
# The space allocated for a chunked write: C53
-/

set_option linter.unusedSectionVars false
set_option autoImplicit false

namespace Verif.Props.Alloc

open Verif Verif.Np Verif.Model Verif.Spec Verif.Lemmas Verif.Props.ExEns

section
variable {K : Type}

/-- `al` describes exactly tables with `n` rows whose columns have the names and the row shapes of the columns of `d` -/
def Exact (al : List (String × List ℕ)) (n : ℕ) (d : Dict K) : Prop := al = (layout d).map fun p => (p.1, n :: p.2)

instance (al : List (String × List ℕ)) (n : ℕ) (d : Dict K) : Decidable (Exact al n d) := inferInstanceAs (Decidable (_ = _))

/-- **C53** for the allocation that `initializeHdf5Write` uses: it describes the tables of the ensemble with `n` rows, for any class -/
theorem C53_ensemble {e : Ens K} {n : ℕ} {al : Alloc} (h : allocKwds e n = .ok al) :
    List.Forall₂ (fun (g : String × Dict K) a => a.1 = g.1 ∧ Exact a.2 n g.2) (dataTabs e) al := by
  unfold allocKwds at h
  rw [mapM_ok_iff] at h
  refine h.imp ?_
  rintro ⟨g, d⟩ a ha
  simp only at ha
  cases hm : (d.mapM fun p => (allocShape n p.2).map fun s => (p.1, s)) with
  | error err => rw [hm] at ha; simp [Except.map] at ha
  | ok cs =>
    rw [hm] at ha
    obtain rfl := Except.ok.inj ha
    refine ⟨rfl, ?_⟩
    rw [mapM_ok_iff] at hm
    unfold Exact layout
    simp only [List.map_map]
    clear h ha
    induction hm with
    | nil => rfl
    | @cons p c _ _ hp _ ih =>
      rw [List.map_cons, ← ih]
      congr 1
      unfold allocShape at hp
      cases hv : p.2 with
      | arr x =>
        rw [hv] at hp
        cases hs : x.shape with
        | nil => simp [hs, Except.map] at hp
        | cons m s =>
          simp only [hs, Except.map, Except.ok.injEq] at hp
          simp [← hp, hv, Val.shape, Val.toArr, hs]
      | py x => rw [hv] at hp; simp [Except.map] at hp
      | lst x => rw [hv] at hp; simp [Except.map] at hp

/-- it succeeds when all columns are arrays with at least one axis -/
theorem C53_ensemble_ok (e : Ens K) (n : ℕ) (h : ∀ g ∈ dataTabs e, ∀ p ∈ g.2, ∃ a : Arr (Elem K), p.2 = .arr a ∧ a.shape ≠ []) :
    ∃ al, allocKwds e n = .ok al := by
  unfold allocKwds
  rw [mapM_ok_map _ (fun g => (g.1, g.2.map fun p => (p.1, n :: p.2.toArr.shape.tail)))]
  · exact ⟨_, rfl⟩
  · intro g hg
    rw [mapM_ok_map _ (fun p => (p.1, n :: p.2.toArr.shape.tail))]
    · rfl
    · intro p hp
      obtain ⟨a, ha, hs⟩ := h g hg p hp
      rw [ha]
      cases hsh : a.shape with
      | nil => exact absurd hsh hs
      | cons m s => simp [allocShape, hsh, Except.map, Val.toArr]

theorem layout_storeRows (names : List String) (ws : List ℕ) (out : List (List (List (Elem K)))) :
    layout (storeRows names ws out) = (names.zip ws).map fun p => (p.1, [p.2]) := by
  unfold layout storeRows
  rw [List.map_map]
  apply List.ext_getElem
  · simp
  · intro i h1 h2
    simp [Val.shape, Val.toArr, Arr.ofRows]

end

section
variable {K : Type} [Field K] [LinearOrder K] [IsStrictOrderedRing K] [FloorRing K]

/-- `get_allocation_kwds` of the class -/
def alloc : RowKind → ℕ → Dict K → Except Err (List (String × List ℕ))
  | .hist => histAlloc
  | .interp => interpAlloc
  | .irr => irrAlloc
  | .mix => mixAlloc
  | .quant => quantAlloc
  | .packed => packedAlloc
  | .spline => splineAlloc
  | .sparse => sparseAlloc

theorem grid1_shape {m : Dict K} {key : String} {l : List K} (h : grid1 m key = .ok l) {v : Val K} (hv : Dict.get? m key = some v)
    (hw : v.toArr.Wf) : v.shape = [l.length] ∧ v.toArr.data.length = l.length := by
  obtain ⟨v', hv', hl⟩ := grid1_length h
  rw [hv] at hv'
  obtain rfl := Option.some.inj hv'
  refine ⟨?_, hl⟩
  unfold grid1 at h
  rw [hv] at h
  simp only at h
  split at h
  next w _ hs _ =>
    have : v.toArr.data.length = w := by simpa [Arr.Wf, hs] using hw
    show v.toArr.shape = _
    rw [hs, ← this, hl]
  next => simp at h

theorem rowArr_inv {data : Dict K} {k : String} {a : Arr (Elem K)} (h : rowArr data k = .ok a) : Dict.get? data k = some (.arr a) ∧ a.shape ≠ [] := by
  unfold rowArr at h
  split at h
  · simp at h
  · rename_i b hb
    split_ifs at h with h2
    obtain rfl := Except.ok.inj h
    exact ⟨hb, h2⟩
  · simp at h
  · simp at h

theorem lastAxis_arr {a : Arr (Elem K)} (hs : a.shape ≠ []) : lastAxis (.arr a) = .ok (a.shape.getLastD 0) := by
  unfold lastAxis
  simp only [Val.shape, Val.toArr]
  rw [List.getLast?_eq_some_getLast hs]
  simp [List.getLastD_eq_getLast?, List.getLast?_eq_some_getLast hs]

theorem dict_wf {data : Dict K} (hw : ArraysWf data) {k : String} {v : Val K} (h : Dict.get? data k = some v) : v.toArr.Wf :=
  hw _ (mem_of_get? h)

/-- the grid argument of a class, as given -/
theorem grid_arg {c : RowCls K} {data m : Dict K} (hn : (c.metaArgs.map (·.1)).Nodup) (hm : c.metaArgs.mapM (argVal data) = .ok m) {key : String}
    (hk : (key, none) ∈ c.metaArgs) {l : List K} (hg : grid1 m key = .ok l) (hw : ArraysWf data) :
    ∃ v, Dict.get? data key = some v ∧ v.shape = [l.length] ∧ v.toArr.data.length = l.length := by
  have h1 := get?_args c.metaArgs data m hn hm key none hk
  rw [Option.or_none] at h1
  obtain ⟨v, hv, -⟩ := grid1_length hg
  rw [h1] at hv
  exact ⟨v, hv, grid1_shape hg (h1.trans hv) (dict_wf hw hv)⟩

/-- **C53**, histograms: exact for every number of PDFs when the bin edges are given as an array (with a list `get_allocation_kwds` raises
`AttributeError`) -/
theorem C53_hist_partial {data : Dict K} (hw : ArraysWf data) {fr : Frozen K} (h : rowCreate histCls data = .ok fr) (n : ℕ)
    (ha : ∃ a : Arr (Elem K), Dict.get? data "bins" = some (.arr a)) : ∃ al, alloc .hist n data = .ok al ∧ Exact al n fr.objdata := by
  obtain ⟨m, rs, mo, ws, out, hm, hrs, -, -, hmo, hws, -, rfl⟩ := rowCreate_inv h
  obtain ⟨b, hb, hws⟩ := bind_ok hws
  obtain ⟨b', hb', hmo⟩ := bind_ok hmo
  rw [hb] at hb'
  obtain rfl := Except.ok.inj hb'
  have hne : b ≠ [] := by
    rintro rfl
    simp at hmo
  obtain ⟨v, hv, -, hl⟩ := grid_arg (c := histCls) (List.nodup_append.1 (kind_names .hist).nd).1 hm (by simp [histCls]) hb hw
  obtain ⟨a, ha⟩ := ha
  rw [ha] at hv
  obtain rfl := Option.some.inj hv
  split_ifs at hws with hwl
  obtain rfl := Except.ok.inj hws
  have hd : a.data.length = b.length := hl
  have hdn : a.data ≠ [] := by
    intro h0
    rw [h0] at hd
    exact hne (List.length_eq_zero_iff.1 hd.symm)
  refine ⟨[("pdfs", [n, a.data.length - 1])], ?_, ?_⟩
  · simp [alloc, histAlloc, allocArg, ha, Bind.bind, Except.bind, hdn]
  · unfold Exact
    simp only
    rw [layout_storeRows, hwl, hd]
    rfl

theorem C53_hist_list (n : ℕ) (l : List (Elem K)) (d : Dict K) (h : Dict.get? d "bins" = some (.lst l)) :
    alloc .hist n d = .error .AttributeError := by
  simp [alloc, histAlloc, allocArg, h, Bind.bind, Except.bind]

/-- **C53**, interpolated PDFs on a common grid: exact for every number of PDFs -/
theorem C53_interp {data : Dict K} (hw : ArraysWf data) {fr : Frozen K} (h : rowCreate interpCls data = .ok fr) (n : ℕ) :
    ∃ al, alloc .interp n data = .ok al ∧ Exact al n fr.objdata := by
  obtain ⟨m, rs, mo, ws, out, hm, hrs, -, -, hmo, hws, -, rfl⟩ := rowCreate_inv h
  obtain ⟨x, hx, hws⟩ := bind_ok hws
  obtain ⟨v, hv, hs, -⟩ := grid_arg (c := interpCls) (List.nodup_append.1 (kind_names .interp).nd).1 hm (by simp [interpCls]) hx hw
  split_ifs at hws with hwl
  obtain rfl := Except.ok.inj hws
  refine ⟨[("yvals", [n, x.length])], ?_, ?_⟩
  · simp [alloc, interpAlloc, allocArg, hv, Bind.bind, Except.bind, lastAxis, hs]
  · unfold Exact
    simp only
    rw [layout_storeRows, hwl]
    rfl

/-- **C53**, interpolated PDFs each on its own grid: exact for every number of PDFs -/
theorem C53_irregular {data : Dict K} {fr : Frozen K} (h : rowCreate irrCls data = .ok fr) (n : ℕ) :
    ∃ al, alloc .irr n data = .ok al ∧ Exact al n fr.objdata := by
  obtain ⟨m, rs, mo, ws, out, hm, hrs, -, -, hmo, hws, -, rfl⟩ := rowCreate_inv h
  rw [mapM_ok_iff] at hrs
  obtain ⟨x, y, rfl, hx, hy⟩ : ∃ x y, rs = [x, y] ∧ rowArr data "xvals" = .ok x ∧ rowArr data "yvals" = .ok y := by
    cases hrs with
    | cons h1 h2 => cases h2 with
      | cons h2 h3 => cases h3; exact ⟨_, _, rfl, h1, h2⟩
  obtain ⟨hx1, hx2⟩ := rowArr_inv hx
  simp only [irrCls, List.map_cons, List.map_nil] at hws
  split_ifs at hws with hwl
  obtain rfl := Except.ok.inj hws
  refine ⟨[("xvals", [n, x.shape.getLastD 0]), ("yvals", [n, x.shape.getLastD 0])], ?_, ?_⟩
  · simp only [alloc, irrAlloc, allocArg, hx1, Bind.bind, Except.bind, lastAxis_arr hx2]
  · unfold Exact
    simp only
    rw [layout_storeRows, hwl]
    rfl

/-- **C53**, mixture models: exact for every number of PDFs -/
theorem C53_mixmod {data : Dict K} {fr : Frozen K} (h : rowCreate mixCls data = .ok fr) (n : ℕ) :
    ∃ al, alloc .mix n data = .ok al ∧ Exact al n fr.objdata := by
  obtain ⟨m, rs, mo, ws, out, hm, hrs, -, -, hmo, hws, -, rfl⟩ := rowCreate_inv h
  rw [mapM_ok_iff] at hrs
  obtain ⟨x, y, z, rfl, hx, hy, hz⟩ : ∃ x y z, rs = [x, y, z] ∧ rowArr data "means" = .ok x ∧ rowArr data "stds" = .ok y ∧
      rowArr data "weights" = .ok z := by
    cases hrs with
    | cons h1 h2 => cases h2 with
      | cons h2 h3 => cases h3 with
        | cons h3 h4 => cases h4; exact ⟨_, _, _, rfl, h1, h2, h3⟩
  obtain ⟨hx1, hx2⟩ := rowArr_inv hx
  simp only [mixCls, List.map_cons, List.map_nil] at hws
  split_ifs at hws with hwl
  obtain rfl := Except.ok.inj hws
  refine ⟨[("means", [n, x.shape.getLastD 0]), ("stds", [n, x.shape.getLastD 0]), ("weights", [n, x.shape.getLastD 0])], ?_, ?_⟩
  · simp only [alloc, mixAlloc, allocArg, hx1, Bind.bind, Except.bind, lastAxis_arr hx2]
  · unfold Exact
    simp only
    rw [layout_storeRows, ← hwl.1, ← hwl.2]
    rfl

/-- **C53**, packed interpolated PDFs: exact iff the maxima are given with a last axis of length 1 -/
theorem C53_packed_iff {data : Dict K} (hw : ArraysWf data) {fr : Frozen K} (h : rowCreate packedCls data = .ok fr) (n : ℕ) :
    ∃ al a, alloc .packed n data = .ok al ∧ Dict.get? data "ymax" = some (.arr a) ∧
      (Exact al n fr.objdata ↔ a.shape.getLastD 0 = 1) := by
  obtain ⟨m, rs, mo, ws, out, hm, hrs, -, -, hmo, hws, -, rfl⟩ := rowCreate_inv h
  rw [mapM_ok_iff] at hrs
  obtain ⟨y, z, rfl, hy, hz⟩ : ∃ x y, rs = [x, y] ∧ rowArr data "ypacked" = .ok x ∧ rowArr data "ymax" = .ok y := by
    cases hrs with
    | cons h1 h2 => cases h2 with
      | cons h2 h3 => cases h3; exact ⟨_, _, rfl, h1, h2⟩
  obtain ⟨hz1, hz2⟩ := rowArr_inv hz
  obtain ⟨x, hx, hws⟩ := bind_ok hws
  obtain ⟨v, hv, hs, -⟩ := grid_arg (c := packedCls) (List.nodup_append.1 (kind_names .packed).nd).1 hm (by simp [packedCls]) hx hw
  simp only [List.map_cons, List.map_nil] at hws
  split_ifs at hws with hwl
  obtain rfl := Except.ok.inj hws
  refine ⟨[("ypacked", [n, x.length]), ("ymax", [n, 1])], z, ?_, hz1, ?_⟩
  · simp [alloc, packedAlloc, allocArg, hv, Bind.bind, Except.bind, lastAxis, hs]
  · unfold Exact
    simp only
    rw [layout_storeRows, hwl.1]
    simp only [packedCls, List.zip_cons_cons, List.zip_nil_right, List.map_cons, List.map_nil, List.cons.injEq, Prod.mk.injEq, true_and,
      and_true]
    exact eq_comm

/-- **C53**, quantiles: exact iff the constructor adds no quantiles at the ends -/
theorem C53_quant_iff {data : Dict K} (hw : ArraysWf data) {fr : Frozen K} (h : rowCreate quantCls data = .ok fr) (n : ℕ) :
    ∃ al q q' : _, alloc .quant n data = .ok al ∧
      (∃ v : Val K, Dict.get? data "quants" = some v ∧ v.shape = [q]) ∧
      Dict.get? fr.metadata "quants" = some (.arr ⟨[1, q'], (Dict.get? fr.metadata "quants").elim [] fun v => v.toArr.data⟩) ∧
      (Exact al n fr.objdata ↔ q' = q) := by
  obtain ⟨m, rs, mo, ws, out, hm, hrs, -, -, hmo, hws, -, rfl⟩ := rowCreate_inv h
  obtain ⟨q, hq, hws⟩ := bind_ok hws
  obtain ⟨q', hq', hws⟩ := bind_ok hws
  obtain ⟨q2, hq2, hmo⟩ := bind_ok hmo
  rw [hq'] at hq2
  obtain rfl := Except.ok.inj hq2
  obtain ⟨st, hst, hmo⟩ := bind_ok hmo
  split_ifs at hmo with hpc
  obtain rfl := Except.ok.inj hmo
  obtain ⟨v, hv, hs, -⟩ := grid_arg (c := quantCls) (List.nodup_append.1 (kind_names .quant).nd).1 hm (by simp [quantCls]) hq hw
  split_ifs at hws with hwl
  obtain rfl := Except.ok.inj hws
  refine ⟨[("locs", [n, q.length])], q.length, q'.length, ?_, ⟨v, hv, hs⟩, ?_, ?_⟩
  · simp [alloc, quantAlloc, hv, Bind.bind, Except.bind, lastAxis, hs]
  · simp [classMeta, get?_cons, vec, Arr.expand0, Val.toArr]
  · unfold Exact
    simp only
    rw [layout_storeRows]
    simp only [quantCls, List.zip_cons_cons, List.zip_nil_right, List.map_cons, List.map_nil, List.cons.injEq, Prod.mk.injEq, true_and,
      and_true]
    exact eq_comm

/-- a missing `quants` is a `KeyError` (the message printed by the code is never reached) -/
theorem C53_quant_missing (n : ℕ) (d : Dict K) (h : Dict.get? d "quants" = none) : alloc .quant n d = .error .KeyError := by
  simp [alloc, quantAlloc, h]

/-- **C53**, splines: exact iff the knots were given as a table with exactly the number of rows asked for, and the spline orders with one
column: the number of PDFs asked for is ignored -/
theorem C53_spline_iff {data : Dict K} {fr : Frozen K} (h : rowCreate splineCls data = .ok fr) (n : ℕ) :
    ∃ al a b, alloc .spline n data = .ok al ∧ Dict.get? data "splx" = some (.arr a) ∧ Dict.get? data "spln" = some (.arr b) ∧
      (Exact al n fr.objdata ↔ a.shape = [n, a.shape.getLastD 0] ∧ b.shape.getLastD 0 = 1) := by
  obtain ⟨m, rs, mo, ws, out, hm, hrs, -, -, hmo, hws, -, rfl⟩ := rowCreate_inv h
  rw [mapM_ok_iff] at hrs
  obtain ⟨x, y, z, rfl, hx, hy, hz⟩ : ∃ x y z, rs = [x, y, z] ∧ rowArr data "splx" = .ok x ∧ rowArr data "sply" = .ok y ∧
      rowArr data "spln" = .ok z := by
    cases hrs with
    | cons h1 h2 => cases h2 with
      | cons h2 h3 => cases h3 with
        | cons h3 h4 => cases h4; exact ⟨_, _, _, rfl, h1, h2, h3⟩
  obtain ⟨hx1, hx2⟩ := rowArr_inv hx
  obtain ⟨hz1, -⟩ := rowArr_inv hz
  simp only [splineCls, List.map_cons, List.map_nil] at hws
  split_ifs at hws with hwl
  obtain rfl := Except.ok.inj hws
  cases hsh : x.shape with
  | nil => exact absurd hsh hx2
  | cons k s =>
    refine ⟨[("splx", k :: s), ("sply", k :: s), ("spln", [k, 1])], x, z, ?_, hx1, hz1, ?_⟩
    · simp [alloc, splineAlloc, allocArg, hx1, Bind.bind, Except.bind, Val.shape, Val.toArr, hsh]
    · unfold Exact
      simp only
      rw [layout_storeRows, ← hwl, hsh]
      simp only [splineCls, List.zip_cons_cons, List.zip_nil_right, List.map_cons, List.map_nil, List.cons.injEq, Prod.mk.injEq, true_and,
        and_true]
      constructor
      · rintro ⟨⟨h1, h2⟩, -, -, h3⟩
        exact ⟨⟨h1, h2⟩, h3.symm⟩
      · rintro ⟨⟨h1, h2⟩, h3⟩
        exact ⟨⟨h1, h2⟩, ⟨h1, h2⟩, h1, h3.symm⟩

/-- **C53**, sparse representations: exact iff the fifth of the recorded dimensions is the number of codes per PDF -/
theorem C53_sparse_iff {data : Dict K} {fr : Frozen K} (h : rowCreate sparseCls data = .ok fr) (n w : ℕ) (v : Val K)
    (hv : Dict.get? data "dims" = some v) (hw : v.toArr.data[4]? = some (.num (some (w : K)))) :
    ∃ al a, alloc .sparse n data = .ok al ∧ Dict.get? data "sparse_indices" = some (.arr a) ∧
      (Exact al n fr.objdata ↔ a.shape.getLastD 0 = w) := by
  obtain ⟨m, rs, mo, ws, out, hm, hrs, -, -, hmo, hws, -, rfl⟩ := rowCreate_inv h
  rw [mapM_ok_iff] at hrs
  obtain ⟨x, rfl, hx⟩ : ∃ x, rs = [x] ∧ rowArr data "sparse_indices" = .ok x := by
    cases hrs with
    | cons h1 h2 => cases h2; exact ⟨_, rfl, h1⟩
  obtain ⟨hx1, hx2⟩ := rowArr_inv hx
  simp only [sparseCls, List.map_cons, List.map_nil] at hws
  obtain rfl := Except.ok.inj hws
  refine ⟨[("sparse_indices", [n, w])], x, ?_, hx1, ?_⟩
  · simp [alloc, sparseAlloc, allocArg, hv, Bind.bind, Except.bind, hw]
  · unfold Exact
    simp only
    rw [layout_storeRows]
    simp only [sparseCls, List.zip_cons_cons, List.zip_nil_right, List.map_cons, List.map_nil, List.cons.injEq, Prod.mk.injEq, true_and,
      and_true]
    exact eq_comm

/-- the constructor is content with three dimensions, the allocation is not -/
theorem C53_sparse_short (n : ℕ) (d : Dict K) (v : Val K) (hv : Dict.get? d "dims" = some v) (hl : v.toArr.data.length ≤ 4) :
    alloc .sparse n d = .error .IndexError := by
  have : v.toArr.data[4]? = none := List.getElem?_eq_none_iff.2 hl
  simp [alloc, sparseAlloc, allocArg, hv, Bind.bind, Except.bind, this]

/-- **C53**, analytic classes: exact iff every parameter was given with one entry per row, shape `(_, 1)` -/
theorem C53_analytic_iff {data : Dict K} {name : String} {v : ℤ} {fr : Frozen K} (h : analyticCreate name v data = .ok fr)
    (ha : ∀ p ∈ data, ∃ a : Arr (Elem K), p.2 = .arr a) (n : ℕ) :
    ∃ al, analyticAlloc n data = .ok al ∧ (Exact al n fr.objdata ↔ ∀ p ∈ data, p.2.shape.tail = [1]) := by
  have hob : fr.objdata = data := by
    unfold analyticCreate at h
    simp only at h
    split_ifs at h <;> · obtain rfl := Except.ok.inj h; rfl
  refine ⟨data.map fun p => (p.1, [n, 1]), ?_, ?_⟩
  · unfold analyticAlloc
    apply mapM_ok_map
    intro p hp
    obtain ⟨a, hpa⟩ := ha p hp
    rw [hpa]
  · rw [hob]
    unfold Exact layout
    rw [List.map_map, List.map_inj_left]
    simp [Prod.forall, eq_comm]

end

/-- spline objects for five PDFs allocated from a template of two: the class allocates two rows -/
theorem C53_spline_wrong :
    (rowCreate splineCls [("splx", qarr [2, 2] [0, 1, 0, 1]), ("sply", qarr [2, 2] [1, 1, 1, 1]), ("spln", qarr [2, 1] [1, 1])]).isOk = true ∧
    splineAlloc (K := ℚ) 5 [("splx", qarr [2, 2] [0, 1, 0, 1]), ("sply", qarr [2, 2] [1, 1, 1, 1]), ("spln", qarr [2, 1] [1, 1])] =
      .ok [("splx", [2, 2]), ("sply", [2, 2]), ("spln", [2, 1])] := by
  decide +kernel

/-- quantiles without the ends: three locations are allocated, five are written -/
theorem C53_quant_wrong :
    quantAlloc (K := ℚ) 7 [("quants", qarr [3] [1/4, 1/2, 3/4]), ("locs", qarr [1, 3] [0, 1, 2])] = .ok [("locs", [7, 3])] ∧
    (rowCreate quantCls [("quants", qarr [3] [1/4, 1/2, 3/4]), ("locs", qarr [1, 3] [0, 1, 2])]).map (fun f => layout f.objdata) =
      .ok [("locs", [5])] := by
  decide +kernel

/-- sparse codes: two basis functions per PDF, on a grid of five points -/
def spData : Dict ℚ :=
  [("sparse_indices", qarr [1, 2] [3, 70000]), ("xvals", qarr [5] [0, 1, 2, 3, 4]), ("mu", qarr [2] [0, 4]), ("sig", qarr [2] [1, 2]),
    ("dims", qarr [5] [3, 2, 1, 6, 2])]

example := C53_sparse_iff (data := spData) (fr := ((rowCreate sparseCls spData).toOption).getD ⟨[], [], 0, []⟩) (by decide +kernel) 7 2
  (qarr [5] [3, 2, 1, 6, 2]) rfl (by decide +kernel)

/-- the recorded number of codes is not checked against the table: with 5 in place of 2 five columns are allocated, two are written -/
theorem C53_sparse_wrong :
    (rowCreate sparseCls (Dict.set spData "dims" (qarr [5] [3, 2, 1, 6, 5]))).map (fun f => layout f.objdata) = .ok [("sparse_indices", [2])] ∧
    sparseAlloc 7 (Dict.set spData "dims" (qarr [5] [3, 2, 1, 6, 5])) = .ok [("sparse_indices", [7, 5])] := by
  decide +kernel

example : ∃ al, alloc .hist 7 histData = .ok al ∧ Exact al 7 histFrozen.objdata :=
  C53_hist_partial (by show ∀ p ∈ histData, p.2.toArr.Wf; decide +kernel) histCreate 7 ⟨_, rfl⟩

end Verif.Props.Alloc
