import Verif.Props.Convert

/-!
# C57 and C58 for whole ensembles: converting to a histogram, converting to the same grid
-/

set_option linter.unusedSectionVars false
set_option autoImplicit false

namespace Verif.Props.Convert

open Verif Verif.Np Verif.Model Verif.Spec Verif.Lemmas Verif.Props.ExEns Verif.Props.Bins Verif.Props.Hist

variable {K : Type} [Field K] [LinearOrder K] [IsStrictOrderedRing K]

theorem nums_flatten (l : List (List K)) : nums l.flatten = (l.map nums).flatten := by
  unfold nums; rw [List.map_flatten]

theorem flat2_append (s : List ℕ) (w : ℕ) (d : List (Elem K)) : flat2 ⟨s ++ [w], d⟩ = ⟨[s.prod, w], d⟩ := by simp [flat2]

theorem row_block (n w : ℕ) (rows : ℕ → List (Elem K)) (hlen : ∀ i < n, (rows i).length = w) (i : ℕ) (hi : i < n) :
    Arr.row ⟨[n, w], ((List.range n).map rows).flatten⟩ i = rows i := by
  have h := Arr.row_ofRows [w] ((List.range n).map rows) (by
    intro r hr
    obtain ⟨j, hj, rfl⟩ := List.mem_map.1 hr
    simpa using hlen j (List.mem_range.1 hj)) i (by simpa using hi)
  simp only [Arr.ofRows, List.length_map, List.length_range] at h
  rw [h]; simp

/-- the histogram constructor on explicit rows -/
theorem hist_create (b : List K) (h2 : 2 ≤ b.length) (s : List ℕ) (rows P : ℕ → List K) (hlen : ∀ i < s.prod, (rows i).length = b.length - 1)
    (hP : ∀ i < s.prod, histNormRow b (rows i) = some (P i)) :
    rowCreate histCls [("bins", .arr (vec b)), ("pdfs", .arr ⟨s ++ [b.length - 1], nums ((List.range s.prod).map rows).flatten⟩)]
      = .ok (frozenOf histCls [("bins", vec b)] [b.length - 1] ((List.range s.prod).map fun i => [nums (P i)]) s) := by
  set a : Arr (Elem K) := ⟨s ++ [b.length - 1], nums ((List.range s.prod).map rows).flatten⟩ with ha
  have hm : (histCls (K := K)).metaArgs.mapM (argVal [("bins", .arr (vec b)), ("pdfs", .arr a)])
      = .ok [("bins", .arr (vec b)), ("check_input", .py (.bool true))] := by
    simp [histCls, checkInputArg, argVal, get?_cons, get?_nil, Bind.bind, Except.bind, pure, Except.pure]
  have hr : (histCls (K := K)).rowArgs.mapM (rowArr [("bins", .arr (vec b)), ("pdfs", .arr a)]) = .ok [a] := by
    simp [histCls, rowArr, get?_cons, Bind.bind, Except.bind, pure, Except.pure, ha]
  have hgrid : grid1 [("bins", .arr (vec b)), ("check_input", (.py (.bool true) : Val K))] "bins" = .ok b := by
    simp [grid1, get?_cons, Val.toArr, vec, finites_nums]
  have hne : b ≠ [] := by rintro rfl; simp at h2
  have hnorm : (List.range s.prod).mapM (fun i => (histCls (K := K)).norm [("bins", .arr (vec b)), ("check_input", .py (.bool true))] (pdfRows [a] i))
      = .ok ((List.range s.prod).map fun i => [nums (P i)]) := by
    apply mapM_ok_map
    intro i hi
    have hi := List.mem_range.1 hi
    have hrow : pdfRows [a] i = [nums (rows i)] := by
      simp only [pdfRows, List.map_cons, List.map_nil]
      rw [ha, flat2_append, nums_flatten, List.map_map]
      congr 1
      exact row_block s.prod (b.length - 1) (fun i => nums (rows i)) (fun j hj => by simp [nums, hlen j hj]) i hi
    rw [hrow]
    simp only [histCls, hgrid, Bind.bind, Except.bind]
    simp [liftRow, allNum_nums, finites_nums, hP i hi, Bind.bind, Except.bind, pure, Except.pure]
  have hkeys : (Dict.keys [("bins", .arr (vec b)), ("pdfs", .arr a)]).any
      (fun k => k ∉ (histCls (K := K)).metaArgs.map (·.1) ++ (histCls (K := K)).rowArgs) = false := by
    simp [Dict.keys, histCls, checkInputArg]
  have hlead : a.shape.dropLast = s := by simp [ha]
  have hlast : a.shape.getLastD 0 = b.length - 1 := by simp [ha]
  unfold rowCreate
  rw [if_neg (by rw [hkeys]; simp)]
  rw [hm, hr]
  simp only [Bind.bind, Except.bind, List.headD_cons, hlead]
  rw [if_neg (by simp [hlead]), if_neg (by simp [histCls]), if_neg (by simp [histCls]), hnorm]
  simp only [List.map_cons, List.map_nil, hlast]
  have hmo : (histCls (K := K)).metaOut [("bins", .arr (vec b)), ("check_input", .py (.bool true))] = .ok [("bins", vec b)] := by
    simp [histCls, hgrid, hne, Bind.bind, Except.bind]
  have hws : (histCls (K := K)).widths [("bins", .arr (vec b)), ("check_input", .py (.bool true))] [b.length - 1] = .ok [b.length - 1] := by
    simp [histCls, hgrid, Bind.bind, Except.bind]
  rw [hmo, hws]
  simp [frozenOf]

/-- What the conversion to a histogram makes of an ensemble of any class, given its CDF values `F i x`. -/
theorem hist_conversion (ev : Evals K) (e : Ens K) (b : List K) (h2 : 2 ≤ b.length) (F : ℕ → K → K) (hs : e.frozen.shape ≠ [])
    (hcdf : ev.cdf e.frozen (.arr (vec b)) = .ok ⟨e.frozen.shape ++ [b.length],
      nums ((List.range e.frozen.shape.prod).map fun i => b.map (F i)).flatten⟩)
    (P : ℕ → List K) (hP : ∀ i < e.frozen.shape.prod, converted b (F i) = some (P i)) :
    convertTo (histPy ev) e none [("bins", .arr (vec b))] = .ok ⟨rowCreate histCls, rowCreate histCls,
      frozenOf histCls [("bins", vec b)] [b.length - 1] ((List.range e.frozen.shape.prod).map fun i => [nums (P i)]) e.frozen.shape, none⟩ := by
  have hne : b ≠ [] := by rintro rfl; simp at h2
  have hlen : ∀ i, (Np.diff (b.map (F i))).length = b.length - 1 := fun i => by rw [length_diff, List.length_map]
  have hrows : Arr.rows ⟨[e.frozen.shape.prod, b.length], ((List.range e.frozen.shape.prod).map fun i => b.map (F i)).flatten⟩
      = (List.range e.frozen.shape.prod).map fun i => b.map (F i) := by
    have := Arr.rows_ofRows [b.length] ((List.range e.frozen.shape.prod).map fun i => b.map (F i)) (by
      intro r hr
      obtain ⟨j, hj, rfl⟩ := List.mem_map.1 hr
      simp)
    simpa [Arr.ofRows] using this
  have hh : histogramize ⟨e.frozen.shape ++ [b.length], ((List.range e.frozen.shape.prod).map fun i => b.map (F i)).flatten⟩ e.frozen.shape b
      = .ok ⟨e.frozen.shape ++ [b.length - 1], ((List.range e.frozen.shape.prod).map fun i => Np.diff (b.map (F i))).flatten⟩ := by
    unfold histogramize reshapeToPdfSize
    simp only [List.getLast?_append, List.getLast?_singleton, Option.some_or, List.dropLast_concat]
    rw [Arr.reshape, if_pos (by simp)]
    simp only [Bind.bind, Except.bind]
    rw [if_neg hne, hrows]
    unfold reshapeToPdfShape
    rw [if_neg hs, Arr.reshape, if_pos (by simp [Arr.ofRows])]
    simp [Arr.ofRows, Function.comp_def]
  have hx : extractHistValues ev e [("bins", .arr (vec b))] = .ok [("bins", .arr (vec b)),
      ("pdfs", .arr ⟨e.frozen.shape ++ [b.length - 1], nums ((List.range e.frozen.shape.prod).map fun i => Np.diff (b.map (F i))).flatten⟩)] := by
    unfold extractHistValues
    simp only [needKwd, get?_cons, if_true, Bind.bind, Except.bind, hcdf, finites_nums]
    rw [show (vec b).data = nums b from rfl, finites_nums]
    simp only [hh]
  unfold convertTo
  simp only [histPy, get_single, Bind.bind, Except.bind, hx]
  unfold mkEns
  rw [hist_create b h2 e.frozen.shape _ P (fun i _ => hlen i) hP]
  rfl

theorem tableRow_hist (b : List K) (n : ℕ) (P : ℕ → List K) (s : List ℕ) (hlen : ∀ i < n, (P i).length = b.length - 1) (i : ℕ) (hi : i < n) :
    tableRow (frozenOf histCls [("bins", vec b)] [b.length - 1] ((List.range n).map fun i => [nums (P i)]) s) i "pdfs" = nums (P i) := by
  unfold tableRow
  have : Dict.get? (frozenOf histCls [("bins", vec b)] [b.length - 1] ((List.range n).map fun i => [nums (P i)]) s).objdata "pdfs"
      = some (.arr ⟨[n, b.length - 1], ((List.range n).map fun i => nums (P i)).flatten⟩) := by
    simp [frozenOf, histCls, storeRows, get?_cons, Arr.ofRows, Function.comp_def]
  rw [this]
  exact row_block n (b.length - 1) (fun i => nums (P i)) (fun j hj => by simp [nums, hlen j hj]) i hi

theorem metaGrid_hist (b : List K) (ws : List ℕ) (out : List (List (List (Elem K)))) (s : List ℕ) :
    metaGrid (frozenOf histCls [("bins", vec b)] ws out s).metadata "bins" = b := by
  simp [metaGrid, frozenOf, classMeta, get?_cons, Val.toArr, Arr.expand0, vec, finites_nums]

/-- the CDF array of a histogram ensemble at its own edges -/
theorem histCdf_arr (b : List K) (hs : b.Pairwise (· < ·)) (s : List ℕ) (P : ℕ → List K) (F : ℕ → K → K)
    (hlen : ∀ i < s.prod, (P i).length = b.length - 1) (hF : ∀ i < s.prod, ∀ x ∈ b, histCdf b (P i) x = some (F i x)) :
    ensArr histCdfElem (frozenOf histCls [("bins", vec b)] [b.length - 1] ((List.range s.prod).map fun i => [nums (P i)]) s) (.arr (vec b))
      = .ok ⟨s ++ [b.length], nums ((List.range s.prod).map fun i => b.map (F i)).flatten⟩ := by
  unfold ensArr
  simp only [Val.toArr]
  rw [show (vec b).data = nums b from rfl, finites_nums]
  simp only [show (vec b).shape = [b.length] from rfl]
  unfold ensEval
  rw [Evaluation.C01_shared_grid_partial _ _ _ (Or.inl hs)]
  simp only [Bind.bind, Except.bind]
  congr 2
  rw [nums_flatten, List.map_map]
  congr 1
  unfold Evaluation.SharedSpec
  rw [show (frozenOf histCls [("bins", vec b)] [b.length - 1] ((List.range s.prod).map fun i => [nums (P i)]) s).npdf = s.prod by simp [frozenOf]]
  apply List.map_congr_left
  intro i hi
  have hi := List.mem_range.1 hi
  simp only [Function.comp]
  rw [show nums (b.map (F i)) = b.map fun x => .num (some (F i x)) by simp [nums]]
  apply List.map_congr_left
  intro x hx
  simp only [histCdfElem]
  rw [tableRow_hist b s.prod P s hlen i hi, finites_nums, metaGrid_hist]
  simp [hF i hi x hx]

/-- **C57 (partial)**, whole ensembles. Take an ensemble of *any* class whose CDF has all its mass inside the equal-width bins. Then the
conversion succeeds, and the converted ensemble answers `cdf(bins)` with exactly the array that the original answers. -/
theorem C57_ensemble_partial (ev : Evals K) (e : Ens K) (b : List K) (h2 : 2 ≤ b.length) (hb : b.Pairwise (· < ·)) (hu : Uniform b)
    (F : ℕ → K → K) (hs : e.frozen.shape ≠ [])
    (hcdf : ev.cdf e.frozen (.arr (vec b)) = .ok ⟨e.frozen.shape ++ [b.length],
      nums ((List.range e.frozen.shape.prod).map fun i => b.map (F i)).flatten⟩)
    (hF0 : ∀ i a, b.head? = some a → F i a = 0) (hF1 : ∀ i a, b.getLast? = some a → F i a = 1) :
    ∃ e', convertTo (histPy ev) e none [("bins", .arr (vec b))] = .ok e' ∧
      ensArr histCdfElem e'.frozen (.arr (vec b)) = ev.cdf e.frozen (.arr (vec b)) := by
  have hp : ∀ i, ∃ p, converted b (F i) = some p ∧ ∀ x ∈ b, histCdf b p x = some (F i x) :=
    fun i => C57_equal_bins_partial b (F i) h2 hb hu (hF0 i) (hF1 i)
  choose P hP1 hP2 using hp
  have hlen : ∀ i, (P i).length = b.length - 1 := by
    intro i
    have := (histNormRow_idem b _ _ (hP1 i)).2
    rw [this, length_diff, List.length_map]
  refine ⟨_, hist_conversion ev e b h2 F hs hcdf P (fun i _ => hP1 i), ?_⟩
  rw [hcdf]
  exact histCdf_arr b hb e.frozen.shape P F (fun i _ => hlen i) (fun i _ => hP2 i)

/-! ## C58 -/

/-- the number of PDFs is the product of the shape, however the ensemble was obtained -/
theorem create_npdf {c : RowCls K} {data : Dict K} {fr : Frozen K} (h : rowCreate c data = .ok fr) : fr.npdf = fr.shape.prod := by
  obtain ⟨m, rs, mo, ws, out, -, -, -, -, -, -, -, rfl⟩ := rowCreate_inv h
  rfl

/-- every ensemble a program can hold was made by its constructor in the last resort -/
theorem reach_created {k : RowKind} {e : Ens K} (h : Reach k e) : ∃ data, rowCreate k.cls data = .ok e.frozen := by
  have upd : ∀ (e : Ens K) (d : Dict K) (a : Option (Dict K)), e.genFunc = rowCreate k.cls → (∃ data, rowCreate k.cls data = .ok e.frozen) →
      ∃ data, rowCreate k.cls data = .ok (Model.update e d a).2.frozen := by
    intro e d a hg ih
    unfold Model.update
    cases hd : e.genFunc d with
    | error err => exact ih
    | ok fr =>
      simp only
      rw [(setAncil_frozen _ a).2.2]
      exact ⟨d, by rw [← hg]; exact hd⟩
  induction h with
  | made h =>
    obtain ⟨fr, hfr, -, rfl⟩ := mkEns_inv h.ok
    exact ⟨_, hfr⟩
  | select h hk ih =>
    obtain ⟨_, _, _, hs⟩ := reach_stored h
    unfold getItem at hk
    obtain ⟨md, -, hk⟩ := bind_ok hk
    obtain ⟨dd, -, hk⟩ := bind_ok hk
    obtain ⟨an, -, hk⟩ := bind_ok hk
    obtain ⟨fr, hfr, -, rfl⟩ := mkEns_inv hk
    rw [hs.create] at hfr
    exact ⟨_, hfr⟩
  | setAncil a h ih => rw [(setAncil_frozen _ a).2.2]; exact ih
  | addToAncil a h ih => rw [(addToAncil_frozen _ a).2.2]; exact ih
  | update a h hp hw ih =>
    obtain ⟨_, _, _, hs⟩ := reach_stored h
    exact upd _ _ a hs.gen ih
  | updateObjdata a h hk hw ih =>
    obtain ⟨_, _, _, hs⟩ := reach_stored h
    exact upd _ _ a hs.gen ih
  | append h h' ih ih' =>
    rename_i e e'
    obtain ⟨_, _, _, hs⟩ := reach_stored h
    unfold Model.append
    cases hd : appendData e e' with
    | error err => exact ih
    | ok v => exact upd _ _ _ hs.gen ih
  | concatenate h hc ih =>
    rename_i es e
    cases es with
    | nil => simp [concatenateEns] at hc
    | cons e0 t =>
      obtain ⟨_, _, _, hs⟩ := reach_stored (h e0 (by simp))
      simp only [concatenateEns] at hc
      obtain ⟨same, -, hc⟩ := bind_ok hc
      split_ifs at hc
      obtain ⟨d, hd, hc⟩ := bind_ok hc
      obtain ⟨an, -, hc⟩ := bind_ok hc
      obtain ⟨fr, hfr, -, rfl⟩ := mkEns_inv hc
      rw [hs.gen] at hfr
      exact ⟨_, hfr⟩

/-- the number of PDFs is the product of the shape -/
theorem reach_npdf {k : RowKind} {e : Ens K} (h : Reach k e) : e.frozen.npdf = e.frozen.shape.prod := by
  obtain ⟨_, h⟩ := reach_created h
  exact create_npdf h

/-- what a reachable histogram ensemble stores -/
theorem hist_stored {e : Ens K} (h : Reach .hist e) : ∃ b out, e.frozen = frozenOf histCls [("bins", vec b)] [b.length - 1] out e.frozen.shape ∧
    2 ≤ b.length ∧ ∀ r ∈ out, ∃ row, r = [row] ∧ row.length = b.length - 1 ∧ liftRow (histNormRow b) row = .ok row := by
  obtain ⟨mo, ws, out, hs⟩ := reach_stored h
  obtain ⟨m', hm', hmo, hws, hnorm⟩ := hs.fixed.fix
  have hp := hs.plain
  simp only [RowKind.cls] at hmo hws hnorm hm'
  cases hb : grid1 m' "bins" with
  | error _ => simp [histCls, hb, Bind.bind, Except.bind] at hmo
  | ok b =>
    simp only [histCls, hb, Bind.bind, Except.bind] at hmo hws
    split_ifs at hmo with h0
    obtain rfl := Except.ok.inj hmo
    split_ifs at hws with h1
    subst h1
    have hm2 : m' = [("bins", .arr (vec b)), ("check_input", .py (.bool true))] := by
      have : (histCls (K := K)).metaArgs.mapM (argVal (metaDict [("bins", vec b)]))
          = .ok [("bins", .arr (vec b)), ("check_input", .py (.bool true))] := by
        simp [histCls, argVal, metaDict, get?_cons, get?_nil, checkInputArg, Bind.bind, Except.bind, pure, Except.pure]
      exact (Except.ok.inj (this.symm.trans hm')).symm
    refine ⟨b, out, hs.frozen, ?_, ?_⟩
    · have := hp (.arr (vec b)) (by simp [metaDict, get?_cons])
      simpa [Val.toArr, vec, nums] using this
    · intro r hr
      have hl := hs.fixed.len r hr
      obtain ⟨row, rfl⟩ := List.length_eq_one_iff.1 (show r.length = 1 by simpa using congrArg List.length hl)
      refine ⟨row, rfl, by simpa using hl, ?_⟩
      have := hnorm [row] hr
      simp only [histCls, hb, Bind.bind, Except.bind] at this
      cases hl : liftRow (histNormRow b) row with
      | error _ => simp [hl, Bind.bind, Except.bind] at this
      | ok y =>
        simp [hl, Bind.bind, Except.bind, pure, Except.pure] at this
        rw [this]

theorem liftRow_num {f : List K → Option (List K)} {r r' : List K} (h : liftRow f (nums r) = .ok (nums r')) (hne : r' ≠ []) :
    f r = some r' := by
  unfold liftRow at h
  rw [finites_nums] at h
  simp only [allNum_nums] at h
  cases hf : f r with
  | none =>
    simp [hf] at h
    have := finites_nanRow_ne (K := K) (l := nums r) (by
      intro h0
      rw [h0] at h
      simp [nanRow] at h
      have := congrArg List.length h
      simp [nums] at this
      exact hne this)
    rw [h, finites_nums] at this
    simp at this
  | some y =>
    simp [hf] at h
    have := congrArg finites h
    rw [finites_nums, finites_nums] at this
    exact this

theorem width_ne (b : List K) (w : K) (h2 : 2 ≤ b.length) (hs : b.Pairwise (· < ·))
    (hw : ∀ (i : ℕ) u v, b[i]? = some u → b[i + 1]? = some v → v - u = w) : w ≠ 0 := by
  match b, h2, hs with
  | a :: c :: t, _, hs =>
    have := hw 0 a c rfl rfl
    have := (List.pairwise_cons.1 hs).1 c (by simp)
    intro h
    linarith

theorem massUpTo_step (e p : List K) (hs : e.Pairwise (· < ·)) (j : ℕ) (u v m : K) (hu : e[j]? = some u) (hv : e[j + 1]? = some v)
    (hm : p[j]? = some m) : massUpTo e p v - massUpTo e p u = m * (v - u) := by
  match e, hs with
  | [], _ => simp at hu
  | a :: t, hs =>
    rw [massUpTo_edge t a p j _ hs hu, massUpTo_edge t a p (j + 1) _ hs hv, totalMass_take_succ (a :: t) p j _ _ _ hu hv hm]
    ring

/-- **C58 (partial)**, histograms. Converting a histogram ensemble - however it was built, sliced, appended to - to a histogram with
its own bins gives back the same distribution object (without the ancillary data), when the bins are equal and no row is non-finite. -/
theorem C58_hist_partial (e : Ens K) (hr : Reach .hist e) (b : List K) (hb : metaGrid e.frozen.metadata "bins" = b)
    (hs : b.Pairwise (· < ·)) (hu : Uniform b) (hshape : e.frozen.shape ≠ [])
    (hfin : ∀ i < e.frozen.npdf, finites (tableRow e.frozen i "pdfs") ≠ none) (g h : Frozen K → Val K → Except Err (Arr (Elem K))) :
    convertTo (histPy ⟨g, ensArr histCdfElem, h⟩) e none [("bins", .arr (vec b))]
      = .ok ⟨rowCreate histCls, rowCreate histCls, e.frozen, none⟩ := by
  have hnp := reach_npdf hr
  obtain ⟨b', out, hfr, h2, hrows⟩ := hist_stored hr
  obtain rfl : b' = b := by rw [← hb, hfr, metaGrid_hist]
  have hnp' : out.length = e.frozen.shape.prod := by
    rw [← hnp]
    conv_rhs => rw [hfr]
    rfl
  have hex : ∀ i, ∃ p : List K, ∀ (hi : i < out.length), out[i] = [nums p] ∧ p.length = b'.length - 1 ∧ histNormRow b' p = some p := by
    intro i
    by_cases hi : i < out.length
    · obtain ⟨row, h3, h4, h5⟩ := hrows _ (List.getElem_mem hi)
      have hrow : tableRow e.frozen i "pdfs" = row := by
        rw [hfr]
        unfold tableRow
        have : Dict.get? (frozenOf histCls [("bins", vec b')] [b'.length - 1] out e.frozen.shape).objdata "pdfs"
            = some (.arr (tab out (b'.length - 1) 0)) := by
          simp [frozenOf, histCls, storeRows, get?_cons, tab]
        rw [this]
        simp only
        have hlen : ∀ r ∈ out, r.map List.length = [b'.length - 1] := by
          intro r hr'
          obtain ⟨row', rfl, h6, -⟩ := hrows r hr'
          simp [h6]
        have := tab_row hlen 0 (by simp) i hi
        simp only [List.getElem_cons_zero] at this
        rw [this, h3]
        rfl
      have hf := hfin i (by rw [hnp, ← hnp']; exact hi)
      rw [hrow] at hf
      cases hp : finites row with
      | none => exact absurd hp hf
      | some p =>
        rw [finites_some_iff] at hp
        subst hp
        have hpl : p.length = b'.length - 1 := by simpa [nums] using h4
        refine ⟨p, fun _ => ⟨h3, hpl, liftRow_num h5 ?_⟩⟩
        intro h0
        rw [h0] at hpl
        simp at hpl
        omega
    · exact ⟨[], fun h => absurd h hi⟩
  choose P hP using hex
  have hout : out = (List.range e.frozen.shape.prod).map fun i => [nums (P i)] := by
    apply List.ext_getElem
    · simp [hnp']
    · intro i h1 _
      simp only [List.getElem_map, List.getElem_range]
      exact (hP i h1).1
  have hPl : ∀ i < e.frozen.shape.prod, (P i).length = b'.length - 1 := fun i hi => (hP i (by omega)).2.1
  have hPn : ∀ i < e.frozen.shape.prod, histNormRow b' (P i) = some (P i) := fun i hi => (hP i (by omega)).2.2
  have hmass : ∀ i < e.frozen.shape.prod, totalMass b' (P i) = 1 := by
    intro i hi
    by_cases h0 : totalMass b' (P i) = 0
    · have := (C07_row_normalised b' (P i)).1 h0
      rw [hPn i hi] at this
      simp at this
    · obtain ⟨p, h3, h4, -⟩ := (C07_row_normalised b' (P i)).2 h0
      rw [hPn i hi] at h3
      rw [Option.some.inj h3]
      exact h4
  have hgrid : ∀ i < e.frozen.shape.prod, Grid b' (P i).length := fun i hi =>
    ⟨hs, by rw [hPl i hi]; omega, by rw [hPl i hi]; omega⟩
  have hcdf := histCdf_arr b' hs e.frozen.shape P (fun i x => massUpTo b' (P i) x) hPl
    (fun i hi x _ => C08_cdf_is_mass b' (P i) (hgrid i hi) (hmass i hi) x)
  rw [← hout, ← hfr] at hcdf
  have hconv : ∀ i < e.frozen.shape.prod, converted b' (fun x => massUpTo b' (P i) x) = some (P i) := by
    intro i hi
    obtain ⟨w, hw⟩ := hu
    have hw0 : w ≠ 0 := width_ne b' w h2 hs hw
    have hd : Np.diff (b'.map fun x => massUpTo b' (P i) x) = (P i).map (w * ·) := by
      apply List.ext_getElem?
      intro j
      by_cases hj : j < b'.length - 1
      · have hu1 : b'[j]? = some b'[j] := List.getElem?_eq_getElem (by omega)
        have hu2 : b'[j + 1]? = some b'[j + 1] := List.getElem?_eq_getElem (by omega)
        have hm : (P i)[j]? = some ((P i)[j]'(by rw [hPl i hi]; omega)) := List.getElem?_eq_getElem (by rw [hPl i hi]; omega)
        have := (diff_getElem? (b'.map fun x => massUpTo b' (P i) x) j (massUpTo b' (P i) b'[j + 1] - massUpTo b' (P i) b'[j])).2
          ⟨_, _, by rw [List.getElem?_map, hu1]; rfl, by rw [List.getElem?_map, hu2]; rfl, rfl⟩
        rw [this, List.getElem?_map, hm]
        simp only [Option.map_some]
        congr 1
        rw [massUpTo_step b' (P i) hs j _ _ _ hu1 hu2 hm, hw j _ _ hu1 hu2]
        ring
      · rw [List.getElem?_eq_none (by rw [length_diff, List.length_map]; omega), List.getElem?_eq_none (by rw [List.length_map, hPl i hi]; omega)]
    rw [converted, hd, C07_scale_invariant _ _ _ hw0, hPn i hi]
  have := hist_conversion ⟨g, ensArr histCdfElem, h⟩ e b' h2 (fun i x => massUpTo b' (P i) x) hshape hcdf P hconv
  rw [this, ← hout, ← hfr]

/-- the interpolated constructor on explicit rows -/
theorem interp_create (x : List K) (h2 : 2 ≤ x.length) (s : List ℕ) (rows P : ℕ → List (Elem K)) (hlen : ∀ i < s.prod, (rows i).length = x.length)
    (hP : ∀ i < s.prod, liftRow (interpNorm x) (rows i) = .ok (P i)) :
    rowCreate interpCls [("xvals", .arr (vec x)), ("yvals", .arr ⟨s ++ [x.length], ((List.range s.prod).map rows).flatten⟩)]
      = .ok (frozenOf interpCls [("xvals", vec x)] [x.length] ((List.range s.prod).map fun i => [P i]) s) := by
  set a : Arr (Elem K) := ⟨s ++ [x.length], ((List.range s.prod).map rows).flatten⟩ with ha
  have hm : (interpCls (K := K)).metaArgs.mapM (argVal [("xvals", .arr (vec x)), ("yvals", .arr a)])
      = .ok [("xvals", .arr (vec x)), ("check_input", .py (.bool true))] := by
    simp [interpCls, checkInputArg, argVal, get?_cons, get?_nil, Bind.bind, Except.bind, pure, Except.pure]
  have hr : (interpCls (K := K)).rowArgs.mapM (rowArr [("xvals", .arr (vec x)), ("yvals", .arr a)]) = .ok [a] := by
    simp [interpCls, rowArr, get?_cons, Bind.bind, Except.bind, pure, Except.pure, ha]
  have hgrid : grid1 [("xvals", .arr (vec x)), ("check_input", (.py (.bool true) : Val K))] "xvals" = .ok x := by
    simp [grid1, get?_cons, Val.toArr, vec, finites_nums]
  have hne : x ≠ [] := by rintro rfl; simp at h2
  have hnorm : (List.range s.prod).mapM (fun i => (interpCls (K := K)).norm [("xvals", .arr (vec x)), ("check_input", .py (.bool true))] (pdfRows [a] i))
      = .ok ((List.range s.prod).map fun i => [P i]) := by
    apply mapM_ok_map
    intro i hi
    have hi := List.mem_range.1 hi
    have hrow : pdfRows [a] i = [rows i] := by
      simp only [pdfRows, List.map_cons, List.map_nil]
      rw [ha, flat2_append]
      congr 1
      exact row_block s.prod x.length rows hlen i hi
    rw [hrow]
    simp only [interpCls, hgrid, Bind.bind, Except.bind]
    simp [hP i hi, Bind.bind, Except.bind, pure, Except.pure]
  have hkeys : (Dict.keys [("xvals", .arr (vec x)), ("yvals", .arr a)]).any
      (fun k => k ∉ (interpCls (K := K)).metaArgs.map (·.1) ++ (interpCls (K := K)).rowArgs) = false := by
    simp [Dict.keys, interpCls, checkInputArg]
  have hlead : a.shape.dropLast = s := by simp [ha]
  have hlast : a.shape.getLastD 0 = x.length := by simp [ha]
  unfold rowCreate
  rw [if_neg (by rw [hkeys]; simp)]
  rw [hm, hr]
  simp only [Bind.bind, Except.bind, List.headD_cons, hlead]
  rw [if_neg (by simp [hlead]), if_neg (by simp [interpCls]), if_neg (by simp [interpCls]), hnorm]
  simp only [List.map_cons, List.map_nil, hlast]
  have hmo : (interpCls (K := K)).metaOut [("xvals", .arr (vec x)), ("check_input", .py (.bool true))] = .ok [("xvals", vec x)] := by
    simp only [interpCls, hgrid, Bind.bind, Except.bind]
    rw [if_neg (by omega)]
  have hws : (interpCls (K := K)).widths [("xvals", .arr (vec x)), ("check_input", .py (.bool true))] [x.length] = .ok [x.length] := by
    simp [interpCls, hgrid, Bind.bind, Except.bind]
  rw [hmo, hws]
  simp [frozenOf]

/-- what a reachable interpolated ensemble stores -/
theorem interp_stored {e : Ens K} (h : Reach .interp e) : ∃ x out, e.frozen = frozenOf interpCls [("xvals", vec x)] [x.length] out e.frozen.shape ∧
    2 ≤ x.length ∧ ∀ r ∈ out, ∃ row, r = [row] ∧ row.length = x.length ∧ liftRow (interpNorm x) row = .ok row := by
  obtain ⟨mo, ws, out, hs⟩ := reach_stored h
  obtain ⟨m', hm', hmo, hws, hnorm⟩ := hs.fixed.fix
  simp only [RowKind.cls] at hmo hws hnorm hm'
  cases hb : grid1 m' "xvals" with
  | error _ => simp [interpCls, hb, Bind.bind, Except.bind] at hmo
  | ok x =>
    simp only [interpCls, hb, Bind.bind, Except.bind] at hmo hws
    split_ifs at hmo with h0
    obtain rfl := Except.ok.inj hmo
    split_ifs at hws with h1
    subst h1
    have hm2 : m' = [("xvals", .arr (vec x)), ("check_input", .py (.bool true))] := by
      have : (interpCls (K := K)).metaArgs.mapM (argVal (metaDict [("xvals", vec x)]))
          = .ok [("xvals", .arr (vec x)), ("check_input", .py (.bool true))] := by
        simp [interpCls, argVal, metaDict, get?_cons, get?_nil, checkInputArg, Bind.bind, Except.bind, pure, Except.pure]
      exact (Except.ok.inj (this.symm.trans hm')).symm
    refine ⟨x, out, hs.frozen, ?_, ?_⟩
    · omega
    · intro r hr
      have hl := hs.fixed.len r hr
      obtain ⟨row, rfl⟩ := List.length_eq_one_iff.1 (show r.length = 1 by simpa using congrArg List.length hl)
      refine ⟨row, rfl, by simpa using hl, ?_⟩
      have := hnorm [row] hr
      simp only [interpCls, hb, Bind.bind, Except.bind] at this
      cases hl : liftRow (interpNorm x) row with
      | error _ => simp [hl, Bind.bind, Except.bind] at this
      | ok y =>
        simp [hl, Bind.bind, Except.bind, pure, Except.pure] at this
        rw [this]

theorem metaGrid_interp (x : List K) (ws : List ℕ) (out : List (List (List (Elem K)))) (s : List ℕ) :
    metaGrid (frozenOf interpCls [("xvals", vec x)] ws out s).metadata "xvals" = x := by
  simp [metaGrid, frozenOf, classMeta, get?_cons, Val.toArr, Arr.expand0, vec, finites_nums]

/-- a stored row is finite or `nan` throughout -/
theorem liftRow_fix {f : List K → Option (List K)} {row : List (Elem K)} (h : liftRow f row = .ok row) :
    (∃ r, row = nums r) ∨ row = nanRow row := by
  cases hf : finites row with
  | some r => exact Or.inl ⟨r, (finites_some_iff _ _).1 hf⟩
  | none =>
    right
    unfold liftRow at h
    rw [hf] at h
    cases ha : allNum row with
    | false => simp [ha] at h
    | true => simp [ha] at h; exact h.symm

/-- **C58**, interpolated distributions. Converting an interpolated ensemble - however it was built, sliced, appended to, with
non-finite rows or not - to an interpolated ensemble on its own (increasing) grid gives back the same distribution object (without
the ancillary data). -/
theorem C58_interp (e : Ens K) (hr : Reach .interp e) (x : List K) (hx : metaGrid e.frozen.metadata "xvals" = x)
    (hs : x.Pairwise (· < ·)) (g h : Frozen K → Val K → Except Err (Arr (Elem K))) :
    convertTo (interpPy ⟨ensArr interpPdfElem, g, h⟩) e none [("xvals", .arr (vec x))]
      = .ok ⟨rowCreate interpCls, rowCreate interpCls, e.frozen, none⟩ := by
  have hnp := reach_npdf hr
  obtain ⟨x', out, hfr, h2, hrows⟩ := interp_stored hr
  obtain rfl : x' = x := by rw [← hx, hfr, metaGrid_interp]
  have hnp' : out.length = e.frozen.shape.prod := by
    rw [← hnp]
    conv_rhs => rw [hfr]
    rfl
  have hex : ∀ i, ∃ p : List (Elem K), ∀ (hi : i < out.length), out[i] = [p] ∧ p.length = x'.length ∧ liftRow (interpNorm x') p = .ok p := by
    intro i
    by_cases hi : i < out.length
    · obtain ⟨row, h3, h4, h5⟩ := hrows _ (List.getElem_mem hi)
      exact ⟨row, fun _ => ⟨h3, h4, h5⟩⟩
    · exact ⟨[], fun h => absurd h hi⟩
  choose P hP using hex
  have hout : out = (List.range e.frozen.shape.prod).map fun i => [P i] := by
    apply List.ext_getElem
    · simp [hnp']
    · intro i h1 _
      simp only [List.getElem_map, List.getElem_range]
      exact (hP i h1).1
  have hrow : ∀ i < e.frozen.shape.prod, tableRow e.frozen i "yvals" = P i := by
    intro i hi
    rw [hfr]
    unfold tableRow
    have : Dict.get? (frozenOf interpCls [("xvals", vec x')] [x'.length] out e.frozen.shape).objdata "yvals"
        = some (.arr (tab out x'.length 0)) := by
      simp [frozenOf, interpCls, storeRows, get?_cons, tab]
    rw [this]
    simp only
    have hlen : ∀ r ∈ out, r.map List.length = [x'.length] := by
      intro r hr'
      obtain ⟨row', rfl, h6, -⟩ := hrows r hr'
      simp [h6]
    have := tab_row hlen 0 (by simp) i (by omega)
    simp only [List.getElem_cons_zero] at this
    rw [this, (hP i (by omega)).1]
    rfl
  have hpdf : ensArr interpPdfElem e.frozen (.arr (vec x')) = .ok ⟨e.frozen.shape ++ [x'.length], ((List.range e.frozen.shape.prod).map P).flatten⟩ := by
    unfold ensArr
    simp only [Val.toArr]
    rw [show (vec x').data = nums x' from rfl, finites_nums]
    simp only [show (vec x').shape = [x'.length] from rfl]
    unfold ensEval
    rw [Evaluation.C01_shared_grid_partial _ _ _ (Or.inl hs)]
    simp only [Bind.bind, Except.bind]
    congr 3
    unfold Evaluation.SharedSpec
    rw [hnp]
    apply List.map_congr_left
    intro i hi
    have hi := List.mem_range.1 hi
    obtain ⟨-, h4, h5⟩ := hP i (by omega)
    have hev : ∀ v, interpPdfElem e.frozen.metadata (tableRow e.frozen i) v = .num ((finites (P i)).bind fun r => interpPdf x' r v) := by
      intro v
      simp only [interpPdfElem, interpEval]
      rw [hrow i hi, hx]
    simp only [hev]
    rcases liftRow_fix h5 with ⟨r, hr'⟩ | hn
    · rw [hr'] at h4 ⊢
      simp only [finites_nums, Option.bind_some]
      have hl : r.length = x'.length := by simpa [nums] using h4
      have h15 := (InterpPdf.C15_pdf_through_points x' r ⟨hs, hl.symm, by omega⟩).1
      apply List.ext_getElem?
      intro j
      by_cases hj : j < x'.length
      · have e1 : x'[j]? = some x'[j] := List.getElem?_eq_getElem hj
        have e2 : r[j]? = some (r[j]'(by omega)) := List.getElem?_eq_getElem (by omega)
        simp only [nums, List.getElem?_map, e1, e2, Option.map_some]
        rw [h15 j _ _ e1 e2]
      · rw [List.getElem?_eq_none (by simpa using hj), List.getElem?_eq_none (by simp [nums]; omega)]
    · have hne : P i ≠ [] := by
        intro h0
        rw [h0] at h4
        simp at h4
        omega
      have hf : finites (P i) = none := by
        rw [hn]
        exact finites_nanRow_ne hne
      simp only [hf, Option.bind_none]
      rw [hn]
      apply List.ext_getElem
      · simp [nanRow, h4]
      · intro j _ _
        simp [nanRow]
  unfold convertTo
  simp only [interpPy, get_single, extractValsAtX, needKwd, get?_cons, if_true, Bind.bind, Except.bind, hpdf]
  unfold mkEns
  rw [interp_create x' h2 e.frozen.shape P P (fun i hi => (hP i (by omega)).2.1) (fun i hi => (hP i (by omega)).2.2), ← hout, ← hfr]
  rfl

/-- **C58 is violated** for histograms with bins of different width: an ensemble with bins 0, 1, 3 is changed by the conversion to its
own bins (its first PDF is uniform on [0, 3], with probability 1/3 in the first bin; afterwards it has 1/5). -/
theorem C58_unequal_bins_wrong : ∃ (e e' : Ens ℚ), Reach .hist e ∧ metaGrid e.frozen.metadata "bins" = [0, 1, 3] ∧
    convertTo (histPy ⟨ensArr histCdfElem, ensArr histCdfElem, ensArr histCdfElem⟩) e none [("bins", .arr (vec [0, 1, 3]))] = .ok e' ∧
    tableRow e.frozen 0 "pdfs" = nums [1 / 3, 1 / 3] ∧ tableRow e'.frozen 0 "pdfs" = nums [1 / 5, 2 / 5] := by
  have hr := histReach none rfl
  have hm : metaGrid (histEns none).frozen.metadata "bins" = ([0, 1, 3] : List ℚ) := by decide +kernel
  refine ⟨histEns none, ⟨rowCreate histCls, rowCreate histCls, frozenOf histCls [("bins", vec [0, 1, 3])] [2]
      [[nums [1 / 5, 2 / 5]], [nums [1, 0]], [nums [0, 1 / 2]]] [3], none⟩, hr, hm, ?_, by decide +kernel, by decide +kernel⟩
  have h := hist_conversion ⟨ensArr histCdfElem, ensArr histCdfElem, ensArr histCdfElem⟩ (histEns none) [0, 1, 3] (by decide)
    (fun i x => (histCdf [0, 1, 3] ([[1 / 3, 1 / 3], [1, 0], [0, 1 / 2]].getD i []) x).getD 0) (by decide) (by decide +kernel)
    (fun i => [[1 / 5, 2 / 5], [1, 0], [0, 1 / 2]].getD i []) (by decide +kernel)
  rw [h]
  rfl

/-- the hypotheses of `C58_hist_partial` are met by an ensemble with two different rows -/
def eqData : Dict ℚ := [("bins", qarr [3] [0, 1, 2]), ("pdfs", qarr [2, 2] [1, 1, 2, 0])]
def eqFrozen : Frozen ℚ := frozenOf histCls [("bins", vec [0, 1, 2])] [2] [[nums [1 / 2, 1 / 2]], [nums [1, 0]]] [2]
theorem eqReach : Reach .hist (⟨rowCreate histCls, rowCreate histCls, eqFrozen, none⟩ : Ens ℚ) := by
  have h : rowCreate histCls eqData = .ok eqFrozen := by decide +kernel
  refine .made (data := eqData) (ancil := none) ⟨?_, ?_, ?_⟩
  · show mkEns (rowCreate histCls) (rowCreate histCls) eqData none = _
    simp [mkEns, h, checkArrayShapes, Bind.bind, Except.bind]
  · intro v hv
    have : Dict.get? eqData "bins" = some (qarr [3] [0, 1, 2]) := by decide +kernel
    rw [this] at hv
    obtain rfl := Option.some.inj hv
    decide
  · intro p hp
    simp only [eqData, List.mem_cons, List.not_mem_nil, or_false] at hp
    rcases hp with rfl | rfl <;> decide

example : convertTo (histPy ⟨ensArr histCdfElem, ensArr histCdfElem, ensArr histCdfElem⟩) (⟨rowCreate histCls, rowCreate histCls, eqFrozen, none⟩ : Ens ℚ)
    none [("bins", .arr (vec [0, 1, 2]))] = .ok ⟨rowCreate histCls, rowCreate histCls, eqFrozen, none⟩ := by
  refine C58_hist_partial _ eqReach [0, 1, 2] (by decide +kernel) (by decide +kernel) ⟨1, ?_⟩ (by decide) ?_ _ _
  · intro i a b ha hb
    match i with
    | 0 | 1 => simp at ha hb; subst ha hb; norm_num
    | i + 2 => simp at hb
  · intro i hi
    match i, hi with
    | 0, _ => decide +kernel
    | 1, _ => decide +kernel
    | i + 2, hi => exact absurd hi (by simp [eqFrozen, frozenOf])

/-- and those of `C58_interp` by one with a row of zeros, which is stored as `nan` -/
def ipData : Dict ℚ := [("xvals", qarr [3] [0, 1, 3]), ("yvals", qarr [2, 3] [0, 1, 0, 0, 0, 0])]
def ipFrozen : Frozen ℚ := frozenOf interpCls [("xvals", vec [0, 1, 3])] [3] [[nums [0, 2 / 3, 0]], [[.num none, .num none, .num none]]] [2]
theorem ipReach : Reach .interp (⟨rowCreate interpCls, rowCreate interpCls, ipFrozen, none⟩ : Ens ℚ) := by
  have h : rowCreate interpCls ipData = .ok ipFrozen := by decide +kernel
  refine .made (data := ipData) (ancil := none) ⟨?_, trivial, ?_⟩
  · show mkEns (rowCreate interpCls) (rowCreate interpCls) ipData none = _
    simp [mkEns, h, checkArrayShapes, Bind.bind, Except.bind]
  · intro p hp
    simp only [ipData, List.mem_cons, List.not_mem_nil, or_false] at hp
    rcases hp with rfl | rfl <;> decide

example : convertTo (interpPy ⟨ensArr interpPdfElem, ensArr interpPdfElem, ensArr interpPdfElem⟩)
    (⟨rowCreate interpCls, rowCreate interpCls, ipFrozen, none⟩ : Ens ℚ)
    none [("xvals", .arr (vec [0, 1, 3]))] = .ok ⟨rowCreate interpCls, rowCreate interpCls, ipFrozen, none⟩ :=
  C58_interp _ ipReach [0, 1, 3] (by decide +kernel) (by decide +kernel) _ _

/-- `C56_npdf` on this ensemble: two PDFs stay two PDFs -/
example (e' : Ens ℚ) (h : convertTo (quantPy ⟨ensArr interpPdfElem, ensArr interpPdfElem, ensArr interpPdfElem⟩)
    ⟨rowCreate interpCls, rowCreate interpCls, ipFrozen, none⟩ none [("quants", .arr (vec [0, 1 / 2, 1]))] = .ok e') :
    e'.frozen.npdf = 2 ∧ e'.frozen.shape = [2] :=
  C56_npdf _ (shaped_rows interpPdfElem interpPdfElem interpPdfElem) (fun _ r => .ok (r, .num none)) _ "quants" (by simp) _ e' rfl none _ (.arr (vec [0, 1 / 2, 1])) 3
    (by simp [get?_cons]) rfl h

end Verif.Props.Convert
