import Verif.Model.Plot
import Verif.Props.SliceEval
import Verif.Props.EndToEnd

/-!
# C109: what a plot shows
-/

set_option linter.unusedSectionVars false
set_option autoImplicit false

namespace Verif.Props.Plot

open Verif Verif.Np Verif.Model Verif.Spec Verif.Lemmas Verif.Props.ExEns Verif.Props.State Verif.Props.SliceEval

variable {K : Type} [Field K] [LinearOrder K] [IsStrictOrderedRing K] {β : Type}

/-- the axes a plot is drawn on and the two numbers between which the curve is drawn: the given axes and their limits, or new axes over the given range -/
inductive Limits : PlotArgs K → K × K → K → K → Prop
  | existing (ax : K × K) (n : Option ℕ) (o : List String) : Limits ⟨some ax, none, n, o⟩ ax ax.1 ax.2
  | new (u v : K) (n : Option ℕ) (o : List String) : Limits ⟨none, some [u, v], n, o⟩ (u, v) u v

theorem limits_getAxes {a : PlotArgs K} {ax : K × K} {u v : K} (h : Limits a ax u v) : getAxes a = .ok (ax, [u, v]) := by
  cases h <;> simp [getAxes]

theorem one_row (k : RowKind) {e e' : Ens K} (h : Reach k e) (i : ℕ) (hi : i < e.frozen.npdf) (hg : getItem e (.int i) = .ok e') (f : Dict K → (String → List (Elem K)) → K → β)
    (x : List K) : e'.frozen.npdf = 1 ∧ e'.frozen.metadata = e.frozen.metadata ∧ tableRow e'.frozen 0 = tableRow e.frozen i ∧
      ensEval f e'.frozen x = .ok [x.map (f e.frozen.metadata (tableRow e.frozen i))] := by
  obtain ⟨s, hr, hsel, hlt⟩ := select_ok k h _ hg
  have : (Key.int (i : ℤ)).resolve e.frozen.npdf = .ok (.one i) := ((Verif.Props.Select.C32_int_key e.frozen.npdf i).1 i).2 ⟨hi, Or.inl rfl⟩
  rw [this] at hr
  obtain rfl := Except.ok.inj hr
  have hn : e'.frozen.npdf = 1 := by rw [hsel.npdf]; rfl
  have ht : tableRow e'.frozen 0 = tableRow e.frozen i := tableRow_selects h hsel 0 (by simp [selRows])
  refine ⟨hn, hsel.metadata, ht, ?_⟩
  rw [ensEval, Evaluation.C01_shared_grid_partial _ _ _ (Or.inr (Or.inr (by omega)))]
  simp [Evaluation.SharedSpec, hn, hsel.metadata, ht]

/-- **C109: one PDF (partial).** `ens.plot(i)` on given axes, or with a range for new axes, draws one curve: `npts` points (101 unless given) from one end of the
range to the other at equal distances, each at the height of the density of PDF `i` there. This holds for all row classes, any range (also a reversed one), and
keyword arguments that matplotlib knows for lines. Missing: several PDFs at once (`C109_several`) and labels (`C109_label`). -/
theorem C109_curve_partial (k : RowKind) {e e' : Ens K} (h : Reach k e) (i : ℕ) (hi : i < e.frozen.npdf) (hg : getItem e (.int i) = .ok e')
    (f : Dict K → (String → List (Elem K)) → K → β) (isProp : String → Bool) (a : PlotArgs K) (ax : K × K) (u v : K) (hl : Limits a ax u v)
    (ho : ∀ o ∈ a.others, isProp o = true) :
    ∃ curve, ensPlot isProp f e (.int i) a = .ok (ax, [curve]) ∧ curve.length = a.npts.getD 101 ∧
      (∀ t y, (t, y) ∈ curve → y = f e.frozen.metadata (tableRow e.frozen i) t) ∧
      ((curve.map Prod.fst).head? = if a.npts.getD 101 = 0 then none else some u) ∧
      (2 ≤ a.npts.getD 101 → (curve.map Prod.fst).getLast? = some v ∧
        ∃ d, ∀ (j : ℕ) s t, (curve.map Prod.fst)[j]? = some s → (curve.map Prod.fst)[j+1]? = some t → t - s = d) := by
  obtain ⟨h1, h2, h3, h4⟩ := one_row k h i hi hg f (Np.linspace u v (a.npts.getD 101))
  set n := a.npts.getD 101 with hn
  set x := Np.linspace u v n with hx
  have hxl : x.length = n := Np.length_linspace _ _ _
  set c := x.zip (x.map (f e.frozen.metadata (tableRow e.frozen i))) with hc
  have hfst : c.map Prod.fst = x := by rw [hc, List.map_fst_zip (by simp)]
  refine ⟨c, ?_, by simp [hc, hxl], ?_, ?_, ?_⟩
  · have hall : a.others.all isProp = true := by simpa [List.all_eq_true] using ho
    simp only [ensPlot, hg, plotDist, limits_getAxes hl, bind, Except.bind, ← hn, ← hx, h4, axesPlot, squeeze2]
    rw [if_pos (Or.inl (by simp))]
    simp [hall, hc]
  · intro t y hty
    rw [hc, List.mem_iff_getElem] at hty
    obtain ⟨j, hj, hje⟩ := hty
    rw [List.getElem_zip, List.getElem_map, Prod.mk.injEq] at hje
    rw [← hje.1, ← hje.2]
  · rw [hfst]
    split_ifs with h0
    · rw [hx, h0]; rfl
    · by_cases hn1 : n = 1
      · rw [hx, hn1]; simp [Np.linspace]
      · rw [List.head?_eq_getElem?, hx, Np.getElem?_linspace _ _ _ hn1 0 (by omega)]; simp
  · intro h2n
    rw [hfst]
    have hn1 : ((n : K) - 1) ≠ 0 := by
      have : (2 : K) ≤ n := by exact_mod_cast h2n
      intro h; linarith
    constructor
    · rw [List.getLast?_eq_getElem?, hxl, hx, Np.getElem?_linspace _ _ _ (by omega) _ (by omega), Nat.cast_sub (by omega)]
      congr 1
      push_cast
      field_simp
      ring
    · refine ⟨(v - u) / ((n : K) - 1), fun j s t hs ht => ?_⟩
      have hj : j + 1 < n := by have := (List.getElem?_eq_some_iff.1 ht).1; rwa [hxl] at this
      rw [hx, Np.getElem?_linspace _ _ _ (by omega) _ (by omega)] at hs ht
      obtain rfl := Option.some.inj hs
      obtain rfl := Option.some.inj ht
      push_cast
      ring

/-- **C109: axes or a range.** With neither or with both, nothing is drawn and `ValueError` is raised. -/
theorem C109_limits (isProp : String → Bool) (f : Dict K → (String → List (Elem K)) → K → β) (e e' : Ens K) (key : Key) (hg : getItem e key = .ok e') (a : PlotArgs K)
    (h : a.axes.isSome = a.xlim.isSome) : ensPlot isProp f e key a = .error .ValueError := by
  obtain ⟨ax, xl, n, o⟩ := a
  cases ax <;> cases xl <;> simp_all [ensPlot, plotDist, getAxes, bind, Except.bind]

/-- **C109: a range of more than two numbers.** New axes reach from the first to the last number, the curve only from the first to the second. -/
theorem C109_long_range (isProp : String → Bool) (ev : List K → Except Err (List (List β))) (u v : K) (xl : List K) (n : Option ℕ) (o : List String) :
    (∃ err, plotDist isProp ev ⟨none, some (u :: v :: xl), n, o⟩ = .error err) ∨
      ∃ curves, plotDist isProp ev ⟨none, some (u :: v :: xl), n, o⟩ = .ok ((u, (u :: v :: xl).getLast (by simp)), curves) ∧
        plotDist isProp ev ⟨none, some [u, v], n, o⟩ = .ok ((u, v), curves) := by
  simp only [plotDist, getAxes, bind, Except.bind]
  cases ev (Np.linspace u v (n.getD 101)) with
  | error err => exact Or.inl ⟨err, rfl⟩
  | ok y =>
    simp only
    cases axesPlot isProp o (Np.linspace u v (n.getD 101)) y with
    | error err => exact Or.inl ⟨err, rfl⟩
    | ok c => exact Or.inr ⟨c, rfl, rfl⟩

/-- **C109: several PDFs.** A selection of two or more PDFs is not drawn: `ValueError`, unless the number of points is the number of PDFs. -/
theorem C109_several {e e' : Ens K} (key : Key) (hg : getItem e key = .ok e') (h2 : 2 ≤ e'.frozen.npdf)
    (f : Dict K → (String → List (Elem K)) → K → β) (isProp : String → Bool) (a : PlotArgs K) (ax : K × K) (u v : K) (hl : Limits a ax u v)
    (hn : a.npts.getD 101 ≠ e'.frozen.npdf) : ensPlot isProp f e key a = .error .ValueError := by
  have hev : ∀ x : List K, ∃ y : List (List β), ensEval f e'.frozen x = .ok y ∧ y.length = e'.frozen.npdf ∧ (x.length = 1 → y.flatten.length = e'.frozen.npdf) := by
    intro x
    rw [ensEval, Evaluation.C01_shared_grid_exact]
    refine ⟨_, rfl, by simp [Evaluation.SharedSpec], fun h1 => ?_⟩
    obtain ⟨t, rfl⟩ := List.length_eq_one_iff.1 h1
    simp [Evaluation.SharedSpec, List.length_flatten, Function.comp_def]
  obtain ⟨y, hy, hyl, hy1⟩ := hev (Np.linspace u v (a.npts.getD 101))
  have hxl : (Np.linspace u v (a.npts.getD 101)).length = a.npts.getD 101 := Np.length_linspace _ _ _
  simp only [ensPlot, hg, plotDist, limits_getAxes hl, bind, Except.bind, hy, axesPlot, squeeze2]
  by_cases h1 : a.npts.getD 101 = 1
  · rw [if_pos (Or.inr (by rw [hxl, h1]))]
    simp only
    rw [if_pos (by rw [hy1 (by rw [hxl, h1]), hxl]; exact hn)]
  · rw [if_neg (by rw [hxl, hyl]; omega)]
    simp only
    rw [if_pos (by rw [hyl, hxl]; exact hn)]

/-- **C109: as many points as PDFs.** With as many points as selected PDFs something is drawn, but not the densities: curve `j` is made of the heights of all
the densities at point number `j`, drawn at the points in turn. -/
theorem C109_transposed {e e' : Ens K} (key : Key) (hg : getItem e key = .ok e') (h2 : 2 ≤ e'.frozen.npdf)
    (f : Dict K → (String → List (Elem K)) → K → β) (isProp : String → Bool) (a : PlotArgs K) (ax : K × K) (u v : K) (hl : Limits a ax u v) (huv : u < v)
    (hn : a.npts.getD 101 = e'.frozen.npdf) (ho : ∀ o ∈ a.others, isProp o = true) :
    ∃ curves, ensPlot isProp f e key a = .ok (ax, curves) ∧ curves.length = e'.frozen.npdf ∧
      ∀ (i j : ℕ) s t y, (Np.linspace u v e'.frozen.npdf)[i]? = some s → (Np.linspace u v e'.frozen.npdf)[j]? = some t →
        ((curves.getD j [])[i]? = some (s, y) ↔ y = f e'.frozen.metadata (tableRow e'.frozen i) t) := by
  set n := e'.frozen.npdf with hnn
  set x := Np.linspace u v n with hx
  have hxl : x.length = n := Np.length_linspace _ _ _
  have hall : a.others.all isProp = true := by simpa [List.all_eq_true] using ho
  have hev : ensEval f e'.frozen x = .ok ((List.range n).map fun i => x.map (f e'.frozen.metadata (tableRow e'.frozen i))) := by
    rw [ensEval, Evaluation.C01_shared_grid_partial _ _ _ (Or.inl (Np.linspace_pairwise _ _ _ h2 huv))]
    rfl
  refine ⟨(List.range x.length).map fun j => x.zip (((List.range n).map fun i => x.map (f e'.frozen.metadata (tableRow e'.frozen i))).filterMap fun r => r[j]?), ?_, ?_, ?_⟩
  · simp only [ensPlot, hg, plotDist, limits_getAxes hl, bind, Except.bind, hn, ← hx, hev, axesPlot, squeeze2]
    rw [if_neg (by simp [hxl]; omega)]
    simp only
    rw [if_neg (by simp [hxl]), if_pos hall]
  · simp [hxl]
  · intro i j s t y hs ht
    have hi : i < n := by have := (List.getElem?_eq_some_iff.1 hs).1; rwa [hxl] at this
    have hj : j < n := by have := (List.getElem?_eq_some_iff.1 ht).1; rwa [hxl] at this
    have hcol : ((List.range n).map fun i => x.map (f e'.frozen.metadata (tableRow e'.frozen i))).filterMap (fun r => r[j]?) =
        (List.range n).map fun i => f e'.frozen.metadata (tableRow e'.frozen i) t := by
      rw [List.filterMap_map, ← List.filterMap_eq_map]
      apply List.filterMap_congr
      intro i _
      simp [ht]
    rw [List.getD_eq_getElem?_getD, List.getElem?_map, hxl, List.getElem?_range hj]
    simp only [Option.map_some, Option.getD_some, hcol]
    rw [List.getElem?_zip_eq_some]
    simp only [hs, List.getElem?_map, List.getElem?_range hi, Option.map_some, Option.some.injEq, true_and]
    exact eq_comm

/-- **C109: labels.** The axis labels that `plot` takes for a new figure are also handed to the curve: unless matplotlib has lines with a property of that name,
`AttributeError` is raised. -/
theorem C109_label (k : RowKind) {e e' : Ens K} (h : Reach k e) (i : ℕ) (hi : i < e.frozen.npdf) (hg : getItem e (.int i) = .ok e')
    (f : Dict K → (String → List (Elem K)) → K → β) (isProp : String → Bool) (u v : K) (n : Option ℕ) (label : String) (hp : isProp label = false) (o : List String)
    (ho : label ∈ o) : ensPlot isProp f e (.int i) ⟨none, some [u, v], n, o⟩ = .error .AttributeError := by
  obtain ⟨h1, h2, h3, h4⟩ := one_row k h i hi hg f (Np.linspace u v (n.getD 101))
  have hall : o.all isProp = false := by rw [List.all_eq_false]; exact ⟨label, ho, by simp [hp]⟩
  simp only [ensPlot, hg, plotDist, getAxes, bind, Except.bind, h4, axesPlot, squeeze2]
  rw [if_pos (Or.inl (by simp))]
  simp [hall]

/-! ## the native plots -/

/-- **C109: the native plot of an interpolated PDF** is one curve through its stored points, on the axes asked for. (`npts` must not be given: it would be handed
to the curve.) -/
theorem C109_interp_native {e e' : Ens K} (h : Reach .interp e) (i : ℕ) (hi : i < e.frozen.npdf) (hg : getItem e (.int i) = .ok e') (xs ys : List K)
    (hx : metaGrid e.frozen.metadata "xvals" = xs) (hy : finites (tableRow e.frozen i "yvals") = some ys) (hgr : InterpPdf.XGrid xs ys.length)
    (isProp : String → Bool) (a : PlotArgs K) (ax : K × K) (u v : K) (hl : Limits a ax u v) (hnp : a.npts = none) (ho : ∀ o ∈ a.others, isProp o = true) :
    interpPlotNative isProp e (.int i) a = .ok (ax, [xs.zip (ys.map some)]) := by
  obtain ⟨h1, h2, h3, h4⟩ := one_row .interp h i hi hg interpEval xs
  have hall : a.rest.all isProp = true := by simpa [PlotArgs.rest, hnp, List.all_eq_true] using ho
  have hv : xs.map (interpEval e.frozen.metadata (tableRow e.frozen i)) = ys.map some := by
    have h15 := (InterpPdf.C15_pdf_through_points xs ys hgr).1
    apply List.ext_getElem
    · simp [hgr.size]
    · intro j j1 j2
      simp only [List.length_map] at j1 j2
      rw [List.getElem_map, List.getElem_map, interpEval, hy, hx]
      exact h15 j _ _ (List.getElem?_eq_getElem j1) (List.getElem?_eq_getElem j2)
  simp only [interpPlotNative, gridPlotNative, hg, limits_getAxes hl, bind, Except.bind, h2, hx, h4, axesPlot, squeeze2]
  rw [if_pos (Or.inl (by simp))]
  simp [hall, hv, hgr.size]

theorem centres_length : ∀ edges : List K, (binCentres edges).length = edges.length - 1
  | [] => rfl
  | [_] => rfl
  | a :: b :: t => by simp [binCentres, centres_length (b :: t)]

theorem centres_between : ∀ (edges : List K), edges.Pairwise (· < ·) → ∀ c ∈ binCentres edges, ∀ a, edges.head? = some a → a < c
  | [], _, c, hc, _, _ => by simp [binCentres] at hc
  | [_], _, c, hc, _, _ => by simp [binCentres] at hc
  | a :: b :: t, hs, c, hc, a', ha => by
    obtain rfl : a = a' := by simpa using ha
    have hab : a < b := (List.pairwise_cons.1 hs).1 b (by simp)
    simp only [binCentres, List.mem_cons] at hc
    rcases hc with rfl | hc
    · linarith
    · exact hab.trans (centres_between (b :: t) (List.pairwise_cons.1 hs).2 c hc b rfl)

/-- the weight found between two edges is the weight given to the centre of that bin -/
theorem bars_exact : ∀ (edges w : List K), edges.Pairwise (· < ·) → edges.length = w.length + 1 → ∀ pre : List (K × K),
    (∀ p ∈ pre, ∀ a, edges.head? = some a → p.1 < a) →
    ((binsOf edges).map fun b => (b.1, b.2.1,
      (((pre ++ (binCentres edges).zip w).filter fun p => decide (b.1 ≤ p.1 ∧ (p.1 < b.2.1 ∨ b.2.2 = true ∧ p.1 = b.2.1))).map Prod.snd).sum)) =
      edges.zip (edges.tail.zip w)
  | [], w, _, hl, _, _ => by simp at hl
  | [_], w, _, hl, _, _ => by
    obtain rfl : w = [] := by simpa using hl
    simp [binsOf]
  | a :: b :: t, [], _, hl, _, _ => by simp at hl
  | a :: b :: t, p :: w, hs, hl, pre, hpre => by
    have hab : a < b := (List.pairwise_cons.1 hs).1 b (by simp)
    have hpre' : ∀ (r : Bool), pre.filter (fun q => decide (a ≤ q.1 ∧ (q.1 < b ∨ r = true ∧ q.1 = b))) = [] := by
      intro r
      rw [List.filter_eq_nil_iff]
      intro q hq
      have := hpre q hq a rfl
      simp only [decide_eq_true_eq, not_and]
      intro h; exact absurd h (not_le.2 this)
    cases t with
    | nil =>
      obtain rfl : w = [] := by simpa using hl
      have h1 := hpre' true
      have h2 : a ≤ (a + b) / 2 := by linarith
      have h3 : (a + b) / 2 < b := by linarith
      simp only [true_and] at h1
      simp only [binsOf, binCentres, List.zip_cons_cons, List.zip_nil_left, List.map_cons, List.map_nil, List.tail_cons, List.filter_append, true_and, h1,
        List.nil_append]
      rw [List.filter_cons_of_pos (by simp [h2, h3])]
      simp
    | cons c t =>
      have hs' := (List.pairwise_cons.1 hs).2
      have hbin : binsOf (a :: b :: c :: t) = (a, b, false) :: binsOf (b :: c :: t) := rfl
      have hcen : binCentres (a :: b :: c :: t) = ((a + b) / 2) :: binCentres (b :: c :: t) := rfl
      rw [hbin, hcen, List.map_cons, List.zip_cons_cons]
      have hrest : ((binCentres (b :: c :: t)).zip w).filter (fun q => decide (a ≤ q.1 ∧ (q.1 < b ∨ false = true ∧ q.1 = b))) = [] := by
        rw [List.filter_eq_nil_iff]
        intro q hq
        have := centres_between (b :: c :: t) hs' q.1 (List.of_mem_zip hq).1 b rfl
        simp only [decide_eq_true_eq, not_and, not_or]
        intro _
        exact ⟨not_lt.2 this.le, by simp⟩
      have ih := bars_exact (b :: c :: t) w hs' (by simpa using hl) (pre ++ [((a + b) / 2, p)]) (by
        intro q hq a' ha'
        obtain rfl : b = a' := by simpa using ha'
        rw [List.mem_append, List.mem_singleton] at hq
        rcases hq with hq | rfl
        · exact (hpre q hq a rfl).trans hab
        · simp only; linarith)
      rw [List.append_assoc, List.singleton_append] at ih
      rw [ih]
      simp only [List.filter_append, hpre' false, List.nil_append, List.tail_cons, List.zip_cons_cons]
      rw [List.filter_cons_of_pos (by simp; constructor <;> linarith), hrest]
      simp

/-- **C109: the native plot of a histogram** marks the bin edges and draws over each bin a bar as high as the density stored for the bin. -/
theorem C109_hist_native {e e' : Ens K} (h : Reach .hist e) (i : ℕ) (hi : i < e.frozen.npdf) (hg : getItem e (.int i) = .ok e') (edges p : List K)
    (hx : metaGrid e.frozen.metadata "bins" = edges) (hy : finites (tableRow e.frozen i "pdfs") = some p) (hs : edges.Pairwise (· < ·)) (hlen : edges.length = p.length + 1)
    (isProp : String → Bool) (a : PlotArgs K) (ax : K × K) (u v : K) (hl : Limits a ax u v) (hnp : a.npts = none) (ho : ∀ o ∈ a.others, isProp o = true) :
    histPlotNative isProp e (.int i) a = .ok (some (ax, edges, edges.zip (edges.tail.zip p))) := by
  obtain ⟨h1, h2, h3, h4⟩ := one_row .hist h i hi hg (fun _ _ _ => ()) []
  have hall : a.rest.all isProp = true := by simpa [PlotArgs.rest, hnp, List.all_eq_true] using ho
  have hm : ((List.range e'.frozen.npdf).mapM fun i => finites (tableRow e'.frozen i "pdfs")) = some [p] := by
    rw [h1]
    simp [List.range_succ, h3, hy]
  simp only [histPlotNative, hg, limits_getAxes hl, bind, Except.bind, h2, hx, hm, squeeze2]
  rw [if_pos (Or.inl (by simp))]
  simp only [List.flatten_cons, List.flatten_nil, List.append_nil, axesHist, centres_length]
  rw [if_neg (by omega), if_pos hall]
  have := bars_exact edges p hs hlen [] (by simp)
  simp only [List.nil_append] at this
  rw [this]

/-- **C109: `npts` in native plots.** `plot` takes `npts` as the number of points; the native plots of interpolated PDFs and histograms hand it on, and matplotlib refuses it. The same for every
argument that is not a property of what is drawn. -/
theorem C109_native_npts {e e' : Ens K} (i : ℕ) (hi : i < e.frozen.npdf) (hg : getItem e (.int i) = .ok e') (isProp : String → Bool) (a : PlotArgs K) (ax : K × K) (u v : K) (hl : Limits a ax u v)
    (hbad : (a.npts ≠ none ∧ isProp "npts" = false) ∨ ∃ o ∈ a.others, isProp o = false) :
    (Reach .interp e → interpPlotNative isProp e (.int i) a = .error .AttributeError) ∧
    (∀ p, Reach .hist e → finites (tableRow e.frozen i "pdfs") = some p → (metaGrid e.frozen.metadata "bins").length = p.length + 1 →
      histPlotNative isProp e (.int i) a = .error .AttributeError) := by
  have hall : a.rest.all isProp = false := by
    rw [List.all_eq_false]
    rcases hbad with ⟨h1, h2⟩ | ⟨o, h1, h2⟩
    · refine ⟨"npts", ?_, by simp [h2]⟩
      have : a.npts.isSome = true := Option.isSome_iff_ne_none.2 h1
      simp [PlotArgs.rest, this]
    · exact ⟨o, by simp [PlotArgs.rest, h1], by simp [h2]⟩
  constructor
  · intro h
    obtain ⟨h1, h2, h3, h4⟩ := one_row .interp h i hi hg interpEval (metaGrid e.frozen.metadata "xvals")
    simp only [interpPlotNative, gridPlotNative, hg, limits_getAxes hl, bind, Except.bind, h2, h4, axesPlot, squeeze2]
    rw [if_pos (Or.inl (by simp))]
    simp [hall]
  · intro p h hy hlen
    obtain ⟨h1, h2, h3, h4⟩ := one_row .hist h i hi hg (fun _ _ _ => ()) []
    have hm : ((List.range e'.frozen.npdf).mapM fun i => finites (tableRow e'.frozen i "pdfs")) = some [p] := by
      rw [h1]
      simp [List.range_succ, h3, hy]
    simp only [histPlotNative, hg, limits_getAxes hl, bind, Except.bind, h2, hm, squeeze2]
    rw [if_pos (Or.inl (by simp))]
    simp only [List.flatten_cons, List.flatten_nil, List.append_nil, axesHist, centres_length]
    rw [if_neg (by omega), if_neg (by simp [hall])]

/-- **C109: the native plot of quantiles** marks the stored locations of the PDF (including those that the constructor added) on the axis, and draws the curve that
`plot` draws (`C109_curve_partial`). Marks and curve carry the same label, that of the caller or `Quantiles`: the label meant for the curve is never used. -/
theorem C109_quant_native {e e' : Ens K} (h : Reach .quant e) (i : ℕ) (hi : i < e.frozen.npdf) (hg : getItem e (.int i) = .ok e') (locs : List K)
    (hy : finites (tableRow e.frozen i "locs") = some locs) (f : Dict K → (String → List (Elem K)) → K → β)
    (isProp : String → Bool) (label : Option String) (a : PlotArgs K) (ax : K × K) (u v : K) (hl : Limits a ax u v)
    (ho : ∀ o ∈ a.others, isProp o = true ∧ o ∉ ["marker", "s", "alpha", "lw", "linestyle"]) :
    ∃ curve, ensPlot isProp f e (.int i) a = .ok (ax, [curve]) ∧
      quantPlotNative isProp f label e (.int i) a = .ok (some ⟨ax, locs, label.getD "Quantiles", [curve], label.getD "Quantiles"⟩) := by
  obtain ⟨h1, h2, h3, h4⟩ := one_row .quant h i hi hg f (Np.linspace u v (a.npts.getD 101))
  have hall : a.others.all isProp = true := by rw [List.all_eq_true]; exact fun o hm => (ho o hm).1
  have hm : ((List.range e'.frozen.npdf).mapM fun i => finites (tableRow e'.frozen i "locs")) = some [locs] := by
    rw [h1]
    simp [List.range_succ, h3, hy]
  have hno : ∀ l : List String, (∀ s ∈ l, s ∈ ["marker", "s", "alpha", "lw", "linestyle"]) → l.any (fun s => decide (s ∈ a.others)) = false := by
    intro l hsub
    rw [List.any_eq_false]
    intro s hs
    rw [decide_eq_true_eq]
    exact fun hm => (ho s hm).2 (hsub s hs)
  set x := Np.linspace u v (a.npts.getD 101) with hx
  refine ⟨x.zip (x.map (f e.frozen.metadata (tableRow e.frozen i))), ?_, ?_⟩
  · simp only [ensPlot, hg, plotDist, limits_getAxes hl, bind, Except.bind, ← hx, h4, axesPlot, squeeze2]
    rw [if_pos (Or.inl (by simp))]
    simp [hall]
  · simp only [quantPlotNative, hg, limits_getAxes hl, bind, Except.bind, hm, ← hx, h4, axesPlot, squeeze2]
    rw [hno ["marker", "s", "alpha"] (by simp), hno ["lw", "alpha", "linestyle"] (by simp), hall]
    rw [if_pos (Or.inl (by simp))]
    simp

/-- **C109: line properties of a quantile plot.** Line width, line style, transparency and marks cannot be chosen: `TypeError`. -/
theorem C109_quant_properties {e e' : Ens K} (h : Reach .quant e) (i : ℕ) (hi : i < e.frozen.npdf) (hg : getItem e (.int i) = .ok e') (locs : List K)
    (hy : finites (tableRow e.frozen i "locs") = some locs) (f : Dict K → (String → List (Elem K)) → K → β)
    (isProp : String → Bool) (label : Option String) (a : PlotArgs K) (ax : K × K) (u v : K) (hl : Limits a ax u v) (o : String) (hm : o ∈ a.others)
    (hp : ∀ o ∈ a.others, isProp o = true) (ho : o ∈ ["marker", "s", "alpha", "lw", "linestyle"]) :
    quantPlotNative isProp f label e (.int i) a = .error .TypeError := by
  obtain ⟨h1, h2, h3, h4⟩ := one_row .quant h i hi hg f (Np.linspace u v (a.npts.getD 101))
  have hall : a.others.all isProp = true := by rw [List.all_eq_true]; exact hp
  have hmm : ((List.range e'.frozen.npdf).mapM fun i => finites (tableRow e'.frozen i "locs")) = some [locs] := by
    rw [h1]
    simp [List.range_succ, h3, hy]
  simp only [quantPlotNative, hg, limits_getAxes hl, bind, Except.bind, hmm, h4, hall]
  by_cases hA : (["marker", "s", "alpha"].any (fun s => decide (s ∈ a.others))) = true
  · rw [if_pos hA]
  · rw [if_neg hA, if_neg (by simp), if_pos]
    simp only [List.mem_cons, List.not_mem_nil, or_false] at ho
    simp only [List.any_cons, List.any_nil, Bool.or_false, Bool.or_eq_true, decide_eq_true_eq, not_or] at hA ⊢
    rcases ho with rfl | rfl | rfl | rfl | rfl
    · exact absurd hm hA.1
    · exact absurd hm hA.2.1
    · exact absurd hm hA.2.2
    · exact Or.inl hm
    · exact Or.inr (Or.inr hm)

/-! ## instances -/

private def quantFrozen : Frozen ℚ := (rowCreate quantCls quantData).toOption.getD ⟨[], [], 0, []⟩

private def quantEns : Ens ℚ := ⟨rowCreate quantCls, rowCreate quantCls, quantFrozen, none⟩

private theorem quantReach : Reach .quant quantEns := by
  refine .made (data := quantData) (ancil := none) ⟨?_, ?_, ?_⟩
  · show mkEns (rowCreate quantCls) (rowCreate quantCls) quantData none = _
    have : rowCreate quantCls quantData = .ok quantFrozen := by decide +kernel
    simp only [mkEns, this, Bind.bind, Except.bind]
    rfl
  · intro v hv
    have : Dict.get? quantData "quants" = some (qarr [3] [0, 1/2, 1]) := by decide +kernel
    rw [this] at hv
    obtain rfl := Option.some.inj hv
    decide +kernel
  · show ∀ p ∈ quantData, p.2.toArr.Wf
    decide +kernel

private theorem quantGot : ∃ e', getItem quantEns (.int (1 : ℕ)) = .ok e' := by
  have h := Verif.Props.Select.C32_select_partial .quant quantReach rfl (.int 1)
  have hr : (Key.int 1).resolve quantEns.frozen.npdf = .ok (.one 1) := by decide +kernel
  rw [hr] at h
  simp only [RowKind.cls, quantCls] at h
  obtain ⟨e', he', -⟩ := h
  exact ⟨e', he'⟩

/-- the second of two quantile PDFs: marks at 0, 1 and 4 -/
example := C109_quant_native quantReach 1 (by decide +kernel) quantGot.choose_spec [0, 1, 4] (by decide +kernel) (fun _ _ x => x) (fun _ => true) none
  ⟨some (0, 5), none, some 11, ["color"]⟩ (0, 5) 0 5 (.existing _ _ _) (by simp)

example := C109_quant_properties quantReach 1 (by decide +kernel) quantGot.choose_spec [0, 1, 4] (by decide +kernel) (fun _ _ x => x) (fun _ => true) (some "mine")
  ⟨some (0, 5), none, none, ["lw"]⟩ (0, 5) 0 5 (.existing _ _ _) "lw" (by simp) (by simp) (by simp)

private theorem got : ∃ e', getItem (histEns none) (.int (2 : ℕ)) = .ok e' := by
  have h := Verif.Props.Select.C32_select_partial .hist (histReach none rfl) rfl (.int 2)
  have hr : (Key.int 2).resolve (histEns none).frozen.npdf = .ok (.one 2) := by decide +kernel
  rw [hr] at h
  simp only [RowKind.cls, histCls, Bool.false_eq_true, false_and, if_false] at h
  obtain ⟨e', he', -⟩ := h
  exact ⟨e', he'⟩

/-- a number of points for the native plot of the third of three histograms -/
example : histPlotNative (· != "npts") (histEns none) (.int 2) ⟨some (0, 5), none, some 11, []⟩ = .error .AttributeError :=
  (C109_native_npts 2 (by decide) got.choose_spec (· != "npts") ⟨some (0, 5), none, some 11, []⟩ (0, 5) 0 5 (.existing _ _ _) (Or.inl ⟨by simp, by decide⟩)).2 [0, 1/2] (histReach none rfl)
    (by decide +kernel) (by decide +kernel)

/-- the third of three histograms between 0 and 3 -/
example := C109_curve_partial .hist (histReach none rfl) 2 (by decide) got.choose_spec histEval (fun _ => true) ⟨none, some [0, 3], none, ["color"]⟩ (0, 3) 0 3
  (.new _ _ _ _) (by simp)

/-- four points of it -/
example : (ensPlot (fun _ => true) (fun m r x => (histEval m r x).map Except.toOption) (histEns none) (.int 2) ⟨none, some [0, 3], some 4, []⟩).toOption =
    some ((0, 3), [[(0, some (some 0)), (1, some (some 0)), (2, some (some (1/2))), (3, some (some (1/2)))]]) := by decide +kernel

/-- its bars -/
example := C109_hist_native (histReach none rfl) 2 (by decide) got.choose_spec [0, 1, 3] [0, 1/2] (by decide +kernel) (by decide +kernel) (by decide +kernel) rfl
  (fun _ => true) ⟨some (0, 5), none, none, []⟩ (0, 5) 0 5 (.existing _ _ _) rfl (by simp)

/-- a label for a new figure -/
example := C109_label .hist (histReach none rfl) 2 (by decide) got.choose_spec histEval (fun s => s != "xlabel") 0 3 none "xlabel" (by decide) ["xlabel"] (by simp)

private theorem all3 : ∃ e', getItem (histEns none) (.slice none none none) = .ok e' ∧ e'.frozen.npdf = 3 := by
  have h := Verif.Props.Select.C32_select_partial .hist (histReach none rfl) rfl (.slice none none none)
  have hr : (Key.slice none none none).resolve (histEns none).frozen.npdf = .ok (.many [0, 1, 2]) := by decide +kernel
  rw [hr] at h
  simp only [RowKind.cls, histCls, Bool.false_eq_true, false_and, if_false] at h
  obtain ⟨e', he', hs, -⟩ := h
  exact ⟨e', he', hs.npdf⟩

/-- all three at once: refused with the default number of points, jumbled with three -/
example := C109_several (.slice none none none) all3.choose_spec.1 (by rw [all3.choose_spec.2]; decide) histEval (fun _ => true) ⟨none, some [0, 3], none, []⟩ (0, 3) 0 3
  (.new _ _ _ _) (by rw [all3.choose_spec.2]; decide)

example := C109_transposed (.slice none none none) all3.choose_spec.1 (by rw [all3.choose_spec.2]; decide) histEval (fun _ => true) ⟨none, some [0, 3], some 3, []⟩ (0, 3) 0 3
  (.new _ _ _ _) (by norm_num) (by rw [all3.choose_spec.2]; rfl) (by simp)

end Verif.Props.Plot
