import Verif.Props.Plot
import Verif.Props.PathsExact

/-!
# C109 (second part): native plots of PDFs with their own grids and of splines; C135: plots of samples
-/

set_option linter.unusedSectionVars false
set_option autoImplicit false

namespace Verif.Props.Plot

open Verif Verif.Np Verif.Model Verif.Spec Verif.Lemmas Verif.Props.ExEns Verif.Props.State Verif.Props.SliceEval

variable {K : Type} [Field K] [LinearOrder K] [IsStrictOrderedRing K] {β : Type}

/-! ## Every PDF at its own increasing points -/

theorem eq_of_strict_subset {l m : List K} (hl : l.Pairwise (· < ·)) (hm : m.Pairwise (· < ·)) (h : ∀ x ∈ l, x ∈ m) (hlen : m.length ≤ l.length) : l = m := by
  have hs : l.Subperm m := List.Nodup.subperm (hl.imp fun h => h.ne) fun x hx => h x hx
  have hp : l.Perm m := hs.perm_of_length_le hlen
  exact hp.eq_of_pairwise (fun a b _ _ h1 h2 => absurd (h1.trans h2) (lt_irrefl _)) hl hm

/-- **C04: own increasing points.** With as many points for each PDF, in increasing order for each, the table of values is right, whether or not the PDFs share points. -/
theorem C04_increasing (f : ℕ → K → β) (X : List (List K)) (m : ℕ) (hm : 1 ≤ m) (hX : ∀ r ∈ X, r.length = m) (hs : ∀ r ∈ X, r.Pairwise (· < ·)) :
    scipyEval (dispatch f f f) X = .ok (Evaluation.MatSpec f X) := by
  rw [Evaluation.C04_exact f X m hm hX]
  split_ifs with hc
  · congr 1
    have hp : (Evaluation.points X).Pairwise (· < ·) :=
      (List.pairwise_and_iff.2 ⟨pairwise_unique X.flatten, nodup_unique X.flatten⟩).imp fun h => lt_of_le_of_ne h.1 h.2
    have hr : ∀ r ∈ X, r = Evaluation.points X := fun r hr => by
      refine eq_of_strict_subset (hs r hr) hp (fun x hx => ?_) (by rw [hc.2, hX r hr])
      unfold Evaluation.points
      rw [mem_unique]
      exact List.mem_flatten.2 ⟨r, hr, hx⟩
    have hrep : X = List.replicate X.length (Evaluation.points X) := List.eq_replicate_iff.2 ⟨rfl, hr⟩
    generalize Evaluation.points X = p at *
    generalize X.length = n at *
    subst hrep
    simp only [Evaluation.SharedSpec, Evaluation.MatSpec]
    rw [List.range_eq_range']
    exact (zipIdx_replicate_map n 0 p f).symm
  · rfl

/-! ## PDFs with their own grids -/

theorem mapM_some {γ δ : Type} {f : γ → Option δ} {g : γ → δ} : ∀ {l : List γ}, (∀ i ∈ l, f i = some (g i)) → l.mapM f = some (l.map g)
  | [], _ => rfl
  | a :: l, h => by
    have := mapM_some (l := l) fun i hi => h i (by simp [hi])
    simp [List.mapM_cons, h a (by simp), this]

theorem irr_at_knots (md : Dict K) (row : String → List (Elem K)) (xs ys : List K) (hx : finites (row "xvals") = some xs) (hy : finites (row "yvals") = some ys)
    (hg : InterpPdf.XGrid xs ys.length) : xs.map (irrEval md row) = ys.map some := by
  have h15 := (InterpPdf.C15_pdf_through_points xs ys hg).1
  apply List.ext_getElem
  · simp [hg.size]
  · intro j j1 j2
    simp only [List.length_map] at j1 j2
    rw [List.getElem_map, List.getElem_map, irrEval, hx, hy]
    exact h15 j _ _ (List.getElem?_eq_getElem j1) (List.getElem?_eq_getElem j2)

/-- **C109: the native plot of one PDF with its own grid** is the broken line through its points. -/
theorem C109_irr_native {e e' : Ens K} (h : Reach .irr e) (i : ℕ) (hi : i < e.frozen.npdf) (hg : getItem e (.int i) = .ok e') (xs ys : List K)
    (hx : finites (tableRow e.frozen i "xvals") = some xs) (hy : finites (tableRow e.frozen i "yvals") = some ys) (hgr : InterpPdf.XGrid xs ys.length)
    (isProp : String → Bool) (a : PlotArgs K) (ax : K × K) (u v : K) (hl : Limits a ax u v) (hnp : a.npts = none) (ho : ∀ o ∈ a.others, isProp o = true) :
    irrPlotNative isProp e (.int i) a = .ok (some (ax, [xs.zip (ys.map some)])) := by
  obtain ⟨h1, h2, h3, h4⟩ := one_row .irr h i hi hg irrEval xs
  have hall : a.rest.all isProp = true := by simpa [PlotArgs.rest, hnp, List.all_eq_true] using ho
  have hm : ((List.range e'.frozen.npdf).mapM fun i => finites (tableRow e'.frozen i "xvals")) = some [xs] := by
    rw [h1]
    simp [List.range_succ, h3, hx]
  have hev : scipyEval (dispatch (fun i => irrEval e'.frozen.metadata (tableRow e'.frozen i)) (fun i => irrEval e'.frozen.metadata (tableRow e'.frozen i))
      fun i => irrEval e'.frozen.metadata (tableRow e'.frozen i)) [xs] = .ok [xs.map (irrEval e.frozen.metadata (tableRow e.frozen i))] := by
    have := h4
    unfold ensEval evalShared at this
    rw [h1] at this
    simpa using this
  simp only [irrPlotNative, hg, limits_getAxes hl, bind, Except.bind, hm, hev, axesPlotTable, hall]
  rw [irr_at_knots _ _ xs ys hx hy hgr]
  simp

/-- **C109 fails for several PDFs with their own grids: the native plot joins points of different PDFs.** For any selection of at least two PDFs with `n` grid points
there is no exception; `n` curves are drawn, and curve `j` goes through point `j` of every PDF. -/
theorem C109_irr_several_wrong {e e' : Ens K} (key : Key) (hg : getItem e key = .ok e') (rows : List (List K × List K)) (n : ℕ) (hn : 2 ≤ n) (h2 : 2 ≤ rows.length)
    (hnp' : e'.frozen.npdf = rows.length)
    (hrows : ∀ (i : ℕ) r, rows[i]? = some r → finites (tableRow e'.frozen i "xvals") = some r.1 ∧ finites (tableRow e'.frozen i "yvals") = some r.2 ∧ r.1.length = n ∧ r.2.length = n ∧ r.1.Pairwise (· < ·))
    (isProp : String → Bool) (a : PlotArgs K) (ax : K × K) (u v : K) (hl : Limits a ax u v) (hnp : a.npts = none) (ho : ∀ o ∈ a.others, isProp o = true) :
    ∃ curves, irrPlotNative isProp e key a = .ok (some (ax, curves)) ∧ curves.length = n ∧
      ∀ (i j : ℕ) r x y, rows[i]? = some r → r.1[j]? = some x → r.2[j]? = some y → ∃ c, curves[j]? = some c ∧ c.length = rows.length ∧ c[i]? = some (x, some y) := by
  have hall : a.rest.all isProp = true := by simpa [PlotArgs.rest, hnp, List.all_eq_true] using ho
  have hx : ∀ r ∈ rows, r.1.length = n ∧ r.2.length = n ∧ r.1.Pairwise (· < ·) := fun r hr => by
    obtain ⟨i, hi⟩ := List.getElem?_of_mem hr
    exact (hrows i r hi).2.2
  have hm : ((List.range e'.frozen.npdf).mapM fun i => finites (tableRow e'.frozen i "xvals")) = some (rows.map Prod.fst) := by
    rw [mapM_some (g := fun i => (rows[i]?.map Prod.fst).getD []), hnp']
    · congr 1
      apply List.ext_getElem
      · simp
      · intro i h1 h2
        have hi : i < rows.length := by simpa using h1
        simp [List.getElem?_eq_getElem hi]
    · intro i hi
      rw [hnp', List.mem_range] at hi
      rw [(hrows i rows[i] (List.getElem?_eq_getElem hi)).1, List.getElem?_eq_getElem hi]
      rfl
  have hev : scipyEval (dispatch (fun i => irrEval e'.frozen.metadata (tableRow e'.frozen i)) (fun i => irrEval e'.frozen.metadata (tableRow e'.frozen i))
      fun i => irrEval e'.frozen.metadata (tableRow e'.frozen i)) (rows.map Prod.fst) = .ok (rows.map fun r => r.2.map some) := by
    rw [C04_increasing _ _ n (by omega) (by simpa using fun a b hr => (hx (a, b) hr).1) (by simpa using fun a b hr => (hx (a, b) hr).2.2)]
    congr 1
    unfold Evaluation.MatSpec
    apply List.ext_getElem
    · simp
    · intro i h1 h2
      have hi : i < rows.length := by simpa using h2
      obtain ⟨k1, k2, k3, k4, k5⟩ := hrows i rows[i] (List.getElem?_eq_getElem hi)
      have := irr_at_knots e'.frozen.metadata (tableRow e'.frozen i) _ _ k1 k2 ⟨k5, by rw [k3, k4], by omega⟩
      simpa using this
  have hne : rows ≠ [] := by rintro rfl; simp at h2
  have hhead : ((rows.map Prod.fst).headD []).length = n := by
    obtain ⟨r, t, ht⟩ := List.exists_cons_of_ne_nil hne
    have := (hx r (by rw [ht]; simp)).1
    rw [ht]
    exact this
  have hcol : ∀ {γ : Type} (g : List K × List K → List γ) (j : ℕ), j < n → (∀ r ∈ rows, (g r).length = n) →
      ((rows.map g).filterMap fun r => r[j]?).length = rows.length ∧ ∀ (i : ℕ) r, rows[i]? = some r → ((rows.map g).filterMap fun r => r[j]?)[i]? = (g r)[j]? := by
    intro γ g j hj hgl
    have : ∀ rows : List (List K × List K), (∀ r ∈ rows, (g r).length = n) →
      ((rows.map g).filterMap fun r => r[j]?).length = rows.length ∧ ∀ (i : ℕ) r, rows[i]? = some r → ((rows.map g).filterMap fun r => r[j]?)[i]? = (g r)[j]? := by
      intro rows
      induction rows with
      | nil => intro _; simp
      | cons r rows ih =>
        intro hgl
        obtain ⟨h1, h2⟩ := ih fun r hr => hgl r (by simp [hr])
        have hlt : j < (g r).length := by rw [hgl r (by simp)]; exact hj
        have e : (List.map g (r :: rows)).filterMap (fun r => r[j]?) = (g r)[j] :: (rows.map g).filterMap fun r => r[j]? := by
          rw [List.map_cons, List.filterMap_cons_some (f := fun r : List γ => r[j]?) (List.getElem?_eq_getElem hlt)]
        rw [e]
        refine ⟨by rw [List.length_cons, List.length_cons, h1], fun i r' hr' => ?_⟩
        cases i with
        | zero =>
          obtain rfl : r = r' := by simpa using hr'
          simp [List.getElem?_eq_getElem hlt]
        | succ i => rw [List.getElem?_cons_succ]; exact h2 i r' (by simpa using hr')
    exact this rows hgl
  refine ⟨(List.range n).map fun j => ((rows.map Prod.fst).filterMap fun r => r[j]?).zip ((rows.map fun r => r.2.map some).filterMap fun r => r[j]?), ?_, by simp, ?_⟩
  · simp only [irrPlotNative, hg, limits_getAxes hl, bind, Except.bind, hm, hev, axesPlotTable, hall, hhead]
    rw [if_neg (by simp), if_neg (by simp; omega)]
  · intro i j r x y hr hxj hyj
    have hj : j < n := by
      have := (List.getElem?_eq_some_iff.1 hxj).1
      rw [(hx r (List.mem_of_getElem? hr)).1] at this
      exact this
    obtain ⟨a1, a2⟩ := hcol Prod.fst j hj fun r hr => (hx r hr).1
    obtain ⟨b1, b2⟩ := hcol (fun r => r.2.map some) j hj fun r hr => by simpa using (hx r hr).2.1
    refine ⟨_, by rw [List.getElem?_map, List.getElem?_range hj]; rfl, by rw [List.length_zip, a1, b1, min_self], ?_⟩
    rw [List.getElem?_zip_eq_some]
    exact ⟨by rw [a2 i r hr, hxj], by rw [b2 i r hr]; simp [hyj]⟩

/-! ## Splines -/

/-- **C109: the native plot of a spline** goes through its knots, at the height of its density; for several splines there is an exception. -/
theorem C109_spline_native (f : Dict K → (String → List (Elem K)) → K → β) (isProp : String → Bool) (a : PlotArgs K) (ax : K × K) (u v : K) (hl : Limits a ax u v) (hnp : a.npts = none)
    (ho : ∀ o ∈ a.others, isProp o = true) {e e' : Ens K} :
    (∀ (i : ℕ) knots, Reach .spline e → i < e.frozen.npdf → getItem e (.int i) = .ok e' → finites (tableRow e.frozen i "splx") = some knots →
      splPlotNative isProp f e (.int i) a = .ok (some (ax, [knots.map fun x => (x, f e.frozen.metadata (tableRow e.frozen i) x)]))) ∧
    (∀ key, getItem e key = .ok e' → 2 ≤ e'.frozen.npdf → (∀ i < e'.frozen.npdf, ∃ knots, finites (tableRow e'.frozen i "splx") = some knots) →
      splPlotNative isProp f e key a = .error .ValueError) := by
  have hall : a.rest.all isProp = true := by simpa [PlotArgs.rest, hnp, List.all_eq_true] using ho
  constructor
  · intro i knots h hi hg hk
    obtain ⟨h1, h2, h3, h4⟩ := one_row .spline h i hi hg f knots
    have hm : ((List.range e'.frozen.npdf).mapM fun i => finites (tableRow e'.frozen i "splx")) = some [knots] := by
      rw [h1]
      simp [List.range_succ, h3, hk]
    simp only [splPlotNative, hg, limits_getAxes hl, bind, Except.bind, hm, h2, h3, axesPlot, squeeze2]
    rw [if_pos (Or.inl (by simp))]
    have : knots.zip (knots.map (f e.frozen.metadata (tableRow e.frozen i))) = knots.map fun x => (x, f e.frozen.metadata (tableRow e.frozen i) x) := by
      have := List.zip_map' (f := fun x : K => x) (g := f e.frozen.metadata (tableRow e.frozen i)) (l := knots)
      simpa using this
    simp [hall, this]
  · intro key hg h2 hk
    obtain ⟨l, hm, hlen⟩ : ∃ l, ((List.range e'.frozen.npdf).mapM fun i => finites (tableRow e'.frozen i "splx")) = some l ∧ l.length = e'.frozen.npdf := by
      refine ⟨(List.range e'.frozen.npdf).map fun i => (finites (tableRow e'.frozen i "splx")).getD [], ?_, by simp⟩
      refine mapM_some fun i hi => ?_
      obtain ⟨k, hk⟩ := hk i (List.mem_range.1 hi)
      rw [hk]; rfl
    match l, hlen with
    | [], hlen => simp at hlen; omega
    | [x], hlen => simp at hlen; omega
    | x :: y :: l, hlen => simp only [splPlotNative, hg, limits_getAxes hl, bind, Except.bind, hm]

/-! ## C135: samples -/

/-- what should be drawn: the samples as marks, and the density of the PDF at `n` points over the range of the axes -/
structure Drawn (limits : Canvas K β → K × K) (pdf : K → β) (samples : List K) (n : ℕ) (c c' : Canvas K β) : Prop where
  marks : c'.marks = c.marks ++ samples
  curve : c'.curves = c.curves ++ [(Np.linspace (limits ⟨c.marks ++ samples, c.curves⟩).1 (limits ⟨c.marks ++ samples, c.curves⟩).2 n).map fun x => (x, pdf x)]

theorem marks_ok {isMark : String → Bool} {others : List String} (hm : ∀ o ∈ others, isMark o = true) (hn : ∀ o ∈ others, o ∉ ["marker", "s", "alpha"]) :
    (["marker", "s", "alpha"].any (· ∈ others)) = false ∧ (!((if (none : Option ℕ).isSome then ["npoints"] else []) ++ others).all isMark) = false := by
  constructor
  · rw [List.any_eq_false]
    intro o ho
    simp only [decide_eq_true_eq]
    exact fun h => hn o h ho
  · simpa [List.all_eq_true] using hm

theorem draw_get (fig : Figs K β) (i : ℕ) (f : Canvas K β → Canvas K β) : (∀ c, fig.axes[i]? = some c → (fig.draw i f).axes[i]? = some (f c)) ∧
    (∀ j, j ≠ i → (fig.draw i f).axes[j]? = fig.axes[j]?) ∧ (fig.draw i f).axes.length = fig.axes.length ∧ (fig.draw i f).current = fig.current := by
  refine ⟨fun c hc => ?_, fun j hj => ?_, by simp [Figs.draw], rfl⟩
  · simp [Figs.draw, hc]
  · simp [Figs.draw, hj.symm]

theorem plot_vec (isProp : String → Bool) (kw : List String) (hk : ∀ o ∈ kw, isProp o = true) (x : List K) (pdf : K → β) :
    axesPlot isProp kw x [x.map pdf] = .ok [x.map fun t => (t, pdf t)] := by
  have hz : x.zip (x.map pdf) = x.map fun t => (t, pdf t) := by
    have := List.zip_map' (f := fun x : K => x) (g := pdf) (l := x)
    simpa using this
  have hall : kw.all isProp = true := by simpa [List.all_eq_true] using hk
  simp only [axesPlot, squeeze2]
  rw [if_pos (Or.inl (by simp))]
  simp [hall, hz]

/-- **C135, exact behaviour without refused arguments**: the marks go to the axes given, the curve to the current axes; its range is that of the axes given, after the marks. -/
theorem C135_samples (isMark isLine : String → Bool) (limits : Canvas K β → K × K) (pdf : K → β) (fig : Figs K β) (ax : ℕ) (c : Canvas K β) (hc : fig.axes[ax]? = some c)
    (samples : List K) (others : List String) (hm : ∀ o ∈ others, isMark o = true) (ho : ∀ o ∈ others, isLine o = true)
    (hn : ∀ o ∈ others, o ∉ ["marker", "s", "alpha", "lw", "linestyle"]) :
    samplesPlot isMark isLine limits (fun x => .ok [x.map pdf]) fig ax samples none others =
      ((fig.draw ax fun c => ⟨c.marks ++ samples, c.curves⟩).draw fig.current fun c' =>
        ⟨c'.marks, c'.curves ++ [(Np.linspace (limits ⟨c.marks ++ samples, c.curves⟩).1 (limits ⟨c.marks ++ samples, c.curves⟩).2 101).map fun x => (x, pdf x)]⟩, .ok ()) := by
  obtain ⟨h1, h2⟩ := marks_ok hm fun o h hs => hn o h (by simp at hs ⊢; tauto)
  have h3 : (["lw", "linestyle"].any (· ∈ others)) = false := by
    rw [List.any_eq_false]
    intro o ho
    simp only [decide_eq_true_eq]
    exact fun h => hn o h (by simp at ho ⊢; tauto)
  have hd : (fig.draw ax fun _ => (⟨c.marks ++ samples, c.curves⟩ : Canvas K β)) = fig.draw ax fun c => ⟨c.marks ++ samples, c.curves⟩ := by
    unfold Figs.draw
    congr 1
    apply List.ext_getElem?
    intro j
    rw [List.getElem?_modify, List.getElem?_modify]
    by_cases hj : ax = j
    · subst hj
      simp [hc]
    · simp [hj]
  simp only [samplesPlot, hc, h1, h2, h3, plot_vec isLine others ho, Bool.false_eq_true, if_false, Option.getD_none, hd]
  rfl

/-- **C135 (partial): samples on the current axes.** The samples are marked, and the density of the PDF is drawn at 101 points over the range that the axes have with the marks;
other axes stay as they are. Missing: axes that are not the current ones (`C135_other_axes_wrong`), the number of points (`C135_npoints_wrong`) and some properties
(`C135_properties_wrong`). -/
theorem C135_current_axes_partial (isMark isLine : String → Bool) (limits : Canvas K β → K × K) (pdf : K → β) (fig : Figs K β) (c : Canvas K β) (hc : fig.axes[fig.current]? = some c)
    (samples : List K) (others : List String) (hm : ∀ o ∈ others, isMark o = true) (ho : ∀ o ∈ others, isLine o = true)
    (hn : ∀ o ∈ others, o ∉ ["marker", "s", "alpha", "lw", "linestyle"]) :
    ∃ fig' c', samplesPlot isMark isLine limits (fun x => .ok [x.map pdf]) fig fig.current samples none others = (fig', .ok ()) ∧ fig'.axes[fig.current]? = some c' ∧
      Drawn limits pdf samples 101 c c' ∧ (∀ j, j ≠ fig.current → fig'.axes[j]? = fig.axes[j]?) ∧ fig'.axes.length = fig.axes.length ∧ fig'.current = fig.current := by
  rw [C135_samples isMark isLine limits pdf fig fig.current c hc samples others hm ho hn]
  obtain ⟨a1, a2, a3, a4⟩ := draw_get fig fig.current fun c => (⟨c.marks ++ samples, c.curves⟩ : Canvas K β)
  obtain ⟨b1, b2, b3, b4⟩ := draw_get (fig.draw fig.current fun c => (⟨c.marks ++ samples, c.curves⟩ : Canvas K β)) fig.current fun c' =>
        (⟨c'.marks, c'.curves ++ [(Np.linspace (limits ⟨c.marks ++ samples, c.curves⟩).1 (limits ⟨c.marks ++ samples, c.curves⟩).2 101).map fun x => (x, pdf x)]⟩ : Canvas K β)
  exact ⟨_, _, rfl, b1 _ (a1 c hc), ⟨rfl, rfl⟩, fun j hj => (b2 j hj).trans (a2 j hj), b3.trans a3, b4.trans a4⟩

/-- **C135 fails for other axes**: if the axes given are not the current ones, they get only the marks, and the curve is drawn on the current axes, over the range of the given ones. -/
theorem C135_other_axes_wrong (isMark isLine : String → Bool) (limits : Canvas K β → K × K) (pdf : K → β) (fig : Figs K β) (ax : ℕ) (hax : ax ≠ fig.current) (c d : Canvas K β)
    (hc : fig.axes[ax]? = some c) (hd : fig.axes[fig.current]? = some d) (samples : List K) :
    ∃ fig' c' d', samplesPlot isMark isLine limits (fun x => .ok [x.map pdf]) fig ax samples none [] = (fig', .ok ()) ∧ fig'.axes[ax]? = some c' ∧ c'.marks = c.marks ++ samples ∧ c'.curves = c.curves ∧
      fig'.axes[fig.current]? = some d' ∧ d'.marks = d.marks ∧ d'.curves.length = d.curves.length + 1 ∧ ∀ n, ¬ Drawn limits pdf samples n c c' := by
  rw [C135_samples isMark isLine limits pdf fig ax c hc samples [] (by simp) (by simp) (by simp)]
  obtain ⟨a1, a2, a3, a4⟩ := draw_get fig ax fun c => (⟨c.marks ++ samples, c.curves⟩ : Canvas K β)
  obtain ⟨b1, b2, b3, b4⟩ := draw_get (fig.draw ax fun c => (⟨c.marks ++ samples, c.curves⟩ : Canvas K β)) fig.current fun c' =>
        (⟨c'.marks, c'.curves ++ [(Np.linspace (limits ⟨c.marks ++ samples, c.curves⟩).1 (limits ⟨c.marks ++ samples, c.curves⟩).2 101).map fun x => (x, pdf x)]⟩ : Canvas K β)
  refine ⟨_, _, _, rfl, (b2 ax hax).trans (a1 c hc), rfl, rfl, b1 d ((a2 _ hax.symm).trans hd), rfl, by simp, fun n hD => ?_⟩
  have := congrArg List.length hD.curve
  simp at this

/-- **C135 fails for the number of points**: `npoints`, which the code looks for, also reaches the marks; matplotlib refuses it, and nothing is drawn. -/
theorem C135_npoints_wrong (isMark isLine : String → Bool) (hm : isMark "npoints" = false) (limits : Canvas K β → K × K) (ev : List K → Except Err (List (List β))) (fig : Figs K β) (ax : ℕ)
    (hax : ax < fig.axes.length) (samples : List K) (n : ℕ) : samplesPlot isMark isLine limits ev fig ax samples (some n) [] = (fig, .error .AttributeError) := by
  simp [samplesPlot, List.getElem?_eq_getElem hax, hm]

/-- **C135 fails for properties of the curve**: with a line width or style the marks are drawn, then there is an exception and no curve. -/
theorem C135_properties_wrong (isMark isLine : String → Bool) (limits : Canvas K β → K × K) (pdf : K → β) (fig : Figs K β) (ax : ℕ) (c : Canvas K β) (hc : fig.axes[ax]? = some c)
    (samples : List K) (others : List String) (hm : ∀ o ∈ others, isMark o = true) (hn : ∀ o ∈ others, o ∉ ["marker", "s", "alpha"]) (hl : "lw" ∈ others ∨ "linestyle" ∈ others) :
    ∃ fig', samplesPlot isMark isLine limits (fun x => .ok [x.map pdf]) fig ax samples none others = (fig', .error .TypeError) ∧ fig'.axes[ax]? = some ⟨c.marks ++ samples, c.curves⟩ := by
  obtain ⟨h1, h2⟩ := marks_ok hm hn
  have h3 : (["lw", "linestyle"].any (· ∈ others)) = true := by
    rw [List.any_eq_true]
    rcases hl with h | h
    · exact ⟨"lw", by simp, by simpa using h⟩
    · exact ⟨"linestyle", by simp, by simpa using h⟩
  refine ⟨fig.draw ax fun _ => ⟨c.marks ++ samples, c.curves⟩, ?_, (draw_get fig ax _).1 c hc⟩
  simp only [samplesPlot, hc, h1, h2, h3, Bool.false_eq_true, if_false, if_true]

/-! ## Non-vacuity -/

/-- two PDFs with different grids of three points -/
private def irrEx : List (List ℚ × List ℚ) := [([0, 1, 2], [0, 1, 0]), ([1, 3, 5], [0, 1/2, 0])]

example : scipyEval (dispatch (fun i v => (i, v)) (fun i v => (i, v)) (fun i v => (i, v))) ([[0, 1, 2], [1, 3, 5]] : List (List ℚ)) =
    .ok [[(0, 0), (0, 1), (0, 2)], [(1, 1), (1, 3), (1, 5)]] := C04_increasing _ _ 3 (by decide) (by decide) (by decide +kernel)

/-- drawn together: three curves, each from a point of the first PDF to one of the second -/
example : ((mkEns (rowCreate irrCls) (rowCreate irrCls) (EndToEnd.irrArgs 3 irrEx) none).toOption.bind fun e =>
    (irrPlotNative (fun _ => true) e (.slice none none none) ⟨some (0, 5), none, none, []⟩).toOption) =
    some (some ((0, 5), [[(0, some 0), (1, some 0)], [(1, some 1), (3, some (1/2))], [(2, some 0), (5, some 0)]])) := by decide +kernel

/-- drawn alone: the broken line -/
example : ((mkEns (rowCreate irrCls) (rowCreate irrCls) (EndToEnd.irrArgs 3 irrEx) none).toOption.bind fun e =>
    (irrPlotNative (fun _ => true) e (.int 1) ⟨some (0, 5), none, none, []⟩).toOption) =
    some (some ((0, 5), [[(1, some 0), (3, some (1/2)), (5, some 0)]])) := by decide +kernel

/-- two sets of axes, the second is the current one: the samples 1 and 2 are marked on the first, the curve goes to the second -/
example : samplesPlot (K := ℚ) (fun _ => true) (fun _ => true) (fun c => (c.marks.min?.getD 0, c.marks.max?.getD 1)) (fun x => .ok [x.map fun t => t * t]) ⟨[⟨[], []⟩, ⟨[], []⟩], 1⟩ 0 [1, 2] (some 3) [] =
    (⟨[⟨[1, 2], []⟩, ⟨[], [[(1, 1), (3/2, 9/4), (2, 4)]]⟩], 1⟩, .ok ()) := by decide +kernel

end Verif.Props.Plot
