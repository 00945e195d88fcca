import Verif.Model.EnsEval
import Verif.Model.EnsCurves
import Verif.Model.Ensemble
import Verif.Np.Linspace

/-!
# Plotting

Source: `/repo/src/qp/plotting.py` 43-230, `/repo/src/qp/pdf_gen.py` 138-149, `/repo/src/qp/ensemble.py` 612-630, `/repo/src/qp/hist_pdf.py`
163-171, `/repo/src/qp/interp_pdf.py` 187-194 and 363-371, `/repo/src/qp/packed_interp_pdf.py` 254-261, `/repo/src/qp/spline_pdf.py` 300-308,
`/repo/src/qp/quant_pdf.py` 266-279, `/repo/src/qp/plotting.py` 232-263. What is drawn is a list of curves (lists of points) or of bars; colours and line styles are left out.

matplotlib is modelled by two functions. `axes.plot(x, y)` raises `ValueError` unless the first axes of `x` and `y` have the same length, draws one curve for a
vector `y` and one curve for each column of a matrix `y`, and raises `AttributeError` for keyword arguments that are not properties of a line. `axes.hist(c,
bins=edges, weights=w)` raises `ValueError` unless `c` and `w` have the same length and draws over each bin a bar as high as the weights of the `c` in the bin.
-/

set_option linter.unusedSectionVars false
set_option autoImplicit false

namespace Verif.Model

open Verif Verif.Np

variable {K : Type} [Field K] [LinearOrder K] {β : Type}

/-- the keyword arguments of `plot` and `plot_native`: axes (known by their limits), `xlim`, `npts`, and the names of all others -/
structure PlotArgs (K : Type) where
  axes : Option (K × K) := none
  xlim : Option (List K) := none
  npts : Option ℕ := none
  others : List String := []

/-- `get_axes_and_xlims`, `plotting.py` 72-84, with `make_figure_axes` 43-69: the limits of the axes drawn on, and `xlim`. The labels taken from the keyword
arguments in `make_figure_axes` stay in the dictionary of the caller. -/
def getAxes (a : PlotArgs K) : Except Err ((K × K) × List K) :=
  match a.axes, a.xlim with
  | none, none => .error .ValueError
  | none, some [] => .error .IndexError
  | none, some (u :: xl) => .ok ((u, (u :: xl).getLast (by simp)), u :: xl)
  | some ax, none => .ok (ax, [ax.1, ax.2])
  | some _, some _ => .error .ValueError

/-- `np.squeeze(yvals)` for a table of values with `w` columns: a vector if one of the lengths is one -/
def squeeze2 (w : ℕ) (y : List (List β)) : List β ⊕ List (List β) :=
  if y.length = 1 ∨ w = 1 then .inl y.flatten else .inr y

/-- `axes.plot(np.squeeze(x), np.squeeze(y), **kwargs)`, `plotting.py` 107; `isProp` tells the properties of a line -/
def axesPlot (isProp : String → Bool) (kw : List String) (x : List K) (y : List (List β)) : Except Err (List (List (K × β))) :=
  match squeeze2 x.length y with
  | .inl v => if x.length ≠ v.length then .error .ValueError else if kw.all isProp then .ok [x.zip v] else .error .AttributeError
  | .inr m => if x.length ≠ m.length then .error .ValueError else if kw.all isProp then
      .ok ((List.range x.length).map fun j => x.zip (m.filterMap fun r => r[j]?)) else .error .AttributeError

/-- `plot_dist_pdf`, `plotting.py` 111-143; `ev` is `pdf.pdf` -/
def plotDist (isProp : String → Bool) (ev : List K → Except Err (List (List β))) (a : PlotArgs K) : Except Err ((K × K) × List (List (K × β))) := do
  let (ax, xl) ← getAxes a
  match xl with
  | u :: v :: _ => do
    let x := Np.linspace u v (a.npts.getD 101)
    let y ← ev x
    let curves ← axesPlot isProp a.others x y
    .ok (ax, curves)
  | _ => .error .IndexError

/-- `Ensemble.plot`, `ensemble.py` 612-620 with `pdf_gen.py` 138-141 -/
def ensPlot (isProp : String → Bool) (f : Dict K → (String → List (Elem K)) → K → β) (e : Ens K) (key : Key) (a : PlotArgs K) :
    Except Err ((K × K) × List (List (K × β))) := do
  let e' ← getItem e key
  plotDist isProp (ensEval f e'.frozen) a

/-- the keyword arguments handed on by a `plot_native` that does not take `npts` out -/
def PlotArgs.rest (a : PlotArgs K) : List String := (if a.npts.isSome then ["npts"] else []) ++ a.others

/-- `Ensemble.plot_native` for an ensemble with a common grid, `ensemble.py` 622-630 with `interp_pdf.py` 187-194 and, in the same words, `packed_interp_pdf.py` 254-261; `f` is what
the class computes for one PDF at one point -/
def gridPlotNative (isProp : String → Bool) (f : Dict K → (String → List (Elem K)) → K → β) (e : Ens K) (key : Key) (a : PlotArgs K) :
    Except Err ((K × K) × List (List (K × β))) := do
  let e' ← getItem e key
  let (ax, _) ← getAxes a
  let x := metaGrid e'.frozen.metadata "xvals"
  let y ← ensEval f e'.frozen x
  let curves ← axesPlot isProp a.rest x y
  .ok (ax, curves)

/-- the same for an interpolated ensemble -/
def interpPlotNative (isProp : String → Bool) (e : Ens K) (key : Key) (a : PlotArgs K) : Except Err ((K × K) × List (List (K × Option K))) :=
  gridPlotNative isProp interpEval e key a

/-- the centres of the bins, `plotting.py` 219 -/
def binCentres : List K → List K
  | a :: b :: t => ((a + b) / 2) :: binCentres (b :: t)
  | _ => []

/-- the bins between consecutive edges; the last one contains its right edge -/
def binsOf : List K → List (K × K × Bool)
  | [a, b] => [(a, b, true)]
  | a :: b :: t => (a, b, false) :: binsOf (b :: t)
  | _ => []

/-- `axes.hist(c, bins=edges, weights=w, **kwargs)`: bars (left edge, right edge, height) -/
def axesHist (isProp : String → Bool) (kw : List String) (c edges w : List K) : Except Err (List (K × K × K)) :=
  if c.length ≠ w.length then .error .ValueError
  else if kw.all isProp then .ok ((binsOf edges).map fun b =>
    (b.1, b.2.1, (((c.zip w).filter fun p => decide (b.1 ≤ p.1 ∧ (p.1 < b.2.1 ∨ b.2.2 = true ∧ p.1 = b.2.1))).map Prod.snd).sum))
  else .error .AttributeError

/-- `Ensemble.plot_native` for a histogram, `hist_pdf.py` 163-171 with `plot_pdf_histogram_on_axes`, `plotting.py` 183-230: the marks at the bin edges and the
bars. `none`: a row of `nan`. -/
def histPlotNative (isProp : String → Bool) (e : Ens K) (key : Key) (a : PlotArgs K) : Except Err (Option ((K × K) × List K × List (K × K × K))) := do
  let e' ← getItem e key
  let (ax, _) ← getAxes a
  let edges := metaGrid e'.frozen.metadata "bins"
  match (List.range e'.frozen.npdf).mapM fun i => finites (tableRow e'.frozen i "pdfs") with
  | none => .ok none
  | some rows =>
    match squeeze2 (edges.length - 1) rows with
    | .inl w => do
      let bars ← axesHist isProp a.rest (binCentres edges) edges w
      .ok (some (ax, edges, bars))
    | .inr _ => .error .ValueError

/-- what the native plot of quantiles shows: marks at height zero with their label, curves with theirs -/
structure QuantPlot (K β : Type) where
  axes : K × K
  marks : List K
  marksLabel : String
  curves : List (List (K × β))
  curvesLabel : String
deriving DecidableEq

/-- `Ensemble.plot_native` for quantiles, `quant_pdf.py` 266-279 with `plot_pdf_quantiles_on_axes`, `plotting.py` 146-183. `ev` is `pdf.pdf`; `label` is the keyword
argument of that name, the names of the other ones are `a.others`. `isProp` tells the properties that both marks and lines have; `marker`, `s` and `alpha` for the
marks and `lw`, `alpha` and `linestyle` for the curve are given by the code, so that a caller's argument of that name is given twice (`TypeError`). Both calls of
`setdefault` act on the same dictionary. Locations and values are drawn by `axes.scatter(locs, zeros)` and `axes.plot(xvals, yvals)`, squeezed. `none`: locations that
are not finite. -/
def quantPlotNative (isProp : String → Bool) (f : Dict K → (String → List (Elem K)) → K → β) (label : Option String) (e : Ens K) (key : Key) (a : PlotArgs K) :
    Except Err (Option (QuantPlot K β)) := do
  let e' ← getItem e key
  let (ax, xl) ← getAxes a
  match xl with
  | u :: v :: _ =>
    let x := Np.linspace u v (a.npts.getD 101)
    match (List.range e'.frozen.npdf).mapM fun i => finites (tableRow e'.frozen i "locs") with
    | none => .ok none
    | some rows => do
      let y ← ensEval f e'.frozen x
      let kw := some (label.getD "Quantiles")
      if ["marker", "s", "alpha"].any (· ∈ a.others) then .error .TypeError
      else if !a.others.all isProp then .error .AttributeError
      else if ["lw", "alpha", "linestyle"].any (· ∈ a.others) then .error .TypeError
      else do
        let curves ← axesPlot isProp a.others x y
        .ok (some ⟨ax, rows.flatten, kw.getD "Quantiles", curves, kw.getD "Quantile Interpolated PDF"⟩)
  | _ => .error .IndexError

/-- `axes.plot(np.squeeze(x), np.squeeze(y), **kwargs)`, `plotting.py` 107, for tables `x` and `y` of the same shape with `n` columns: one curve if one of the lengths is one,
otherwise one curve for each *column* -/
def axesPlotTable (isProp : String → Bool) (kw : List String) (n : ℕ) (x : List (List K)) (y : List (List β)) : Except Err (List (List (K × β))) :=
  if !kw.all isProp then .error .AttributeError
  else if x.length = 1 ∨ n = 1 then .ok [x.flatten.zip y.flatten]
  else .ok ((List.range n).map fun j => (x.filterMap fun r => r[j]?).zip (y.filterMap fun r => r[j]?))

/-- `Ensemble.plot_native` for PDFs with their own grids, `interp_pdf.py` 363-371: the density of each PDF at the points of its grid. `none`: grid points that are not finite. -/
def irrPlotNative (isProp : String → Bool) (e : Ens K) (key : Key) (a : PlotArgs K) : Except Err (Option ((K × K) × List (List (K × Option K)))) := do
  let e' ← getItem e key
  let (ax, _) ← getAxes a
  match (List.range e'.frozen.npdf).mapM fun i => finites (tableRow e'.frozen i "xvals") with
  | none => .ok none
  | some x => do
    let f := fun i => irrEval e'.frozen.metadata (tableRow e'.frozen i)
    let y ← scipyEval (dispatch f f f) x
    let curves ← axesPlotTable isProp a.rest (x.headD []).length x y
    .ok (some (ax, curves))

/-- `Ensemble.plot_native` for splines, `spline_pdf.py` 300-308: `splx[row]` with the row numbers of shape `(npdf, 1)` has the shape `(npdf, 1, n)`. The values then have the
shape `(npdf, npdf, n)`, which for several PDFs matplotlib does not take (`ValueError`; splines have more than one knot). `f` is what the class computes for one PDF at one
point. `none`: knots that are not finite. -/
def splPlotNative (isProp : String → Bool) (f : Dict K → (String → List (Elem K)) → K → β) (e : Ens K) (key : Key) (a : PlotArgs K) :
    Except Err (Option ((K × K) × List (List (K × β)))) := do
  let e' ← getItem e key
  let (ax, _) ← getAxes a
  match (List.range e'.frozen.npdf).mapM fun i => finites (tableRow e'.frozen i "splx") with
  | none => .ok none
  | some [x] => do
    let curves ← axesPlot isProp a.rest x [x.map (f e'.frozen.metadata (tableRow e'.frozen 0))]
    .ok (some (ax, curves))
  | some _ => .error .ValueError

/-! ### Samples -/

/-- what has been drawn on one set of axes -/
structure Canvas (K β : Type) where
  marks : List K
  curves : List (List (K × β))
deriving DecidableEq

/-- the open axes; `current` is the number of those that `plt.plot` draws on -/
structure Figs (K β : Type) where
  axes : List (Canvas K β)
  current : ℕ
deriving DecidableEq

/-- change the axes with number `i` -/
def Figs.draw (fig : Figs K β) (i : ℕ) (f : Canvas K β → Canvas K β) : Figs K β := { fig with axes := fig.axes.modify i f }

/-- `plot_pdf_samples_on_axes`, `plotting.py` 232-263, with the state of the figures and the exception, if one is raised. `ax` is the number of the axes given, `limits` tells
the range of axes from what is drawn on them, `ev` is `pdf.pdf`, `npoints` the keyword argument of that name, `others` the names of the other ones. The marks are made with
`marker`, `s` and `alpha` (`TypeError` if given again) and take all keyword arguments, also `npoints`; matplotlib refuses what is not a property before it draws. The curve is made with `lw`, `alpha` and `linestyle` and drawn by
`plt.plot`, on the current axes. -/
def samplesPlot (isMark isLine : String → Bool) (limits : Canvas K β → K × K) (ev : List K → Except Err (List (List β))) (fig : Figs K β) (ax : ℕ) (samples : List K)
    (npoints : Option ℕ) (others : List String) : Figs K β × Except Err Unit :=
  match fig.axes[ax]? with
  | none => (fig, .error .Unmodelled)
  | some canvas =>
    if ["marker", "s", "alpha"].any (· ∈ others) then (fig, .error .TypeError)
    else if !((if npoints.isSome then ["npoints"] else []) ++ others).all isMark then (fig, .error .AttributeError)
    else
      let marked : Canvas K β := { canvas with marks := canvas.marks ++ samples }
      let fig1 := fig.draw ax fun _ => marked
      let x := Np.linspace (limits marked).1 (limits marked).2 (npoints.getD 101)
      match ev x with
      | .error err => (fig1, .error err)
      | .ok y =>
        if ["lw", "linestyle"].any (· ∈ others) then (fig1, .error .TypeError)
        else
          match axesPlot isLine others x y with
          | .error err => (fig1, .error err)
          | .ok curves => (fig1.draw fig1.current fun c => { c with curves := c.curves ++ curves }, .ok ())

end Verif.Model
