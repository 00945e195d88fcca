import Verif.Model.Registry
import Verif.Model.EnsEval
import Verif.Model.Shapes
import Verif.Model.Packing

/-!
# Conversion between classes

Sources: `/repo/src/qp/factory.py` 103-124 (`create`), 272-301 (`convert`), `/repo/src/qp/ensemble.py` 127-163 (`convert_to`),
`/repo/src/qp/conversion_funcs.py` 17-174, `/repo/src/qp/packed_interp_pdf.py` 15-44.
The extractions that draw samples or fit mixtures (`extract_samples`, `extract_hist_samples`, `extract_mixmod_fit_samples`) are in
`SampleConvert.lean`, the binning of samples is `histVectorize` in this file; the grid of the sparse class is in `SparseGrid.lean`.
-/

set_option linter.unusedSectionVars false
set_option autoImplicit false

namespace Verif.Model

open Verif Verif.Np

section
variable {K : Type}

/-- an extraction function: the ensemble and the keyword arguments give the constructor data -/
abbrev Extract (K : Type) := Ens K → Dict K → Except Err (Dict K)

/-- a registered class: its `create` method and its method tables -/
structure PyCls (K : Type) where
  name : String
  create : GenFunc K
  creation : Methods (GenFunc K)
  extraction : Methods (Extract K)

/-- the factory as far as conversion uses it -/
abbrev ClsReg (K : Type) := List (String × PyCls K)

/-- `factory.create(class_name, data, method)`, `factory.py` 103-124. Without a creation method, `Ensemble(None, data)` calls `None`:
`TypeError`. -/
def factoryCreate (r : ClsReg K) (name : String) (data : Dict K) (method : Option String) : Except Err (Ens K) :=
  match r.lookup name with
  | none => .error .KeyError
  | some c => match c.creation.get method with
    | none => .error .TypeError
    | some g => mkEns c.create g data none

/-- `factory.convert(in_dist, class_name, method=method, **kwds)`, `factory.py` 272-301 -/
def convert (r : ClsReg K) (e : Ens K) (name : String) (method : Option String) (kwds : Dict K) : Except Err (Ens K) :=
  match r.lookup name with
  | none => .error .KeyError
  | some c => match c.extraction.get method with
    | none => .error .KeyError
    | some x => do
      let data ← x e kwds
      factoryCreate r name data method

/-- `ens.convert_to(to_class, method=method, **kwargs)`, `ensemble.py` 127-163 -/
def convertTo (c : PyCls K) (e : Ens K) (method : Option String) (kwds : Dict K) : Except Err (Ens K) :=
  match c.creation.get method with
  | none => .error .KeyError
  | some g => match c.extraction.get method with
    | none => .error .KeyError
    | some x => do
      let data ← x e kwds
      mkEns c.create g data none

/-- `kwargs.pop(key, None)` followed by the check for `None` (`ValueError`), e.g. `conversion_funcs.py` 35-37 -/
def needKwd (kwds : Dict K) (key : String) : Except Err (Val K) :=
  match Dict.get? kwds key with
  | none => .error .ValueError
  | some v => .ok v

/-- the evaluation methods of an ensemble that the extractions call -/
structure Evals (K : Type) where
  pdf : Frozen K → Val K → Except Err (Arr (Elem K))
  cdf : Frozen K → Val K → Except Err (Arr (Elem K))
  ppf : Frozen K → Val K → Except Err (Arr (Elem K))

/-- `extract_vals_at_x`, `conversion_funcs.py` 17-39 -/
def extractValsAtX (ev : Evals K) : Extract K := fun e kwds => do
  let xv ← needKwd kwds "xvals"
  let y ← ev.pdf e.frozen xv
  .ok [("xvals", xv), ("yvals", .arr y)]

/-- `np.ones(shape) * np.squeeze(xvals)` when `xvals` has as many entries as the last axis, `conversion_funcs.py` 64. Other
combinations that broadcast (one x-line per PDF) are not followed. -/
def expandX (xv : Arr (Elem K)) (shape : List ℕ) : Except Err (Arr (Elem K)) :=
  if xv.squeeze.shape = [shape.getLastD 0] ∨ (xv.squeeze.shape = [] ∧ shape.getLastD 0 = 1) then
    .ok ⟨shape, (List.replicate shape.dropLast.prod xv.data).flatten⟩
  else .error .Unmodelled

/-- `extract_xy_vals`, `conversion_funcs.py` 42-65 -/
def extractXyVals (ev : Evals K) : Extract K := fun e kwds => do
  let xv ← needKwd kwds "xvals"
  let y ← ev.pdf e.frozen xv
  let x ← expandX xv.toArr y.shape
  .ok [("xvals", .arr x), ("yvals", .arr y)]

/-- `extract_quantiles`, `conversion_funcs.py` 152-174 -/
def extractQuantiles (ev : Evals K) : Extract K := fun e kwds => do
  let q ← needKwd kwds "quants"
  let l ← ev.ppf e.frozen q
  .ok [("quants", q), ("locs", .arr l)]

/-- `extract_and_pack_vals_at_x`, `packed_interp_pdf.py` 15-44, for an ensemble with one index; `pack` packs one row
(`pack_array`, see `Packing.lean`). The packing type is popped before the check of `xvals`: `KeyError` without it. -/
def extractPacked (pack : Val K → List (Elem K) → Except Err (List (Elem K) × Elem K)) (ev : Evals K) : Extract K := fun e kwds => do
  let xv := Dict.get? kwds "xvals"
  match Dict.get? kwds "packing_type" with
  | none => .error .KeyError
  | some p => match xv with
    | none => .error .ValueError
    | some xv => do
      let y ← ev.pdf e.frozen xv
      match y.shape with
      | [n, m] => do
        let rows ← y.rows.mapM (pack p)
        .ok ([("xvals", xv), ("ypacked", .arr ⟨[n, m], (rows.map (·.1)).flatten⟩), ("ymax", .arr ⟨[n, 1], rows.map (·.2)⟩),
          ("packing_type", p)] ++ kwds.filter fun q => q.1 ≠ "xvals" ∧ q.1 ≠ "packing_type")
      | _ => .error .Unmodelled

end

section
variable {K : Type} [Field K] [LinearOrder K]

/-- `extract_hist_values`, `conversion_funcs.py` 91-113: `histogramize` and nothing else. `bins` is a 1-D array of finite numbers and the
CDF values are finite here (`Unmodelled` otherwise; a list has no `size`: `AttributeError`). -/
def extractHistValues (ev : Evals K) : Extract K := fun e kwds => do
  let b ← needKwd kwds "bins"
  let c ← ev.cdf e.frozen b
  match b with
  | .lst _ => .error .AttributeError
  | .py _ => .error .AttributeError
  | .arr ba => match finites ba.data, finites c.data with
    | some bs, some cs => do
      let p ← histogramize ⟨c.shape, cs⟩ e.frozen.shape bs
      .ok [("bins", b), ("pdfs", .arr ⟨p.shape, nums p.data⟩)]
    | _, _ => .error .Unmodelled

/-- the array returned by an evaluation method for a 1-D list of points: the shape of the ensemble, then one entry per point -/
def ensArr (f : Dict K → (String → List (Elem K)) → K → Elem K) (fr : Frozen K) (v : Val K) : Except Err (Arr (Elem K)) :=
  match v.toArr.shape, finites v.toArr.data with
  | [m], some x => do
    let rows ← ensEval f fr x
    .ok ⟨fr.shape ++ [m], rows.flatten⟩
  | _, _ => .error .Unmodelled

/-- the CDF of a histogram in this form, `hist_pdf.py` 111-117 -/
def histCdfElem (md : Dict K) (row : String → List (Elem K)) (x : K) : Elem K :=
  .num ((finites (row "pdfs")).bind fun r => histCdf (metaGrid md "bins") r x)

/-- the PDF of an interpolated distribution in this form -/
def interpPdfElem (md : Dict K) (row : String → List (Elem K)) (x : K) : Elem K := .num (interpEval md row x)

/-- the histogram class as registered, `hist_pdf.py` 173-180 (the extraction through samples needs random numbers; not in this table) -/
def histPy (ev : Evals K) : PyCls K :=
  ⟨"hist", rowCreate histCls, [(none, rowCreate histCls)], [(none, extractHistValues ev)]⟩

/-- the interpolated class, `interp_pdf.py` 196-202 -/
def interpPy (ev : Evals K) : PyCls K :=
  ⟨"interp", rowCreate interpCls, [(none, rowCreate interpCls)], [(none, extractValsAtX ev)]⟩

/-- the class with one grid per PDF, `interp_pdf.py` 373-380 -/
def irrPy (ev : Evals K) : PyCls K :=
  ⟨"interp_irregular", rowCreate irrCls, [(none, rowCreate irrCls)], [(none, extractXyVals ev)]⟩

/-- the quantile class, `quant_pdf.py` 281-287 -/
def quantPy (ev : Evals K) : PyCls K :=
  ⟨"quant", rowCreate quantCls, [(none, rowCreate quantCls)], [(none, extractQuantiles ev)]⟩

/-- the packed class, `packed_interp_pdf.py` 263-269 -/
def packedPy (pack : Val K → List (Elem K) → Except Err (List (Elem K) × Elem K)) (ev : Evals K) : PyCls K :=
  ⟨"packed_interp", rowCreate packedCls, [(none, rowCreate packedCls)], [(none, extractPacked pack ev)]⟩

/-! ### histograms of samples -/

/-- `np.histogram(sample, bins=bins)[0]` with explicit edges (numpy `_histograms_impl.py`: the sorted sample is searched for all edges
but the last from the left and for the last from the right; the differences are the counts). Edges must be non-decreasing
(`ValueError`). The position found by `searchsorted` is the number of sample values below the edge (or not above it). -/
def npHistogram (bins sample : List K) : Except Err (List ℕ) :=
  if (Np.diff bins).any (· < 0) then .error .ValueError
  else
    let cum := bins.dropLast.map (fun b => sample.countP (· < b)) ++
      (bins.getLast?.map fun b => sample.countP (· ≤ b)).toList
    .ok ((List.range (bins.length - 1)).map fun (i : ℕ) => cum.getD (i + 1) 0 - cum.getD i 0)

/-- The call `np.vectorize(hist_helper, signature="(%i)->(%i)" % (samples.shape[0], bins.size - 1))(samples)` of
`conversion_funcs.py` 139-148 for samples with `size` entries per PDF. The numbers in the signature are *names* of dimensions (so the
model compares the numbers): the input dimension is called after the number of PDFs and has the size of a sample, the output
dimension is called after the number of bins. numpy (`_vectorize_call_with_signature`) requires dimensions of the same name to have the
same size, and cannot find the type of the result without at least one call. Without edges the name would be `-1`, which is not a
valid signature. All these are `ValueError`. -/
def histVectorize (bins : List K) (samples : List (List K)) (size : ℕ) : Except Err (List (List ℕ)) :=
  if bins = [] then .error .ValueError
  else if samples = [] then .error .ValueError
  else do
    let rows ← samples.mapM (npHistogram bins)
    if samples.length = bins.length - 1 ∧ size ≠ bins.length - 1 then .error .ValueError else .ok rows

end

end Verif.Model
