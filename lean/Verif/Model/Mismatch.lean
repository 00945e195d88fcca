import Verif.Model.Mixmod
import Verif.Model.MixReal
import Verif.Model.PackedPdf

/-!
# Ensembles made from tables of different sizes

Sources: `/repo/src/qp/mixmod_pdf.py` 42-68 and 95-117, `/repo/src/qp/packed_interp_pdf.py` 66-143, `/repo/src/qp/packing_utils.py` 32-49,
`/repo/src/qp/spline_pdf.py` 115-154 and 247-275. The constructors reshape each table by itself (`reshape_to_pdf_size`, `utils.py` 875-894); numpy
broadcasts when the tables are combined. A table is a list of rows of one length. The number of PDFs is that of the first table (means, packed values,
knots); leading axes are flattened.
-/

set_option linter.unusedSectionVars false
set_option autoImplicit false

namespace Verif.Model

open Verif Verif.Np

/-- numpy's rule for combining two axes -/
def bcast (a b : ℕ) : Option ℕ := if a = b then some a else if a = 1 then some b else if b = 1 then some a else none

/-- element `k` of an axis after broadcasting -/
def bget {α : Type} (l : List α) (k : ℕ) : Option α := if l.length = 1 then l[0]? else l[k]?

section
variable {K : Type} [Field K] [LinearOrder K]

/-- what `mixmod_gen.__init__` keeps -/
structure MixTabs (K : Type) where
  means : List (List K)
  stds : List (List K)
  weights : List (List (Option K))

/-- one row of `self._weights / self._weights.sum(axis=1)[:, None]`, `mixmod_pdf.py` 65: weights that add up to zero become `nan` -/
def mixStored (w : List K) : List (Option K) :=
  match mixNormRow w with
  | none => w.map fun _ => none
  | some w' => w'.map some

/-- `mixmod_gen.__init__`, `mixmod_pdf.py` 57-68 -/
def mixBuild (means stds weights : List (List K)) : Except Err (MixTabs K) :=
  if weights.any (fun r => r.any fun w => w < 0) then .error .ValueError
  else .ok ⟨means, stds, weights.map mixStored⟩

/-- `_pdf` and `_cdf` for one PDF at one point, `mixmod_pdf.py` 95-117: the three rows are looked up (`IndexError`), means and widths are broadcast by
`sps.norm`, the result with the weights (`ValueError`), and the products are added. `N` is the density or the CDF of a component. -/
def mixEvalRow (N : K → K → K → K) (t : MixTabs K) (row : ℕ) (x : K) : Except Err (Option K) :=
  match t.weights[row]?, t.means[row]?, t.stds[row]? with
  | some w, some m, some s =>
    match (bcast m.length s.length).bind (bcast w.length) with
    | none => .error .ValueError
    | some n => .ok (((List.range n).mapM fun k => do
        let a ← bget w k
        let v ← a
        let μ ← bget m k
        let σ ← bget s k
        some (v * N μ σ x)).map List.sum)
  | _, _, _ => .error .IndexError

end

section
variable {K : Type} [Field K] [LinearOrder K] [IsStrictOrderedRing K] [FloorRing K]

/-- `packed_interp_gen` with linear packing, `packed_interp_pdf.py` 66-143: `row_max * packed_array` broadcasts the two tables (`ValueError`), the rows are
normalised, and the first `npdf` (the number of rows of packed values) are used. One maximum per row or one for each value. -/
def packedBuild (xs : List K) (codes : List (List ℕ)) (maxima : List (List K)) : Except Err (List (Option (List K × List K))) :=
  match bcast maxima.length codes.length with
  | none => .error .ValueError
  | some _ => (List.range codes.length).mapM fun i =>
    match bget codes i, bget maxima i with
    | some c, some m =>
      if c.length ≠ xs.length then .error .ValueError
      else match bcast m.length c.length with
        | none => .error .ValueError
        | some n => interpNormRow xs (((List.range n).mapM fun k => do
            let a ← bget m k
            let b ← bget c k
            some (a * (b : K) / 255)).getD [])
    | _, _ => .error .IndexError

end

/-- `spline_gen.__init__`, `spline_pdf.py` 133-154: only the shapes of knots and coefficients are compared; no knots at all are refused by `np.min` -/
def splineBuild {K : Type} (x y : List (List K)) (n : List (List ℕ)) : Except Err (List (List K) × List (List K) × List (List ℕ)) :=
  if x.map List.length ≠ y.map List.length then .error .ValueError
  else if x.flatten = [] then .error .ValueError
  else .ok (x, y, n)

/-- `_pdf` of one PDF at one point, `spline_pdf.py` 247-257: `splev(xv, (splx[irow], sply[irow], spln[irow].item()))`; `item()` of several orders, or of
none, is a `ValueError`. `ev` stands for `splev`. -/
def splineEvalRow {K : Type} (ev : List K → List K → ℕ → K → K) (t : List (List K) × List (List K) × List (List ℕ)) (row : ℕ) (x : K) : Except Err K :=
  match t.1[row]?, t.2.1[row]?, t.2.2[row]? with
  | some a, some b, some [k] => .ok (ev a b k x)
  | some _, some _, some _ => .error .ValueError
  | _, _, _ => .error .IndexError

end Verif.Model
