import Verif.Model.SparsePdf
import Verif.Model.EnsEval
import Mathlib.Algebra.Order.Floor.Ring

/-!
# Densities of sparse ensembles

Source: `/repo/src/qp/sparse_pdf.py` 34-62, `/repo/src/qp/sparse_rep.py` 32-74. The Voigt profile and the Euclidean norm are arguments.
-/

set_option linter.unusedSectionVars false
set_option autoImplicit false

namespace Verif.Model

open Verif Verif.Np

variable {K : Type} [Field K] [LinearOrder K] [IsStrictOrderedRing K] [FloorRing K]

/-- `kwargs.pop("cut", 1.0e-5)`, `sparse_pdf.py` 40 (only finite numbers are modelled) -/
def cutOf (data : Dict K) : K :=
  match Dict.get? data "cut" with
  | some v => match v.toArr.data with
    | [.num (some c)] => c
    | _ => 1 / 100000
  | none => 1 / 100000

/-- one column of the dictionary, `sparse_rep.py` 70-72; `none`: divided by a zero norm -/
def sparseCol (profile : K → K → K → K) (nrm : List K → K) (cut : K) (x : List K) (m s g : K) : Option (List K) :=
  let p := cutBelow cut (x.map fun v => profile (v - m) s g)
  if nrm p = 0 then none else some (p.map (· / nrm p))

/-- the range `np.linspace(r[0], r[1], n)`, `sparse_rep.py` 59-61, for a recorded number `n` -/
def dimRange (lo hi n : K) : List K := Np.linspace lo hi ⌊n⌋.toNat

/-- `create_basis`, `sparse_rep.py` 32-40, from the recorded metadata -/
def sparseDict (profile : K → K → K → K) (nrm : List K → K) (cut : K) (md : Dict K) : List (Option (List K)) :=
  let mu := metaGrid md "mu"
  let sig := metaGrid md "sig"
  let dims := metaGrid md "dims"
  voigtBasis none (sparseCol profile nrm cut (metaGrid md "xvals")) (dimRange (mu.getD 0 0) (mu.getD 1 0) (dims.getD 0 0))
    (dimRange (sig.getD 0 0) (sig.getD 1 0) (dims.getD 1 0)) (dimRange 0 (1 / 2) (dims.getD 2 0))

/-- the density of one PDF of the class at a point, `sparse_pdf.py` 41-55 and `interp_pdf.py` 118-122; the second normalisation, by `interp_gen`, divides by
one. `none` for `nan`, and for codes outside the dictionary, for which the constructor raises `IndexError`. -/
def sparseEval (profile : K → K → K → K) (nrm : List K → K) (cut : K) (md : Dict K) (row : String → List (Elem K)) (x : K) : Option K := do
  let codes ← finites (row "sparse_indices")
  let dec := decodeRow (K := K) (codes.map fun c => ⌊c⌋)
  let cols ← dec.1.mapM fun i => ((sparseDict profile nrm cut md)[i.toNat]?).join
  let grid := metaGrid md "xvals"
  let y ← trapzNorm grid (weightedSum grid.length cols dec.2)
  interpPdf grid y x

end Verif.Model
