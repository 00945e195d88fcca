import Verif.Model.EvalCase

/-!
# Random variates of an ensemble

Sources: `/repo/src/qp/ensemble.py` 475-489 (`rvs`), `/repo/src/qp/pdf_gen.py` 225-236 (the array of row numbers of a frozen ensemble) and
312-318 (`_rvs`). In between is `scipy.stats.rv_generic.rvs`, of which the check of the requested size and the treatment of the row
numbers are modelled (from the source of scipy, not part of /repo). The random number generator is not modelled: the theorems are about
every array of draws.
-/

set_option linter.unusedSectionVars false
set_option autoImplicit false

namespace Verif.Model

open Verif Verif.Np

/-- `squeeze_left` in scipy's `_argcheck_rvs`: leading axes of length one are dropped -/
def squeezeLeft : List ℕ → List ℕ
  | 1 :: t => squeezeLeft t
  | l => l

/-- a shape extended on the left with ones to `n` axes -/
def padLeft (n : ℕ) (l : List ℕ) : List ℕ := List.replicate (n - l.length) 1 ++ l

/-- the check of `_argcheck_rvs`: every axis of the parameters has length one or the requested length -/
def rvsSizeOk (params size : List ℕ) : Bool :=
  let b := squeezeLeft params
  let n := max b.length size.length
  ((padLeft n b).zip (padLeft n size)).all fun p => decide (p.1 = 1) || decide (p.1 = p.2)

/-- the row numbers as `_rvs` gets them: the array `arange(npdf).reshape(shape + (1,))` without its leading axes of length one. Ranks above
two do not pass the size check (`rvsSizeOk`). -/
def rvsRows (shape : List ℕ) : Pts ℕ :=
  match squeezeLeft (shape ++ [1]) with
  | [] => .scalar 0
  | _ => .mat ((List.range shape.prod).map fun i => [i])

/-- the draws `random_state.uniform(size=(n, m))` -/
def drawn {K : Type} (U : ℕ → ℕ → K) (n m : ℕ) : List (List K) := (List.range n).map fun i => (List.range m).map (U i)

/-- `ens.rvs(size)`, `ensemble.py` 475-489, for an ensemble whose PDFs are arranged in `shape`; `U i j` is the draw at `(i, j)`, `core` the
`_ppf` of the class. `size=(npdf, None)` cannot be drawn (`TypeError`). Ensembles without PDFs are not followed. -/
def ensRvs {K β : Type} (core : Pts K → Pts ℕ → Except Err (List β)) (shape : List ℕ) (size : Option ℕ) (U : ℕ → ℕ → K) :
    Except Err (List (List β)) :=
  if shape.prod = 0 then .error .Unmodelled
  else if !rvsSizeOk (shape ++ [1]) [shape.prod, size.getD 0] then .error .ValueError
  else match size with
    | none => .error .TypeError
    | some m => match core (.mat (drawn U shape.prod m)) (rvsRows shape) with
      | .error e => .error e
      | .ok v => if v.length = shape.prod * m then .ok (unflatten (drawn U shape.prod m) v) else .error .ValueError

end Verif.Model
