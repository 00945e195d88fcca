import Verif.Model.EvalCase
import Verif.Model.Scipy

/-!
# `ppf`, `isf`, `sf`, `median` and `interval` of an ensemble

Source: `/repo/src/qp/ensemble.py` 418-473, 505-507 and 537-539, which forward to the frozen scipy distribution. The front end of scipy
(`rv_continuous.ppf`, `isf`, `sf`, `rv_generic.median`, `interval`) is modelled from its documentation and source: the entries that are not
ordinary probabilities are answered by scipy, the others are gathered row-major (`argsreduce`), handed to the class in one call, and put back in
their places (`np.place`).
-/

set_option linter.unusedSectionVars false
set_option autoImplicit false

namespace Verif.Model

open Verif Verif.Np

variable {K : Type*} [Field K] [LinearOrder K] [IsStrictOrderedRing K] {β γ : Type*}

/-- `np.place` for one row: entries that were handed to the class take the next result, the others keep scipy's own answer -/
def fillRow (good : K → Bool) (other : K → γ) (wrap : β → γ) : List K → List β → List γ
  | [], _ => []
  | q :: t, vals =>
    if good q then
      match vals with
      | v :: vs => wrap v :: fillRow good other wrap t vs
      | [] => other q :: fillRow good other wrap t []
    else other q :: fillRow good other wrap t vals

/-- evaluation with a condition: the good entries of the matrix `X` are gathered, evaluated and put back -/
def frontEval (good : K → Bool) (other : K → γ) (wrap : β → γ) (core : Pts K → Pts ℕ → Except Err (List β)) (X : List (List K)) :
    Except Err (List (List γ)) :=
  match scipyEval core (X.map (·.filter good)) with
  | .error e => .error e
  | .ok V => .ok (List.zipWith (fillRow good other wrap) X V)

/-- `0 < q < 1` -/
def isProb (q : K) : Bool := decide (0 < q ∧ q < 1)

/-- scipy's answer for the other probabilities: the ends of the (infinite) support, or `badvalue` -/
def ppfOther (q : K) : Ext K := if q = 0 then .negInf else if q = 1 then .posInf else .nan

/-- the same for `isf` -/
def isfOther (q : K) : Ext K := if q = 1 then .negInf else if q = 0 then .posInf else .nan

/-- `ens.ppf(q)`, `q` broadcast to one row per PDF -/
def ensPpf (core : Pts K → Pts ℕ → Except Err (List (Option K))) (X : List (List K)) : Except Err (List (List (Ext K))) :=
  frontEval isProb ppfOther Ext.ofOption core X

/-- `1 - q` on an array of any shape -/
def oneMinus : Pts K → Pts K
  | .scalar v => .scalar (1 - v)
  | .vec v => .vec (v.map (1 - ·))
  | .mat v => .mat (v.map (·.map (1 - ·)))

/-- `ens.isf(q)`: `_isf(q) = _ppf(1 - q)` -/
def ensIsf (core : Pts K → Pts ℕ → Except Err (List (Option K))) (X : List (List K)) : Except Err (List (List (Ext K))) :=
  frontEval isProb isfOther Ext.ofOption (fun x row => core (oneMinus x) row) X

/-- `ens.median()`: `ppf(0.5)` for each of the `n` PDFs -/
def ensMedian (core : Pts K → Pts ℕ → Except Err (List (Option K))) (n : ℕ) : Except Err (List (List (Ext K))) :=
  ensPpf core (List.replicate n [1 / 2])

/-- `ens.interval(alpha)`: `ValueError` outside `[0, 1]`, otherwise `ppf((1 - alpha) / 2)` and `ppf((1 + alpha) / 2)` -/
def ensInterval (core : Pts K → Pts ℕ → Except Err (List (Option K))) (n : ℕ) (alpha : K) : Except Err (List (List (Ext K)) × List (List (Ext K))) :=
  if 1 < alpha ∨ alpha < 0 then .error .ValueError
  else do
    let a ← ensPpf core (List.replicate n [(1 - alpha) / 2])
    let b ← ensPpf core (List.replicate n [(1 + alpha) / 2])
    .ok (a, b)

/-- `ens.sf(x)`: `_sf(x) = 1 - _cdf(x)` -/
def ensSf (core : Pts K → Pts ℕ → Except Err (List (Option K))) (X : List (List K)) : Except Err (List (List (Option K))) :=
  scipyEval (fun x row => (core x row).map fun v => v.map fun o => o.map (1 - ·)) X

end Verif.Model
