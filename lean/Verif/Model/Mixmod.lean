import Verif.Np.Interp
import Verif.Model.EvalCase

/-!
# Gaussian mixtures

Source: `/repo/src/qp/mixmod_pdf.py`. The component densities and distribution functions (`sps.norm(...).pdf`, `.cdf`)
are arbitrary functions here.
-/

namespace Verif.Model

open Verif Verif.Np

variable {K : Type*} [Field K] [LinearOrder K]

/-- `self._weights / self._weights.sum(axis=1)[:, None]` for one row, `mixmod_pdf.py` 63; `none`: division by zero. -/
def mixNormRow (w : List K) : Option (List K) :=
  if Np.sum w = 0 then none else some (w.map (· / Np.sum w))

/-- the weights stored by `mixmod_gen.__init__`, `mixmod_pdf.py` 57-64. -/
def mixInit (weights : List (List K)) : Except Err (List (Option (List K))) :=
  if weights.any (fun r => r.any fun w => w < 0) then .error .ValueError
  else .ok (weights.map mixNormRow)

/-- `_pdf` / `_cdf` of one mixture at one point, `mixmod_pdf.py` 95-117: weights times component values, summed. -/
def mixEval (w : List K) (comps : List (K → K)) (x : K) : K :=
  Np.sum (List.zipWith (fun a c => a * c x) w comps)

/-- results of a row lookup that may be out of range -/
def sequenceIdx {γ : Type*} (l : List (Option γ)) : Except Err (List γ) :=
  match l.mapM id with
  | none => .error .IndexError
  | some v => .ok v

/-- `_ppf`, `mixmod_pdf.py` 120-136. `inv r q` stands for interpolating, at `q`, the inverse of the CDF of mixture `r`
tabulated on the common grid. `cdf_vals` has one line per entry of `rr`, and `interpolate_multi_x_y(x, row, cdf_vals, ...)`
indexes those lines with the row *number*. -/
def mixPpf {γ : Type*} (inv : ℕ → K → γ) (x : Pts K) (row : Pts ℕ) : Except Err (List γ) :=
  let lookup (table : List ℕ) : ℕ → K → Option γ := fun r q => (table[r]?).map fun p => inv p q
  match getEvalCase x row with
  | .ok (.factor _ rr) => (dispatch (lookup rr) (lookup rr) (lookup rr) x row) >>= sequenceIdx
  | .ok (.flat _ rr) => (dispatch (lookup rr.ravel) (lookup rr.ravel) (lookup rr.ravel) x row) >>= sequenceIdx
  | .ok _ => .error .ValueError
  | .error e => .error e

/-- `rv_continuous.ppf` keeps the pairs with `0 < q < 1` (`argsreduce`) before it calls `_ppf`. -/
def reduceProb (X : List (List K)) : List K × List ℕ :=
  ((X.flatten.zip (flatRows 0 X)).filter fun p => 0 < p.1 ∧ p.1 < 1).unzip

end Verif.Model
