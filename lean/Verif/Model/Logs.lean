import Verif.Model.Front
import Mathlib.Analysis.SpecialFunctions.Log.Basic

/-!
# `logpdf`, `logcdf` and `logsf` of an ensemble

Source: `/repo/src/qp/ensemble.py` 376-388, 404-416 and 446-459, which forward to the frozen scipy distribution. No qp class defines `_logpdf`, `_logcdf`
or `_logsf`, so scipy's own are used: the natural logarithm of `_pdf`, `_cdf` and `_sf = 1 - _cdf`. The points are finite numbers and the support
of the distribution is the whole line (`Scipy.lean`), so that every point is handed to the class.
-/

set_option linter.unusedSectionVars false
set_option autoImplicit false

namespace Verif.Model

open Verif Verif.Np

/-- `np.log(v)`: `-inf` at zero, `nan` below zero and for `nan` -/
noncomputable def npLog : Option ℝ → Ext ℝ
  | none => .nan
  | some v => if v < 0 then .nan else if v = 0 then .negInf else .fin (Real.log v)

/-- `ens.logpdf(x)`, `ensemble.py` 376-388, `core` being the `_pdf` of the class -/
noncomputable def ensLogpdf (core : Pts ℝ → Pts ℕ → Except Err (List (Option ℝ))) (X : List (List ℝ)) : Except Err (List (List (Ext ℝ))) :=
  scipyEval (fun x row => (core x row).map fun v => v.map npLog) X

/-- `ens.logcdf(x)`, `ensemble.py` 404-416, `core` being the `_cdf` of the class -/
noncomputable def ensLogcdf (core : Pts ℝ → Pts ℕ → Except Err (List (Option ℝ))) (X : List (List ℝ)) : Except Err (List (List (Ext ℝ))) :=
  scipyEval (fun x row => (core x row).map fun v => v.map npLog) X

/-- `ens.logsf(x)`, `ensemble.py` 446-459: `_logsf(x) = log(_sf(x))`, `_sf(x) = 1 - _cdf(x)` -/
noncomputable def ensLogsf (core : Pts ℝ → Pts ℕ → Except Err (List (Option ℝ))) (X : List (List ℝ)) : Except Err (List (List (Ext ℝ))) :=
  scipyEval (fun x row => (core x row).map fun v => v.map fun o => npLog (o.map (1 - ·))) X

end Verif.Model
