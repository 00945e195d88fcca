import Verif.Model.Hist
import Verif.Model.InterpPdf

/-!
# Moments, mean and variance of an ensemble

Source: `/repo/src/qp/ensemble.py` 509-523, `/repo/src/qp/pdf_gen.py` 366-383. `self._frozen.moment(n)` is scipy's `rv_generic.moment` with location 0:
`1.0` for order 0, otherwise `_munp(n)` as the classes have no `_stats`. `self._frozen.mean()` and `.var()` are scipy's `rv_generic.stats` (`scipy/stats/_distn_infrastructure.py`):
for classes without `_stats` the mean is `_munp(1)` and the variance `_munp(2) - mean * mean`. `_munp` of the gridded classes is
`custom_generic_moment` (`hist_pdf.py` 132-145, `interp_pdf.py` 146-158). The packing of the values into an array is not modelled: one PDF at a time.
-/

set_option autoImplicit false

namespace Verif.Model

variable {K : Type*} [Field K]

/-- `moment(n)` of one PDF, given its `_munp`: scipy answers order 0 itself -/
def statsMoment (munp : ℕ → Except Err K) (n : ℕ) : Except Err K := if n = 0 then .ok 1 else munp n

/-- `mean()` of one PDF, given its `_munp` -/
def statsMean (munp : ℕ → Except Err K) : Except Err K := munp 1

/-- `var()` of one PDF, given its `_munp` -/
def statsVar (munp : ℕ → Except Err K) : Except Err K := do
  let m2 ← munp 2
  let mu ← munp 1
  .ok (m2 - mu * mu)

end Verif.Model
