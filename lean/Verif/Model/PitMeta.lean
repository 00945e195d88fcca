import Verif.Model.Pit
import Verif.Model.Metrics
import Verif.Model.Quant

/-!
# Statistics of the PIT (`pit.py` 83-174 and 226-252)

scipy's `kstest` and `cramervonmises` are modelled from their source (the statistic only, not the p-value); `anderson_ksamp` is in `AndersonKs.lean`, here a function
of the two lists it is given. The quadratic interpolant of the PIT distribution is an argument (`spl`).
-/

set_option linter.unusedSectionVars false
set_option autoImplicit false

namespace Verif.Model

open Verif Verif.Np

variable {K : Type} [Field K] [LinearOrder K]

/-- `scipy.stats.uniform.cdf` -/
def uniformCdf (x : K) : K := max 0 (min 1 x)

/-- `PIT.evaluate_PIT_KS()`, `pit.py` 145-155: `scipy.stats.kstest(samples, uniform.cdf).statistic`, two-sided -/
def pitKs (samps : List K) : Except Err K := ksStat uniformCdf samps

/-- `PIT.evaluate_PIT_CvM()`, `pit.py` 131-143: `scipy.stats.cramervonmises` needs two observations (`ValueError`) -/
def pitCvm (samps : List K) : Except Err K := if samps.length ≤ 1 then .error .ValueError else cvmStat uniformCdf samps

/-- `PIT._trim_pit_values(cdf_min, cdf_max)`, `pit.py` 226-252 -/
def trimPit (lo hi : K) (samps : List K) : List K := samps.filter fun s => decide (lo ≤ s) && decide (s ≤ hi)

/-- the two lists that `PIT.evaluate_PIT_anderson_ksamp(pit_min, pit_max)` compares, `pit.py` 125-129 -/
def pitAdInput (lo hi : K) (samps : List K) : List K × List K := (trimPit lo hi samps, linspace lo hi (trimPit lo hi samps).length)

variable [FloorRing K]

/-- `PIT(qp_ens, true_vals, eval_grid)` with the quantile ensemble it constructs (`pit.py` 199-205, `quant_pdf.py` 103-130): the samples, and
the stored quantiles and locations. `np.min` of no locations raises `ValueError`. -/
def pitFull (cdfs : List (K → Option K)) (zs grid : List K) : Except Err (List K × List K × List K) := do
  let (samps, qs, ls) ← pitInit cdfs zs grid
  if ls = [] then .error .ValueError
  else
    let (q, l) ← quantInit qs [ls] true
    .ok (samps, q, l.headD [])

/-- `PIT.evaluate_PIT_outlier_rate(pit_min, pit_max)`, `pit.py` 157-173 -/
def pitOutlier (spl : List (K × K) → K → K) (pit : List K × List K × List K) (lo hi : K) : Option K := do
  let a ← quantCdf spl pit.2.1 pit.2.2 lo
  let b ← quantCdf spl pit.2.1 pit.2.2 hi
  some (a + (1 - b))

end Verif.Model
