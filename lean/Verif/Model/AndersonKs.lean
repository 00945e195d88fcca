import Verif.Model.PitMeta
import Mathlib.Analysis.SpecialFunctions.Pow.Real

/-!
# The Anderson-Darling comparison of two samples (`array_metrics.py` 11-27, `pit.py` 101-129)

`scipy.stats.anderson_ksamp([p, q])` is modelled from its source (the midrank version, which is the default): the statistic only, not the
critical values and the p-value, which are computed from the statistic.
-/

set_option linter.unusedSectionVars false
set_option autoImplicit false

namespace Verif.Model

open Verif Verif.Np

section A2
variable {K : Type} [Field K] [LinearOrder K]

/-- `np.searchsorted(a, x, side="right")`: the number of leading entries that are `<= x` -/
def searchsortedRight (a : List K) (x : K) : ℕ := (a.takeWhile fun v => decide (v ≤ x)).length

/-- `lj` of scipy's `_anderson_ksamp_midrank`: how often `z` occurs in the pooled sample, 1 when all pooled values are distinct -/
def adLj (Z Zstar : List K) (z : K) : K :=
  if Z.length = Zstar.length then 1 else ((searchsortedRight Z z : ℕ) : K) - ((searchsortedLeft Z z : ℕ) : K)

/-- `Bj` of `_anderson_ksamp_midrank` -/
def adBj (Z Zstar : List K) (z : K) : K := ((searchsortedLeft Z z : ℕ) : K) + adLj Z Zstar z / 2

/-- `Mij` of `_anderson_ksamp_midrank`, for the sorted sample `s` -/
def adMij (s : List K) (z : K) : K :=
  ((searchsortedRight s z : ℕ) : K) - (((searchsortedRight s z : ℕ) : K) - ((searchsortedLeft s z : ℕ) : K)) / 2

/-- `inner.sum()` of `_anderson_ksamp_midrank` for one sample -/
def adInner (Z Zstar : List K) (s : List K) : K :=
  Np.sum (Zstar.map fun z =>
    adLj Z Zstar z / (Z.length : K) * ((Z.length : K) * adMij (Np.sort s) z - adBj Z Zstar z * (s.length : K)) ^ 2 /
      (adBj Z Zstar z * ((Z.length : K) - adBj Z Zstar z) - (Z.length : K) * adLj Z Zstar z / 4))

/-- `_anderson_ksamp_midrank([x, y], Z, Zstar, 2, n, N)` -/
def adA2 (x y : List K) : K :=
  let Z := Np.sort (x ++ y)
  let Zstar := Np.unique Z
  (adInner Z Zstar x / (x.length : K) + adInner Z Zstar y / (y.length : K)) * (((Z.length : K) - 1) / (Z.length : K))

/-- `hs_cs = (1. / arange(N - 1, 1, -1)).cumsum()` of `anderson_ksamp` -/
def adHs (N : ℕ) : List K := Np.cumsum ((List.range (N - 2)).map fun (i : ℕ) => 1 / ((N : K) - 1 - (i : K)))

/-- `h = hs_cs[-1] + 1`; `none` when `hs_cs` is empty, where numpy raises `IndexError` -/
def adH (N : ℕ) : Option K := (adHs (K := K) N).getLast?.map (· + 1)

/-- `g = (hs_cs / arange(2, N)).sum()` -/
def adG (N : ℕ) : K := Np.sum (List.zipWith (· / ·) (adHs N) ((List.range (N - 2)).map fun (i : ℕ) => (i : K) + 2))

/-- `sigmasq` of `anderson_ksamp`, from `N`, the number of samples `k`, the sum `H` of the inverse sample sizes, `h` and `g` -/
def adSigmaSq (N k H h g : K) : K :=
  let a := (4 * g - 6) * (k - 1) + (10 - 6 * g) * H
  let b := (2 * g - 4) * k ^ 2 + 8 * h * k + (2 * g - 14 * h - 4) * H - 8 * h + 4 * g - 6
  let c := (6 * h + 2 * g - 2) * k ^ 2 + (4 * h - 4 * g + 6) * k + (2 * h - 6) * H + 4 * h
  let d := (2 * h + 6) * k ^ 2 - 4 * h * k
  (a * N ^ 3 + b * N ^ 2 + c * N + d) / ((N - 1) * (N - 2) * (N - 3))

end A2

/-- `quick_anderson_ksamp(p, q).statistic`, `array_metrics.py` 11-27. A pooled sample of 3 values, where scipy divides by zero, and a
variance of exactly zero are not modelled (`Unmodelled`); a negative variance is the `ValueError` of `math.sqrt`. -/
noncomputable def adKsamp (x y : List ℝ) : Except Err ℝ :=
  let N := x.length + y.length
  if (Np.unique (Np.sort (x ++ y))).length < 2 then .error .ValueError
  else if x.length = 0 ∨ y.length = 0 then .error .ValueError
  else match adH N with
    | none => .error .IndexError
    | some h =>
      if N = 3 then .error .Unmodelled
      else
        let v := adSigmaSq (N : ℝ) 2 (1 / (x.length : ℝ) + 1 / (y.length : ℝ)) h (adG N)
        if v < 0 then .error .ValueError
        else if v = 0 then .error .Unmodelled
        else .ok ((adA2 x y - 1) / Real.sqrt v)

/-- `PIT.evaluate_PIT_anderson_ksamp(pit_min, pit_max).statistic`, `pit.py` 101-129 -/
noncomputable def pitAd (lo hi : ℝ) (samps : List ℝ) : Except Err ℝ := adKsamp (pitAdInput lo hi samps).1 (pitAdInput lo hi samps).2

end Verif.Model
