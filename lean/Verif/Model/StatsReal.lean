import Verif.Model.Stats
import Mathlib.Analysis.SpecialFunctions.Pow.Real

/-!
# `stats`, `std`: standard deviation, skewness and kurtosis of an ensemble

Source: `/repo/src/qp/ensemble.py` 491-519. `self._frozen.stats(moments=...)` and `self._frozen.std()` are scipy's `rv_generic.stats` and `std`
(`scipy/stats/_distn_infrastructure.py`) for location 0 and scale 1, with the `_munp` of the class (see `Stats.lean`). Results that are not finite (nan or
infinite) are `none`. One PDF at a time. Simplified: the four raw moments are computed whether they are asked for or not (they only fail together).
-/

set_option autoImplicit false

namespace Verif.Model

/-- `std()`: `sqrt(var())`, not a number for a negative variance -/
noncomputable def statsStd (munp : ℕ → Except Err ℝ) : Except Err (Option ℝ) := do
  let v ← statsVar munp
  .ok (if v < 0 then none else some (Real.sqrt v))

/-- the skewness computed for the letter `s`: `mu3 / np.power(mu2, 1.5)` -/
noncomputable def statsSkew (mu mu2 mu3p : ℝ) : Option ℝ :=
  let mu3 := (-mu * mu - 3 * mu2) * mu + mu3p
  if mu2 ≤ 0 then none else some (mu3 / mu2 ^ (3 / 2 : ℝ))

/-- the third central moment used for the letter `k`: recomputed from the skewness when that was asked for as well, else from the raw moments -/
noncomputable def statsMu3 (skewAsked : Bool) (mu mu2 mu3p : ℝ) : Option ℝ :=
  if skewAsked then (statsSkew mu mu2 mu3p).map fun g1 => g1 * mu2 ^ (3 / 2 : ℝ)
  else some ((-mu * mu - 3 * mu2) * mu + mu3p)

/-- the excess kurtosis computed for the letter `k` -/
noncomputable def statsKurt (skewAsked : Bool) (mu mu2 mu3p mu4p : ℝ) : Option ℝ :=
  (statsMu3 skewAsked mu mu2 mu3p).bind fun mu3 =>
    let mu4 := ((-mu ^ 2 - 6 * mu2) * mu - 4 * mu3) * mu + mu4p
    if mu2 = 0 then none else some (mu4 / mu2 ^ 2 - 3)

/-- `stats(moments)`: the list of results (a single one is returned without the tuple around it) -/
noncomputable def statsOut (munp : ℕ → Except Err ℝ) (moments : String) : Except Err (List (Option ℝ)) := do
  let mu ← munp 1
  let mu2p ← munp 2
  let mu3p ← munp 3
  let mu4p ← munp 4
  let mu2 := mu2p - mu * mu
  let has := fun (c : Char) => moments.toList.contains c
  .ok ((if has 'm' then [some mu] else []) ++ (if has 'v' then [some mu2] else []) ++ (if has 's' then [statsSkew mu mu2 mu3p] else []) ++
    (if has 'k' then [statsKurt (has 's') mu mu2 mu3p mu4p] else []))

end Verif.Model
