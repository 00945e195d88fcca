import Mathlib.Algebra.Order.Field.Basic

/-!
# Specification: step functions

Independent of the model: the mass of a step function with densities `p_k` on `[e_k, e_{k+1}]`.
-/

namespace Verif.Spec

variable {K : Type*} [Field K] [LinearOrder K]

/-- total mass `Σ_k p_k (e_{k+1} - e_k)` -/
def totalMass : List K → List K → K
  | a :: b :: e, p :: ps => p * (b - a) + totalMass (b :: e) ps
  | _, _ => 0

/-- mass to the left of `x`: `Σ_k p_k * max 0 (min x e_{k+1} - e_k)`, i.e. the integral of the step function
from minus infinity to `x` -/
def massUpTo : List K → List K → K → K
  | a :: b :: e, p :: ps, x => p * max 0 (min x b - a) + massUpTo (b :: e) ps x
  | _, _, _ => 0

/-- `Σ_k p_k (e_{k+1} - e_k) (e_k + e_{k+1}) / 2`: the exact mean of the step function -/
def meanOf : List K → List K → K
  | a :: b :: e, p :: ps => p * (b - a) * ((a + b) / 2) + meanOf (b :: e) ps
  | _, _ => 0

/-- `Σ_k p_k (e_{k+1}^(m+1) - e_k^(m+1)) / (m+1)`: the integral of `t^m` times the step function -/
def rawMoment (m : ℕ) : List K → List K → K
  | a :: b :: e, p :: ps => p * ((b ^ (m + 1) - a ^ (m + 1)) / ((m : K) + 1)) + rawMoment m (b :: e) ps
  | _, _ => 0

end Verif.Spec
