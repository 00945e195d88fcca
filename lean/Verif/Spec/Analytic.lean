import Mathlib.Algebra.Order.Field.Basic

/-!
# A standard distribution moved and stretched

The density and the distribution function of `loc + scale * Z`, where `Z` has density `f` and distribution function `F` between the ends `lo` and
`hi` (`none`: infinite).
-/

set_option autoImplicit false

namespace Verif.Spec

variable {K : Type} [Field K] [LinearOrder K]

/-- density of `loc + scale * Z` at `x` -/
def scaledDensity (lo hi : Option K) (f : K → K) (loc scale x : K) : K :=
  if (∀ a ∈ lo, loc + scale * a ≤ x) ∧ (∀ b ∈ hi, x ≤ loc + scale * b) then f ((x - loc) / scale) / scale else 0

/-- distribution function of `loc + scale * Z` at `x` -/
def scaledCdf (lo hi : Option K) (F : K → K) (loc scale x : K) : K :=
  if ∃ b ∈ hi, loc + scale * b ≤ x then 1
  else if ∃ a ∈ lo, x ≤ loc + scale * a then 0
  else F ((x - loc) / scale)

end Verif.Spec
