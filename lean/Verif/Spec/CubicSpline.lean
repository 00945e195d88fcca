import Mathlib.Algebra.Order.Field.Basic
import Mathlib.Data.List.Chain

/-!
# Cubic splines through points
-/

set_option linter.unusedSectionVars false
set_option autoImplicit false

namespace Verif.Spec

variable {K : Type} [Field K] [LinearOrder K]

/-- where the cubics meet: the abscissae without the second and the last but one -/
def cubicBreaks (xs : List K) : List K := xs.head?.toList ++ ((xs.drop 2).dropLast).dropLast ++ xs.getLast?.toList

/-- between `a` and `b` the function `s` is a cubic with slope `s'` and second derivative `s''` -/
def CubicPiece (s s' s'' : K → K) (a b : K) : Prop :=
  ∃ f, ∀ t, a ≤ t → t ≤ b → s t = s a + s' a * (t - a) + s'' a / 2 * (t - a) ^ 2 + f * (t - a) ^ 3 ∧
    s' t = s' a + s'' a * (t - a) + 3 * f * (t - a) ^ 2 ∧ s'' t = s'' a + 6 * f * (t - a)

/-- `s` goes through all the points, and there are a slope `s'` and a second derivative `s''` with which it is a cubic between any two neighbouring break points (so that value, slope and
curvature fit together where the cubics meet) -/
structure CubicSpline (pts : List (K × K)) (s : K → K) : Prop where
  through : ∀ p ∈ pts, s p.1 = p.2
  smooth : ∃ s' s'' : K → K, (cubicBreaks (pts.map Prod.fst)).IsChain (CubicPiece s s' s'')

end Verif.Spec
