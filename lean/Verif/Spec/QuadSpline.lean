import Mathlib.Algebra.Order.Field.Basic
import Mathlib.Data.List.Chain

/-!
# Quadratic splines through points: what the curve of a quantile PDF is
-/

set_option linter.unusedSectionVars false
set_option autoImplicit false

namespace Verif.Spec

variable {K : Type} [Field K] [LinearOrder K]

/-- the points halfway between neighbours -/
def midpoints (xs : List K) : List K := List.zipWith (fun a b => (a + b) / 2) xs xs.tail

/-- where the parabolas meet: the midpoints without the first and the last one, between the two ends -/
def breakPoints (xs : List K) : List K := xs.head?.toList ++ ((midpoints xs).drop 1).dropLast ++ xs.getLast?.toList

/-- `s` goes through all the points, and there is one slope function `s'` with which it is a parabola between any two neighbouring break points (so that value and slope fit together where the
parabolas meet) -/
structure QuadraticSpline (pts : List (K × K)) (s : K → K) : Prop where
  through : ∀ p ∈ pts, s p.1 = p.2
  smooth : ∃ s' : K → K, (breakPoints (pts.map Prod.fst)).IsChain fun a b =>
    ∃ c, ∀ t, a ≤ t → t ≤ b → s t = s a + s' a * (t - a) + c * (t - a) ^ 2 ∧ s' t = s' a + 2 * c * (t - a)

end Verif.Spec
