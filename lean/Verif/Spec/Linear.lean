import Mathlib.Algebra.Order.Field.Basic

/-!
# Specification: piecewise-linear functions

Independent of the model: the area below the broken line through `(x_k, y_k)`.
-/

namespace Verif.Spec

variable {K : Type*} [Field K] [LinearOrder K]

/-- area below the broken line: `Σ_k (x_{k+1} - x_k) (y_k + y_{k+1}) / 2` -/
def area : List K → List K → K
  | a :: b :: xs, u :: v :: ys => (b - a) * (u + v) / 2 + area (b :: xs) (v :: ys)
  | _, _ => 0

/-- area below the broken line up to knot number `i` -/
def areaTo : ℕ → List K → List K → K
  | i + 1, a :: b :: xs, u :: v :: ys => (b - a) * (u + v) / 2 + areaTo i (b :: xs) (v :: ys)
  | _, _, _ => 0

/-- the integral of `t` times the broken line: `Σ_k h_k (x_k (2 y_k + y_{k+1}) + x_{k+1} (y_k + 2 y_{k+1})) / 6` -/
def lineMean : List K → List K → K
  | a :: b :: xs, u :: v :: ys => (b - a) * (a * (2 * u + v) + b * (u + 2 * v)) / 6 + lineMean (b :: xs) (v :: ys)
  | _, _ => 0

/-- the integral of `t²` times the broken line: `Σ_k h_k (x_k² (3 y_k + y_{k+1}) + 2 x_k x_{k+1} (y_k + y_{k+1}) + x_{k+1}² (y_k + 3 y_{k+1})) / 12` -/
def lineSquare : List K → List K → K
  | a :: b :: xs, u :: v :: ys =>
    (b - a) * (a ^ 2 * (3 * u + v) + 2 * a * b * (u + v) + b ^ 2 * (u + 3 * v)) / 12 + lineSquare (b :: xs) (v :: ys)
  | _, _ => 0

end Verif.Spec
