import Mathlib.Algebra.Order.Field.Basic
import Mathlib.Algebra.Order.Floor.Ring
import Mathlib.Data.Int.Log

/-!
# Rounding

What is asked of a rounding `fl`, and the floating-point formats that have it.
-/

set_option linter.unusedSectionVars false
set_option autoImplicit false

namespace Verif.Spec

variable {K : Type} [Field K] [LinearOrder K] [IsStrictOrderedRing K]

/-- `fl` rounds every number to a representable one, monotonically, with relative error at most `u` -/
structure Rounding (fl : K → K) (u : K) : Prop where
  mono : ∀ x y, x ≤ y → fl x ≤ fl y
  idem : ∀ x, fl (fl x) = fl x
  zero : fl 0 = 0
  one : fl 1 = 1
  half : ∀ x, fl (x / 2) = fl x / 2
  err : ∀ x, |fl x - x| ≤ u * |x|
  nonneg : 0 ≤ u
  lt_one : u < 1

/-- `x` is representable -/
def IsFloat (fl : K → K) (x : K) : Prop := fl x = x

/-- `y` is `x` up to `k` rounding errors of size `u`, for numbers that are not negative -/
structure Rel (u : K) (k : ℕ) (x y : K) : Prop where
  left : (1 - u) ^ k * x ≤ y
  right : (1 - u) ^ k * y ≤ x
  nonneg : 0 ≤ x

/-- round to a number with `p + 1` binary digits; `r` rounds to an integer -/
def roundDigits [FloorRing K] (r : K → ℤ) (p : ℕ) (x : K) : K :=
  if x = 0 then 0
  else if 0 < x then (r (x / 2 ^ (Int.log 2 x - p)) : K) * 2 ^ (Int.log 2 x - p)
  else -((r (-x / 2 ^ (Int.log 2 (-x) - p)) : K) * 2 ^ (Int.log 2 (-x) - p))

/-- the nearest integer; halves go to the even neighbour -/
def roundEven [FloorRing K] (x : K) : ℤ :=
  if x - ⌊x⌋ < 1 / 2 then ⌊x⌋
  else if 1 / 2 < x - ⌊x⌋ then ⌊x⌋ + 1
  else if ⌊x⌋ % 2 = 0 then ⌊x⌋ else ⌊x⌋ + 1

/-- IEEE 754 double precision, round to nearest, ties to even, with an unbounded exponent -/
def double [FloorRing K] (x : K) : K := roundDigits roundEven 52 x

end Verif.Spec
