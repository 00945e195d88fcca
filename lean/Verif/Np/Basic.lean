import Mathlib.Algebra.Order.Field.Basic
import Mathlib.Algebra.BigOperators.Group.List.Basic
import Mathlib.Data.List.Sort

/-!
# numpy primitives used by qp (1-D part)

Executable models of the numpy functions that the modelled parts of qp call, on `List K` with `K` a
linearly ordered field (exact arithmetic, rounding is not modelled).
-/

namespace Verif.Np

variable {K : Type*}

/-- `np.cumsum` with a starting value. -/
def cumsumFrom [Add K] (acc : K) : List K → List K
  | [] => []
  | a :: t => (acc + a) :: cumsumFrom (acc + a) t

/-- `np.cumsum(a)` of a 1-D array. -/
def cumsum [Add K] [Zero K] (l : List K) : List K := cumsumFrom 0 l

/-- `a[1:] - a[:-1]` of a 1-D array (`np.diff`). -/
def diff [Sub K] : List K → List K
  | [] => []
  | [_] => []
  | a :: b :: t => (b - a) :: diff (b :: t)

/-- elementwise product of two 1-D arrays of equal length. -/
def mul [Mul K] (a b : List K) : List K := List.zipWith (· * ·) a b

/-- `np.sum` of a 1-D array. -/
def sum [Add K] [Zero K] (a : List K) : K := a.foldr (· + ·) 0

/-- The `np.allclose` element test `|a - b| <= atol + rtol * |b|` with the numpy defaults
`rtol = 1e-5`, `atol = 1e-8`. -/
def isclose [Field K] [LinearOrder K] (a b : K) : Bool :=
  decide (|a - b| ≤ 1 / 100000000 + 1 / 100000 * |b|)

/-- `np.allclose(a, c)` of a 1-D array and a scalar. -/
def allcloseScalar [Field K] [LinearOrder K] (a : List K) (c : K) : Bool :=
  a.all fun v => isclose v c

/-- `np.searchsorted(a, x, side="left")`: the number of leading entries that are `< x`
(for a non-decreasing `a`, the first index `i` with `x <= a[i]`). -/
def searchsortedLeft [LinearOrder K] (a : List K) (x : K) : ℕ :=
  (a.takeWhile fun v => decide (v < x)).length

/-- `np.argmax` of a non-empty 1-D array: index of the first maximal entry (`none` when empty,
where numpy raises `ValueError`). -/
def argmax [LinearOrder K] : List K → Option ℕ
  | [] => none
  | a :: t =>
    match argmax t with
    | none => some 0
    | some j => match t[j]? with
      | none => some 0
      | some b => if a < b then some (j + 1) else some 0

/-- `np.sort` of a 1-D array. -/
def sort [LinearOrder K] (l : List K) : List K := l.insertionSort (· ≤ ·)

/-- `np.unique` of a 1-D array: the distinct entries in increasing order. -/
def unique [LinearOrder K] (l : List K) : List K := sort l.dedup

end Verif.Np
