import Mathlib.Algebra.Order.Field.Basic

/-!
# Specification: values of step functions, broken lines and mixtures

Independent of the model.
-/

set_option linter.unusedSectionVars false
set_option autoImplicit false

namespace Verif.Spec

variable {K : Type} [Field K] [LinearOrder K]

/-- the step function with value `v_k` on `[e_k, e_{k+1})`, zero elsewhere -/
def stepLeft : List K → List K → K → K
  | a :: b :: e, v :: r, x => if a ≤ x ∧ x < b then v else stepLeft (b :: e) r x
  | _, _, _ => 0

/-- the step function with value `v_k` on `(e_k, e_{k+1}]`, zero elsewhere -/
def stepRight : List K → List K → K → K
  | a :: b :: e, v :: r, x => if a < x ∧ x ≤ b then v else stepRight (b :: e) r x
  | _, _, _ => 0

/-- the broken line through the points `(x_k, y_k)`, zero outside `[x_0, x_n]` -/
def brokenLine : List K → List K → K → K
  | a :: b :: xs, u :: v :: ys, x => if a ≤ x ∧ x ≤ b then u + (v - u) / (b - a) * (x - a) else brokenLine (b :: xs) (v :: ys) x
  | _, _, _ => 0

/-- the mixture of the components `(centre, width, weight)` with the weights divided by their sum -/
def mixture (phi : K → K → K → K) (comps : List (K × K × K)) (x : K) : K :=
  (comps.map fun c => c.2.2 / (comps.map fun c => c.2.2).sum * phi c.1 c.2.1 x).sum

/-- one basis function of a sparse representation: its coefficient and its position on the three axes (centre, width, third parameter) -/
structure Basis where
  coef : ℕ
  i : ℕ
  j : ℕ
  k : ℕ

/-- the axes of the dictionary: lowest and highest centre and width, number of values on each of the three axes -/
structure Axes (K : Type) where
  m0 : K
  m1 : K
  s0 : K
  s1 : K
  nm : ℕ
  ns : ℕ
  nv : ℕ

/-- value number `i` of `n` evenly spaced values from `lo` to `hi` -/
def tick (lo hi : K) (n i : ℕ) : K := lo + (i : K) * ((hi - lo) / ((n : K) - 1))

/-- the profile of a basis function at `v`, zero where it is below `cut`; the third parameter runs from 0 to one half -/
def cutProfile (profile : K → K → K → K) (cut : K) (a : Axes K) (b : Basis) (v : K) : K :=
  if cut ≤ profile (v - tick a.m0 a.m1 a.nm b.i) (tick a.s0 a.s1 a.ns b.j) (tick 0 (1 / 2) a.nv b.k) then
    profile (v - tick a.m0 a.m1 a.nm b.i) (tick a.s0 a.s1 a.ns b.j) (tick 0 (1 / 2) a.nv b.k) else 0

/-- the profile divided by its norm on the grid -/
def basisCurve (profile : K → K → K → K) (nrm : List K → K) (cut : K) (xs : List K) (a : Axes K) (b : Basis) (v : K) : K :=
  cutProfile profile cut a b v / nrm (xs.map (cutProfile profile cut a b))

/-- the sum of the basis functions: the first with weight one, the others with their coefficient in units of 1/32000 -/
def sparseCurve (profile : K → K → K → K) (nrm : List K → K) (cut : K) (xs : List K) (a : Axes K) : List Basis → K → K
  | [], _ => 0
  | b :: bs, v => basisCurve profile nrm cut xs a b v + (bs.map fun c => (c.coef : K) / 32000 * basisCurve profile nrm cut xs a c v).sum

/-- B-spline number `m` of degree `d` on the knots `t` (recurrence of Cox and de Boor; quotients by zero are zero) -/
def bBasis (t : ℕ → K) : ℕ → ℕ → K → K
  | 0, m, x => if t m ≤ x ∧ x < t (m + 1) then 1 else 0
  | d + 1, m, x => (x - t m) / (t (m + d + 1) - t m) * bBasis t d m x + (t (m + d + 2) - x) / (t (m + d + 2) - t (m + 1)) * bBasis t d (m + 1) x

/-- the spline of degree `k` with the knots `t` and the coefficients `c` -/
def bSpline (t c : List K) (k : ℕ) (x : K) : K :=
  ((List.range (t.length - k - 1)).map fun (m : ℕ) => c.getD m 0 * bBasis (fun i => t.getD i 0) k m x).sum

end Verif.Spec
