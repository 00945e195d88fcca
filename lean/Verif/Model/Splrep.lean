import Verif.Model.CubicSpline
import Verif.Model.Spline

/-!
# The B-spline representation of the cubic spline through points

`scipy.interpolate.splrep(x, y)` with its default degree 3 and no smoothing (`spline_pdf.py` 43, 77) returns knots, coefficients and degree. FITPACK solves a linear system for
the coefficients; the model computes them from the cubics of `cubSpline`: coefficient number `i` is the polar form of a cubic (any one of those between knots `i` and `i + 4`) at the
three knots after `i`. That this is the only solution of the linear system is `C141_unique`. scipy appends four zeros to the coefficients, and raises for fewer than four points or
abscissae that do not increase (not modelled: the theorems ask for at least four increasing abscissae).
-/

set_option linter.unusedSectionVars false
set_option autoImplicit false

namespace Verif.Model

variable {K : Type} [Field K] [LinearOrder K]

/-- a cubic: `v + d τ + e τ² + f τ³` with `τ = t - m` -/
structure Cubic (K : Type) where
  m : K
  v : K
  d : K
  e : K
  f : K

/-- its value at `t` -/
def Cubic.val (c : Cubic K) (t : K) : K := cubVal c.m c.v c.d c.e c.f t

/-- its polar form: symmetric, affine in each argument, the value for three equal arguments -/
def Cubic.polar (c : Cubic K) (x y z : K) : K :=
  c.v + c.d * ((x - c.m) + (y - c.m) + (z - c.m)) / 3 + c.e * ((x - c.m) * (y - c.m) + (y - c.m) * (z - c.m) + (z - c.m) * (x - c.m)) / 3 +
    c.f * ((x - c.m) * (y - c.m) * (z - c.m))

/-- the cubics of the chain that starts at `m` -/
def cubPieces (m v d e : K) : List (K × K) → List (Cubic K)
  | p :: p' :: p'' :: t =>
    let f := cubThird m v d e p.1 p.2
    ⟨m, v, d, e, f⟩ :: cubPieces p.1 p.2 (cubSlope m d e f p.1) (cubBend m e f p.1) (p' :: p'' :: t)
  | p :: _ => [⟨m, v, d, e, cubThird m v d e p.1 p.2⟩]
  | [] => []

/-- the cubics after the first one -/
def cubRest (p0 p1 p2 : K × K) (α : K) : List (K × K) → List (Cubic K)
  | p3 :: p4 :: t => cubPieces p2.1 p2.2 (firstSlope p0 p1 p2 α) (firstBend p0 p1 p2 α) (p3 :: p4 :: t)
  | _ => []

/-- all cubics of the spline through the points -/
def cubAll : List (K × K) → List (Cubic K)
  | p0 :: p1 :: p2 :: t =>
    let α := cubStart p0 p1 p2 t
    ⟨p2.1, p2.2, firstSlope p0 p1 p2 α, firstBend p0 p1 p2 α, α⟩ :: cubRest p0 p1 p2 α t
  | _ => []

/-- the knots: the first abscissa four times, the inner abscissae without the second and the last but one, the last abscissa four times (`fpcurf`, interpolation of odd degree) -/
def splKnots : List K → List K
  | [] => []
  | x :: t => List.replicate 4 x ++ (((x :: t).drop 2).dropLast).dropLast ++ List.replicate 4 ((x :: t).getLast (by simp))

/-- coefficient number `i` -/
def splCoef (xs ys : List K) (i : ℕ) : K :=
  match (cubAll (xs.zip ys))[i - 3]? with
  | some c => c.polar ((splKnots xs).getD (i + 1) 0) ((splKnots xs).getD (i + 2) 0) ((splKnots xs).getD (i + 3) 0)
  | none => 0

/-- `splrep(xs, ys)` -/
def splrep (xs ys : List K) : SplRow K := ⟨splKnots xs, (List.range xs.length).map (splCoef xs ys) ++ List.replicate 4 0, 3⟩

end Verif.Model
