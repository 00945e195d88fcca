import Verif.Model.QuantSpline

/-!
# Cubic splines through any number of points

`InterpolatedUnivariateSpline(k=3)` (`cdf_spline_derivative.py` 52), `interp1d(kind="cubic")` (`dual_spline_average.py` 112, 123) and `splrep` (`spline_pdf.py` 43, 77)
all build the spline of degree 3 through the points whose break points are the inner abscissae without the second and the last but one ("not a knot"). scipy and FITPACK
solve a banded linear system for the coefficients. The model finds the same curve by shooting: the first cubic goes through the first three points and has one free coefficient `α`; from there each cubic is fixed by value,
slope and curvature at its left end and by the next point, and the miss of the last point is affine in `α`. That there is exactly one such curve is `C140_unique`, so in exact
arithmetic the method does not matter; rounding errors are not modelled. With fewer than four points scipy raises; the model then gives a parabola, a line or a constant through the points.
Coefficients: the cubic with value `v`, slope `d` and half second derivative `e` at `m` and third coefficient `f` is `v + d τ + e τ² + f τ³` with `τ = t - m`.
-/

set_option linter.unusedSectionVars false
set_option autoImplicit false

namespace Verif.Model

variable {K : Type} [Field K] [LinearOrder K]

/-- third coefficient of the cubic that goes through `(x, y)` -/
def cubThird (m v d e x y : K) : K := (y - v - d * (x - m) - e * ((x - m) * (x - m))) / ((x - m) * (x - m) * (x - m))

/-- the cubic at `t` -/
def cubVal (m v d e f t : K) : K := v + d * (t - m) + e * ((t - m) * (t - m)) + f * ((t - m) * (t - m) * (t - m))

/-- its slope at `t` -/
def cubSlope (m d e f t : K) : K := d + 2 * e * (t - m) + 3 * f * ((t - m) * (t - m))

/-- half its second derivative at `t` -/
def cubBend (m e f t : K) : K := e + 3 * f * (t - m)

/-- by how much the chain of cubics that starts at `m` misses the last point -/
def cubMiss (m v d e : K) : List (K × K) → K
  | p :: p' :: p'' :: t =>
    let f := cubThird m v d e p.1 p.2
    cubMiss p.1 p.2 (cubSlope m d e f p.1) (cubBend m e f p.1) (p' :: p'' :: t)
  | [p, p'] => cubVal m v d e (cubThird m v d e p.1 p.2) p'.1 - p'.2
  | _ => 0

/-- the chain of cubics that starts at `m`, at `x` -/
def cubGo (m v d e : K) : List (K × K) → K → K
  | p :: p' :: p'' :: t, x =>
    let f := cubThird m v d e p.1 p.2
    if x ≤ p.1 then cubVal m v d e f x else cubGo p.1 p.2 (cubSlope m d e f p.1) (cubBend m e f p.1) (p' :: p'' :: t) x
  | p :: _, x => cubVal m v d e (cubThird m v d e p.1 p.2) x
  | [], _ => v

/-- second divided difference of three points: half the second derivative of the parabola through them -/
def bend3 (p0 p1 p2 : K × K) : K := ((p2.2 - p1.2) / (p2.1 - p1.1) - (p1.2 - p0.2) / (p1.1 - p0.1)) / (p2.1 - p0.1)

/-- slope at the third point of the parabola through three points -/
def slope3 (p0 p1 p2 : K × K) : K := (p2.2 - p1.2) / (p2.1 - p1.1) + bend3 p0 p1 p2 * (p2.1 - p1.1)

/-- slope at the third point of the first cubic with third coefficient `α` -/
def firstSlope (p0 p1 p2 : K × K) (α : K) : K := slope3 p0 p1 p2 + α * ((p2.1 - p0.1) * (p2.1 - p1.1))

/-- half the second derivative at the third point of the first cubic with third coefficient `α` -/
def firstBend (p0 p1 p2 : K × K) (α : K) : K := bend3 p0 p1 p2 + α * ((p2.1 - p0.1) + (p2.1 - p1.1))

/-- by how much the last point is missed if the first cubic has third coefficient `α` -/
def cubStartMiss (p0 p1 p2 : K × K) (α : K) : List (K × K) → K
  | [] => 0
  | [p3] => cubVal p2.1 p2.2 (firstSlope p0 p1 p2 α) (firstBend p0 p1 p2 α) α p3.1 - p3.2
  | p3 :: p4 :: t => cubMiss p2.1 p2.2 (firstSlope p0 p1 p2 α) (firstBend p0 p1 p2 α) (p3 :: p4 :: t)

/-- the third coefficient of the first cubic for which the last point is met -/
def cubStart (p0 p1 p2 : K × K) (t : List (K × K)) : K :=
  cubStartMiss p0 p1 p2 0 t / (cubStartMiss p0 p1 p2 0 t - cubStartMiss p0 p1 p2 1 t)

/-- the first cubic, and after the third point the chain (if the third point is a break point) -/
def cubFrom (p0 p1 p2 : K × K) (α : K) : List (K × K) → K → K
  | p3 :: p4 :: t, x =>
    if x ≤ p2.1 then cubVal p2.1 p2.2 (firstSlope p0 p1 p2 α) (firstBend p0 p1 p2 α) α x
    else cubGo p2.1 p2.2 (firstSlope p0 p1 p2 α) (firstBend p0 p1 p2 α) (p3 :: p4 :: t) x
  | _, x => cubVal p2.1 p2.2 (firstSlope p0 p1 p2 α) (firstBend p0 p1 p2 α) α x

/-- the cubic spline through the points, continued by its first and its last cubic -/
def cubSpline : List (K × K) → K → K
  | [], _ => 0
  | [p0], _ => p0.2
  | [p0, p1], x => p0.2 + (p1.2 - p0.2) / (p1.1 - p0.1) * (x - p0.1)
  | p0 :: p1 :: p2 :: t, x => cubFrom p0 p1 p2 (cubStart p0 p1 p2 t) t x

end Verif.Model
