import Verif.Model.QuantEval

/-!
# `interp1d(kind="quadratic")` on any number of knots (`utils.py` 545, 686, 742 called from `quant_pdf.py` 220-240)

scipy hands the knots to `make_interp_spline` with degree 2. The result is a spline of degree 2 through all the points, with break
points halfway between neighbouring abscissae; the first and the last of these midpoints are left out, so that there are as many free coefficients
as points. scipy finds the coefficients by solving a banded linear system. The model finds the same curve by shooting: starting with the
slope `d` at the first knot, each parabola is fixed by its value and slope at its left end and by the knot that it contains; the last
parabola has to contain one more knot, and the miss there is affine in `d`. That there is exactly one such curve is `C139_unique`; so the two
methods agree in exact arithmetic. Rounding errors of the banded solver are not modelled. With fewer than three knots scipy raises; the model then returns a curve through the knots.
-/

set_option linter.unusedSectionVars false
set_option autoImplicit false

namespace Verif.Model

variable {K : Type} [Field K] [LinearOrder K]

/-- coefficient of the square in the parabola with value `v` and slope `d` at `m` that goes through `(x, y)` -/
def quadCurv (m v d x y : K) : K := (y - v - d * (x - m)) / ((x - m) * (x - m))

/-- the parabola with value `v`, slope `d` at `m` and coefficient `c` of the square, at `t` -/
def quadVal (m v d c t : K) : K := v + d * (t - m) + c * ((t - m) * (t - m))

/-- slope of that parabola at `t` -/
def quadSlope (m d c t : K) : K := d + 2 * c * (t - m)

/-- by how much the chain of parabolas that starts at `m` with value `v` and slope `d` misses the last knot (`make_interp_spline`: the last equation of the linear system) -/
def quadMiss (m v d : K) : List (K × K) → K
  | p :: p' :: p'' :: t =>
    let c := quadCurv m v d p.1 p.2
    let m' := (p.1 + p'.1) / 2
    quadMiss m' (quadVal m v d c m') (quadSlope m d c m') (p' :: p'' :: t)
  | [p, p'] => quadVal m v d (quadCurv m v d p.1 p.2) p'.1 - p'.2
  | _ => 0

/-- the chain of parabolas that starts at `m` with value `v` and slope `d`, at `x` (`interp1d.__call__` with a spline of degree 2) -/
def quadGo (m v d : K) : List (K × K) → K → K
  | p :: p' :: p'' :: t, x =>
    let c := quadCurv m v d p.1 p.2
    let m' := (p.1 + p'.1) / 2
    if x ≤ m' then quadVal m v d c x else quadGo m' (quadVal m v d c m') (quadSlope m d c m') (p' :: p'' :: t) x
  | p :: _, x => quadVal m v d (quadCurv m v d p.1 p.2) x
  | [], _ => v

/-- the slope at the first knot for which the last knot is met -/
def quadStart (x0 y0 : K) (t : List (K × K)) : K :=
  quadMiss x0 y0 0 t / (quadMiss x0 y0 0 t - quadMiss x0 y0 1 t)

/-- `interp1d(xs, ys, kind="quadratic")` inside the range of the knots -/
def quadSpline : List (K × K) → K → K
  | [], _ => 0
  | p :: t, x => quadGo p.1 p.2 (quadStart p.1 p.2 t) t x

end Verif.Model
