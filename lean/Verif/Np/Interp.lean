import Verif.Np.Basic

/-!
# `np.interp` and `scipy.interpolate.interp1d(kind="linear")`

Knots are given as a list of `(x, y)` pairs with non-decreasing `x` (qp always passes sorted knots for
non-negative inputs; `interp1d`'s internal stable sort is the identity on them and is not modelled).
-/

namespace Verif.Np

variable {K : Type*} [Field K] [LinearOrder K]

/-- The straight line through `(x0,y0)` and `(x1,y1)`, evaluated as numpy/scipy do:
`slope * (x - x0) + y0`. -/
def line (x0 y0 x1 y1 x : K) : K := (y1 - y0) / (x1 - x0) * (x - x0) + y0

/-- Inner loop of `np.interp` (numpy `arr_interp`): find the last knot with `xj <= x`; on the last knot, or
exactly on a knot, return its ordinate, otherwise interpolate in the cell that starts there. -/
def npInterpGo (x0 y0 : K) : List (K × K) → K → K
  | [], _ => y0
  | (x1, y1) :: t, x =>
    if x1 ≤ x then npInterpGo x1 y1 t x
    else if x0 = x then y0 else line x0 y0 x1 y1 x

/-- `interp1d(xs, ys, bounds_error=False, fill_value=(lo, hi))(x)` for one-dimensional `ys`
(scipy delegates to `np.interp` in this case, then overwrites the points out of bounds).
`none`: no knots, scipy raises `ValueError`. -/
def interp (lo hi : K) (knots : List (K × K)) (x : K) : Option K :=
  match knots with
  | [] => none
  | (x0, y0) :: t =>
    if x < x0 then some lo
    else if (((x0, y0) :: t).getLast (by simp)).1 < x then some hi
    else some (npInterpGo x0 y0 t x)

/-- Inner loop of scipy's `_call_linear` (used when `ys` is two-dimensional): the cell is
`searchsorted(xs, x)` clipped to `1 .. n-1`. -/
def linGo (x0 y0 : K) : List (K × K) → K → K
  | [], _ => y0
  | [(x1, y1)], x => line x0 y0 x1 y1 x
  | (x1, y1) :: (x2, y2) :: t, x =>
    if x ≤ x1 then line x0 y0 x1 y1 x else linGo x1 y1 ((x2, y2) :: t) x

/-- `interp1d(xs, ys2d, bounds_error=False, fill_value=(lo, hi))(x)` for one row of a two-dimensional
`ys`. -/
def interpLin (lo hi : K) (knots : List (K × K)) (x : K) : Option K :=
  match knots with
  | [] => none
  | (x0, y0) :: t =>
    if x < x0 then some lo
    else if (((x0, y0) :: t).getLast (by simp)).1 < x then some hi
    else some (linGo x0 y0 t x)

end Verif.Np
