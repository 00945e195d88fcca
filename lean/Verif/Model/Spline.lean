import Verif.Model.EvalCase

/-!
# Spline PDFs

Source: `/repo/src/qp/spline_pdf.py` 83-268. A row is a triple (knots `splx`, coefficients `sply`, degree `spln`) as returned by
`scipy.interpolate.splrep`. `splev` and `splint` are FITPACK routines and not part of the repository; they are modelled after their documentation
and algorithm:

* `splev` finds the knot interval of the point and evaluates the B-splines that live there with the recurrence of Cox and de Boor; outside the base
  interval the polynomial of the first or last interval is continued (`ext=0`);
* `splint` uses Gaffney's formula for the indefinite integral of a B-spline and takes the spline to be zero outside the base interval.

Knots are read as a function `ℕ → K`, which is only used at positions inside the list.
-/

set_option linter.unusedSectionVars false
set_option autoImplicit false

namespace Verif.Model

open Verif Verif.Np

variable {K : Type*} [Field K] [LinearOrder K] [IsStrictOrderedRing K]

/-- The polynomial that B-spline number `m` of degree `d` agrees with on the knot interval `l`: recurrence of Cox and de Boor (`fpbspl`). Division by
zero gives zero, as FITPACK's guard does for coinciding knots. -/
def bspl (t : ℕ → K) (l : ℕ) : ℕ → ℕ → K → K
  | 0, m, _ => if m = l then 1 else 0
  | d + 1, m, x => (x - t m) / (t (m + d + 1) - t m) * bspl t l d m x + (t (m + d + 2) - x) / (t (m + d + 2) - t (m + 1)) * bspl t l d (m + 1) x

/-- the search `while x >= t[l+1] and l < last: l += 1` of `splev`, with `last - l` steps allowed -/
def climb (t : ℕ → K) (x : K) : ℕ → ℕ → ℕ
  | 0, l => l
  | f + 1, l => if x < t (l + 1) then l else climb t x f (l + 1)

/-- a row of a spline ensemble -/
structure SplRow (K : Type*) where
  t : List K
  c : List K
  k : ℕ

/-- knot number `i` -/
def SplRow.knot (r : SplRow K) (i : ℕ) : K := r.t.getD i 0

/-- number of the first knot of the last interval: `n - k - 2` -/
def SplRow.last (r : SplRow K) : ℕ := r.t.length - r.k - 2

/-- the knot interval of `x`, between the intervals `k` and `n - k - 2` -/
def SplRow.interval (r : SplRow K) (x : K) : ℕ := climb r.knot x (r.last - r.k) r.k

/-- the polynomial of interval `l` -/
def SplRow.piece (r : SplRow K) (l : ℕ) (x : K) : K :=
  ((List.range (r.k + 1)).map fun (j : ℕ) => r.c.getD (l - r.k + j) 0 * bspl r.knot l r.k (l - r.k + j) x).sum

/-- `splev(x, (t, c, k))` -/
def splev (r : SplRow K) (x : K) : K := r.piece (r.interval x) x

/-- Gaffney's formula (`fpintb`): the fraction of the integral of B-spline `m` that lies to the left of `x`, for `x` in the knot interval `l` -/
def splRes (t : ℕ → K) (l k m : ℕ) (x : K) : K :=
  if m + k < l then 1
  else ((List.range (k + 1)).map fun (j : ℕ) => bspl t l j (m + k - j) x * (x - t (m + k - j)) / (t (m + k + 1) - t (m + k - j))).sum

/-- the indefinite integral of the spline, evaluated with the polynomials of interval `l` -/
def SplRow.prim (r : SplRow K) (l : ℕ) (x : K) : K :=
  ((List.range (r.t.length - r.k - 1)).map fun (m : ℕ) => r.c.getD m 0 * ((r.knot (m + r.k + 1) - r.knot m) / ((r.k : K) + 1) * splRes r.knot l r.k m x)).sum

/-- first and last point of the base interval -/
def SplRow.lo (r : SplRow K) : K := r.knot r.k
def SplRow.hi (r : SplRow K) : K := r.knot (r.last + 1)

/-- `splint(a, b, (t, c, k))` for `a < b`: the limits are moved into the base interval -/
def splintUp (r : SplRow K) (a b : K) : K :=
  let a' := max a r.lo
  let b' := min b r.hi
  if b' < a' then 0 else r.prim (r.interval b') b' - r.prim (r.interval a') a'

/-- `splint(a, b, (t, c, k))` -/
def splint (r : SplRow K) (a b : K) : K :=
  if a < b then splintUp r a b else if a = b then 0 else -splintUp r b a

/-- `np.min(splx)` over all rows, `spline_pdf.py` 143 (the rows are not empty) -/
def splXmin : List (SplRow K) → Option K := fun rows => (rows.flatMap SplRow.t).min?

/-- `_pdf` of row `i`, lines 246-255 -/
def splPdf (rows : List (SplRow K)) (i : ℕ) (x : K) : Except Err K :=
  match rows[i]? with
  | some r => .ok (splev r x)
  | none => .error .IndexError

/-- `_cdf` of row `i`, lines 257-268: the integral from the smallest knot of all rows -/
def splCdf (rows : List (SplRow K)) (i : ℕ) (x : K) : Except Err K :=
  match rows[i]?, splXmin rows with
  | some r, some a => .ok (splint r a x)
  | _, _ => .error .IndexError

/-- `np.vectorize(f)(x, row).ravel()` for the flat arguments scipy passes (lines 253-255, 266-268): one call per entry -/
def splVectorized (f : ℕ → K → Except Err K) : Pts K → Pts ℕ → Except Err (List K)
  | .vec x, .vec rows => if x.length = rows.length then (List.zip rows x).mapM fun p => f p.1 p.2 else .error .ValueError
  | _, _ => .error .Unmodelled

/-- `normalize_spline` followed by `build_splines` (lines 18-80): `splrep` is linear in the ordinates, so dividing them by the integral divides the
coefficients. `integral` stands for `quad` of the spline through the original values over the limits. -/
def splNorm (r : SplRow K) (integral : K) : SplRow K := { r with c := r.c.map (· / integral) }

end Verif.Model
