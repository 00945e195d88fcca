import Verif.Np.Basic
import Verif.Model.Err

/-!
# `qp.utils.get_eval_case` and the evaluation dispatch around it

Source: `/repo/src/qp/utils.py` lines 13-16 and 164-215 (`get_eval_case`), the `*_flat`, `*_product`, `*_2d`
evaluators (218-832) in so far as they say *which function is evaluated at which (row, point) pair*, and the
flattening that `scipy.stats.rv_continuous.pdf/cdf/ppf` perform before they call qp.
-/

namespace Verif.Model

open Verif Verif.Np

variable {K : Type*} [LinearOrder K] {β : Type*}

/-- An array argument of rank 0, 1 or 2. Rank above 2 is not modelled: scipy flattens before calling. -/
inductive Pts (α : Type*)
  | scalar (a : α)
  | vec (l : List α)
  | mat (l : List (List α))

/-- `np.ndim` -/
abbrev Pts.ndim {α : Type*} : Pts α → ℕ
  | .scalar _ => 0
  | .vec _ => 1
  | .mat _ => 2

/-- `np.ravel` -/
abbrev Pts.ravel {α : Type*} : Pts α → List α
  | .scalar a => [a]
  | .vec l => l
  | .mat l => l.flatten

/-- `np.size` -/
abbrev Pts.size {α : Type*} (p : Pts α) : ℕ := p.ravel.length

/-- The case codes of `utils.py` lines 13-16 together with the `xx`, `rr` that `get_eval_case` returns. -/
inductive EvalCase (K : Type*)
  | case2D (x : Pts K) (row : Pts ℕ)
  | product (x : Pts K) (row : Pts ℕ)
  | flat (x : Pts K) (row : Pts ℕ)
  /-- `rr` is returned with `np.expand_dims(rr, -1)`; the model keeps the list of row numbers -/
  | factor (xx : List K) (rr : List ℕ)

/-- `get_eval_case(x, row)`, `utils.py` 164-215, branch by branch. -/
def getEvalCase (x : Pts K) (row : Pts ℕ) : Except Err (EvalCase K) :=
  if 2 ≤ x.ndim ∧ row.ndim ≠ 1 then .ok (.case2D x row)
  else if 2 ≤ x.ndim ∧ row.ndim = 1 then .error .ValueError
  else if 2 ≤ row.ndim then .ok (.product x row)
  else if x.size = 1 ∨ row.size = 1 then .ok (.flat x row)
  else
    let ux := unique x.ravel
    let ur := unique row.ravel
    let xx := if ux.length = x.size then x.ravel else ux
    let rr := if ur.length = row.size then row.ravel else ur
    if xx.length * rr.length ≠ x.size then .ok (.flat x row)
    else .ok (.factor xx rr)

/-- numpy broadcasting of two 1-D argument lists, as done by `np.vectorize(f)(x, row)` in the `*_flat`
evaluators (e.g. `utils.py` 496-521 `interpolate_x_multi_y_flat`). -/
def evalFlat (f : ℕ → K → β) (x : List K) (row : List ℕ) : Except Err (List β) :=
  if x.length = row.length then .ok (List.zipWith (fun r v => f r v) row x)
  else if x.length = 1 then .ok (row.flatMap fun r => x.map (f r))
  else if row.length = 1 then .ok (row.flatMap fun r => x.map (f r))
  else .error .ValueError

/-- the `*_product` evaluators: every row at every point, row-major (`utils.py` 254-286, 393-427, 524-545, 633-660,
748-775), ravelled as the callers do. -/
def evalProduct (f : ℕ → K → β) (x : List K) (row : List ℕ) : List β :=
  row.flatMap fun r => x.map (f r)

/-- the `*_2d` evaluators: row `i` of the points is evaluated on row number `row[i]`
(`utils.py` 289-322, 430-465, 548-574, 663-689, 778-804). The points have shape (npdf, n) and the row numbers
(npdf, 1), (1, 1) or a single row number; one row of points goes with every row number. (A row number without axes is accepted by the evaluators with
their own abscissae for each PDF, `np.squeeze(row)` at 689 and 804; the others need an axis. No modelled caller reaches those in this way.) -/
def eval2D (f : ℕ → K → β) (x : List (List K)) : Pts ℕ → Except Err (List β)
  | .scalar r => .ok (x.flatMap fun xs => xs.map (f r))
  | .vec _ => .error .ValueError
  | .mat rows =>
    if rows.all (fun r => r.length = 1) then
      if rows.flatten.length = x.length then
        .ok ((List.zipWith (fun r xs => xs.map (f r)) rows.flatten x).flatten)
      else if rows.flatten.length = 1 ∨ x.length = 1 then
        .ok (rows.flatten.flatMap fun r => x.flatMap fun xs => xs.map (f r))
      else .error .ValueError
    else .error .Unmodelled

/-- The common body of `evaluate_hist_x_multi_y` (325-355), `evaluate_hist_multi_x_multi_y` (468-493),
`interpolate_x_multi_y` (577-602), `interpolate_multi_x_multi_y` (692-717), `interpolate_multi_x_y` (807-832)
followed by `.ravel()`. `fFlat`, `fProd` and `f2d` are the per-(row,point) functions that the three specific
implementations compute. -/
def dispatch (fFlat fProd f2d : ℕ → K → β) (x : Pts K) (row : Pts ℕ) : Except Err (List β) :=
  match getEvalCase x row with
  | .error e => .error e
  | .ok (.product x row) => .ok (evalProduct fProd x.ravel row.ravel)
  | .ok (.factor xx rr) => .ok (evalProduct fProd xx rr)
  | .ok (.case2D (.mat x) row) => eval2D f2d x row
  | .ok (.case2D _ _) => .error .Unmodelled
  | .ok (.flat x row) => evalFlat fFlat x.ravel row.ravel

/-! ### What scipy does before and after

`rv_continuous.pdf(x, row=row)` broadcasts `x` against the frozen `row` array of shape (npdf, 1)
(`pdf_gen.py` 220-236) to shape (npdf, nx), flattens both row-major (`argsreduce`), calls `_pdf`, and
`np.place`s the result into an output of shape (npdf, nx). -/

/-- row numbers that accompany the flattened points: point `(i,j)` gets row `i` -/
def flatRows {α : Type*} (start : ℕ) : List (List α) → List ℕ
  | [] => []
  | r :: t => r.map (fun _ => start) ++ flatRows (start + 1) t

/-- `np.place(out, True, vals)` for an output with the row lengths of `X`: the first `N` values of
`vals` fill the output row-major. -/
def unflatten {α : Type*} : List (List α) → List β → List (List β)
  | [], _ => []
  | r :: t, v => v.take r.length :: unflatten t (v.drop r.length)

/-- `rv_continuous.pdf` (and `cdf`) for points already broadcast to the matrix `X` (row `i` holds the points
requested for PDF `i`), when every point is in the support. `core` is the class's `_pdf` (on flat
arguments). With no points at all the class is not called. -/
def scipyEval (core : Pts K → Pts ℕ → Except Err (List β)) (X : List (List K)) :
    Except Err (List (List β)) :=
  if X.flatten.isEmpty then .ok (X.map fun _ => [])
  else
    match core (.vec X.flatten) (.vec (flatRows 0 X)) with
    | .error e => .error e
    | .ok v =>
      if v.length < X.flatten.length then .error .Unmodelled
      else .ok (unflatten X v)

/-- `ens.pdf(x)` for a shared 1-D list of points: broadcasting gives the same points to each PDF. -/
def evalShared (core : Pts K → Pts ℕ → Except Err (List β)) (npdf : ℕ) (x : List K) :
    Except Err (List (List β)) :=
  scipyEval core (List.replicate npdf x)

/-- `ens.pdf(x)` for `x` of shape (npdf, 1): one point per PDF. -/
def evalPerPdf (core : Pts K → Pts ℕ → Except Err (List β)) (x : List K) :
    Except Err (List (List β)) :=
  scipyEval core (x.map fun v => [v])

end Verif.Model
