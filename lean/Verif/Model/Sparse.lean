import Verif.Np.Basic
import Verif.Np.Round
import Mathlib.Data.Int.Bitwise

/-!
# Sparse representation

Source: `/repo/src/qp/sparse_rep.py`. Python integers are unbounded here; numpy's 64-bit integers agree as long as the coefficient
fits in 47 bits. The Voigt profile is an arbitrary function, and the linear algebra of the greedy search (Cholesky
factor, triangular solves) is a parameter of the search.
-/

set_option linter.unusedSectionVars false
set_option autoImplicit false

namespace Verif.Model

open Verif Verif.Np

/-! ## integer codec -/

/-- `combine_int`, `sparse_rep.py` 141-151. -/
def combineInt (coef base : ℤ) : ℤ := Int.lor (coef <<< (16 : ℕ)) base

/-- `get_N`, `sparse_rep.py` 154-164. -/
def getN (long : ℤ) : ℤ × ℤ := (long >>> (16 : ℕ), Int.land long (2 ^ 16 - 1))

/-! ## the dictionary -/


/-- one assignment `A[:, kk] = ...; kk += 1` of `create_voigt_basis`, `sparse_rep.py` 70-73 -/
def putColumn {γ : Type*} (st : List γ × ℕ) (c : γ) : List γ × ℕ := (st.1.set st.2 c, st.2 + 1)

/-- the columns filled by the three nested loops of `create_voigt_basis`, `sparse_rep.py` 60-74. `col m s g` stands for the thresholded and
normalised Voigt profile, `zero` for a column of zeros. -/
def voigtBasis {K γ : Type} (zero : γ) (col : K → K → K → γ) (means sigs gammas : List K) : List γ :=
  let na := means.length * sigs.length * gammas.length
  (means.foldl (fun st m => sigs.foldl (fun st s => gammas.foldl (fun st g => putColumn st (col m s g)) st) st)
    (List.replicate na zero, 0)).1

/-- one entry of `indices2shapes`, `sparse_rep.py` 209-212: the shape parameters addressed by a basis index. The quotient of two integers
is computed in floating point and truncated; for the sizes that fit in memory that is integer division. -/
def indexShape {K : Type} (means sigs gammas : List K) (b : ℕ) : Except Err (K × K × K) :=
  let ns := sigs.length
  let nv := gammas.length
  match means[b / (ns * nv)]?, sigs[b % (ns * nv) / nv]?, gammas[b % (ns * nv) % nv]? with
  | some m, some s, some g => .ok (m, s, g)
  | _, _, _ => .error .IndexError

/-- default number of widths, `sparse_rep.py` 239-244, for an evenly spaced grid of `n` points with spacing `dx`. -/
def defaultNsig {K : Type} [Field K] [LinearOrder K] [IsStrictOrderedRing K] [FloorRing K] (n : ℕ) (dx : K) : ℤ :=
  let maxSig := ((n : K) - 1) * dx / 12
  let minSig := dx / 6
  ⌈2 * (maxSig - minSig) / dx⌉

/-! ## weights -/

section Weights
variable {K : Type} [Field K] [LinearOrder K] [IsStrictOrderedRing K] [FloorRing K]

/-- number of coefficient levels, `sparse_rep.py` 257 and 169 -/
def nCoef : ℕ := 32001

/-- the integer coefficients of one PDF, `sparse_rep.py` 278-285; `Da = 1/32000`. -/
def coefIndex (nInd : ℕ) (dval : List K) : Except Err (List ℤ) := do
  let mx ← rowMax dval
  if 0 < mx then
    match dval.map fun d => npRound (d / mx / (1 / ((nCoef : K) - 1))), dval with
    | _ :: t, d0 :: _ => .ok (npRound (d0 / (1 / ((nCoef : K) - 1))) :: t)
    | l, _ => .ok l
  else .ok (List.replicate nInd 0)

/-- one row of `decode_sparse_indices`, `sparse_rep.py` 167-175. -/
def decodeRow (indices : List ℤ) : List ℤ × List K :=
  let spi := indices.map getN
  let vals := spi.map fun p => (p.1 : K) * (1 / ((nCoef : K) - 1))
  (spi.map Prod.snd, vals.set 0 1)

end Weights

/-! ## the greedy search -/

section Search
variable {K : Type} [Field K] [LinearOrder K]

/-- numerical parameters of `sparse_basis`: `solve cols alphas` is the `cho_solve` of lines 127-131, `dependent cols c` the test of line 119,
`eps` the machine epsilon. -/
structure SearchOps (K : Type) where
  solve : List (List K) → List K → List K
  dependent : List (List K) → List K → Bool
  eps : K

/-- working variables of `sparse_basis`: `dictionary` (list of columns), `alpha`, `idxs`, `res`, and `gamma` (not assigned at first). -/
structure SearchState (K : Type) where
  cols : List (List K)
  alpha : List K
  idxs : List ℕ
  res : List K
  gamma : Option (List K)

/-- `a[[i, j]] = a[[j, i]]`, `sparse_rep.py` 123-125. -/
def swapAt {α : Type*} (l : List α) (i j : ℕ) : List α :=
  match l[i]?, l[j]? with
  | some a, some b => (l.set i b).set j a
  | _, _ => l

/-- inner product -/
def dot (a b : List K) : K := Np.sum (Np.mul a b)

/-- `query_vec - np.dot(cols, gamma)`, `sparse_rep.py` 132. -/
def residual (q : List K) (cols : List (List K)) (gamma : List K) : List K :=
  (cols.zip gamma).foldl (fun r p => List.zipWith (fun a b => a - p.2 * b) r p.1) q

/-- `sparse_rep.py` 135-138 with `n` entries: `gamma` unassigned raises `UnboundLocalError`; a length that does not broadcast raises
`ValueError`. Returns the indices, the coefficients and the dictionary as it was left. -/
def searchFinish (n : ℕ) (st : SearchState K) : Except Err (List ℕ × List K × List (List K)) :=
  match st.gamma with
  | none => .error .UnboundLocalError
  | some g => if g.length = n ∨ g.length = 1 then .ok (st.idxs.take n, g, st.cols) else .error .ValueError

/-- the loop of `sparse_basis`, `sparse_rep.py` 102-134: `a` is `n_active`, the first argument the iterations left. -/
def searchGo (ops : SearchOps K) (q : List K) (tol : K) : ℕ → ℕ → SearchState K → Except Err (List ℕ × List K × List (List K))
  | 0, a, st => searchFinish a st
  | fuel + 1, a, st =>
    match Np.argmax (st.cols.map fun c => |dot c st.res|) with
    | none => .error .ValueError
    | some lam =>
      if lam < a ∨ (st.alpha.getD lam 0) ^ 2 < ops.eps then searchFinish a st
      else if 0 < a ∧ ops.dependent (st.cols.take a) (st.cols.getD lam []) = true then searchFinish (a + 1) st
      else
        let cols := swapAt st.cols a lam
        let alpha := swapAt st.alpha a lam
        let idxs := swapAt st.idxs a lam
        let gamma := ops.solve (cols.take (a + 1)) (alpha.take (a + 1))
        let res := residual q (cols.take (a + 1)) gamma
        let st' : SearchState K := ⟨cols, alpha, idxs, res, some gamma⟩
        if dot res res ≤ tol then searchFinish (a + 1) st' else searchGo ops q tol fuel (a + 1) st'

/-- `sparse_basis`, `sparse_rep.py` 77-138. -/
def sparseBasis (ops : SearchOps K) (dict : List (List K)) (q : List K) (nBasis : ℕ) (tol : K) :
    Except Err (List ℕ × List K × List (List K)) :=
  if nBasis = 0 then .error .IndexError
  else searchGo ops q tol nBasis 0 ⟨dict, dict.map fun c => dot c q, List.range dict.length, q, none⟩

/-- `A[:, [Dind]] = A[:, [np.arange(len(Dind))]]`, `sparse_rep.py` 291. -/
def swapBack {γ : Type*} (cols : List γ) (dind : List ℕ) : List γ :=
  (dind.zip cols).foldl (fun acc p => acc.set p.1 p.2) cols

variable [IsStrictOrderedRing K] [FloorRing K]

/-- one iteration of the loop of `build_sparse_representation`, `sparse_rep.py` 270-291: the encoded row and the dictionary left behind. -/
def encodeStep (ops : SearchOps K) (nSparse : ℕ) (tol : K) (dict : List (List K)) (pdf : List K) :
    Except Err (List ℤ × List (List K)) := do
  let (dind, dval, cols) ← sparseBasis ops dict pdf nSparse tol
  if dind.length < 1 then .ok (List.replicate nSparse 0, cols)
  else
    let index ← coefIndex dind.length dval
    let enc := List.zipWith (fun c (b : ℕ) => combineInt c b) index dind
    .ok (enc ++ List.replicate (nSparse - enc.length) 0, swapBack cols dind)

/-- the rows produced by `build_sparse_representation`, `sparse_rep.py` 269-291. -/
def encodeAll (ops : SearchOps K) (nSparse : ℕ) (tol : K) : List (List K) → List (List K) → Except Err (List (List ℤ))
  | _, [] => .ok []
  | dict, pdf :: rest => do
    let (row, dict') ← encodeStep ops nSparse tol dict pdf
    let rows ← encodeAll ops nSparse tol dict' rest
    .ok (row :: rows)

end Search

end Verif.Model
