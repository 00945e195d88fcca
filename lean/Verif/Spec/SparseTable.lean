import Mathlib.Algebra.Order.Field.Basic
import Mathlib.Algebra.Order.Ring.Int

/-!
# What a row of sparse codes means
-/

set_option autoImplicit false

namespace Verif.Spec

variable {K : Type} [Field K]

/-- the dictionary column a code stands for: the remainder modulo `2^16` -/
def codeColumn (c : ℤ) : ℕ := (c % 65536).toNat

/-- the weight a code stands for: the quotient by `2^16` in steps of `1/32000` -/
def codeWeight (c : ℤ) : K := ((c / 65536 : ℤ) : K) / 32000

/-- entry `j` of column `i` of the dictionary -/
def entry (A : List (List K)) (i j : ℕ) : K := (A.getD i []).getD j 0

/-- the mixture of dictionary columns described by a row of codes, at grid point `j`: the first column has weight one -/
def blend (A : List (List K)) (row : List ℤ) (j : ℕ) : K :=
  match row with
  | [] => 0
  | c :: rest => entry A (codeColumn c) j + (rest.map fun d => codeWeight d * entry A (codeColumn d) j).sum

end Verif.Spec
