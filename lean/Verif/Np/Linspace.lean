import Mathlib.Algebra.Order.Field.Basic
import Mathlib.Algebra.Order.Ring.Cast
import Mathlib.Tactic.Linarith
import Mathlib.Tactic.Ring
import Mathlib.Tactic.FieldSimp
import Mathlib.Data.Nat.Cast.Order.Ring

/-!
# `np.linspace`
-/

set_option linter.unusedSectionVars false
set_option autoImplicit false

namespace Verif.Np

variable {K : Type*} [Field K]

/-- `np.linspace(lo, hi, n)` for `n ≥ 0`; with one point that is `lo`. -/
def linspace (lo hi : K) (n : ℕ) : List K :=
  (List.range n).map fun (i : ℕ) => if n = 1 then lo else lo + (i : K) * ((hi - lo) / ((n : K) - 1))

theorem length_linspace (lo hi : K) (n : ℕ) : (linspace lo hi n).length = n := by simp [linspace]

theorem getElem?_linspace (lo hi : K) (n : ℕ) (hn : n ≠ 1) (i : ℕ) (hi' : i < n) :
    (linspace lo hi n)[i]? = some (lo + (i : K) * ((hi - lo) / ((n : K) - 1))) := by
  simp [linspace, hn, hi']

variable [LinearOrder K] [IsStrictOrderedRing K]

theorem linspace_pairwise (lo hi : K) (n : ℕ) (hn : 2 ≤ n) (h : lo < hi) : (linspace lo hi n).Pairwise (· < ·) := by
  rw [linspace, List.pairwise_map]
  refine List.pairwise_lt_range.imp ?_
  intro a b hab
  rw [if_neg (by omega), if_neg (by omega)]
  have h1 : (0 : K) < (n : K) - 1 := by
    have : (2 : K) ≤ (n : K) := by exact_mod_cast hn
    linarith
  have h2 : (0 : K) < (hi - lo) / ((n : K) - 1) := div_pos (by linarith) h1
  have h3 : (a : K) < (b : K) := by exact_mod_cast hab
  have := mul_lt_mul_of_pos_right h3 h2
  linarith

end Verif.Np
