import Verif.Np.Arr

/-!
# What an element of an array is (independent of reshaping)

`a[i0, i1, ...]` in C order, and what it means for a multi-index to be valid.
-/

set_option autoImplicit false

namespace Verif.Spec

open Verif.Np

/-- position of the element with multi-index `is` in row-major order -/
def offset : List ℕ → List ℕ → ℕ
  | _ :: s, i :: is => i * s.prod + offset s is
  | _, _ => 0

/-- `is` is an index of an array of shape `s`: as many entries as axes, each in range -/
def ValidIdx (s is : List ℕ) : Prop := List.Forall₂ (fun i n => i < n) is s

/-- `a[is]` -/
def elem {α : Type} (a : Arr α) (is : List ℕ) : Option α := a.data[offset a.shape is]?

/-- `k` is the first position of the largest entry of `r` -/
def IsFirstMax {K : Type} [LinearOrder K] (r : List K) (k : ℕ) : Prop :=
  ∃ v, r[k]? = some v ∧ (∀ (j : ℕ) w, r[j]? = some w → w ≤ v) ∧ ∀ (j : ℕ) w, j < k → r[j]? = some w → w < v

end Verif.Spec
