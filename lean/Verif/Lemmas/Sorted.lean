import Mathlib.Data.List.Sort
import Verif.Np.Basic

/-! # Sorted lists -/

set_option linter.unusedSectionVars false
set_option autoImplicit false

namespace Verif.Lemmas

open Verif Verif.Np

variable {K : Type} [LinearOrder K]

theorem sort_perm (l : List K) : (Np.sort l).Perm l := List.perm_insertionSort _ l

theorem sort_pairwise (l : List K) : (Np.sort l).Pairwise (· ≤ ·) := List.pairwise_insertionSort _ l

@[simp] theorem length_sort (l : List K) : (Np.sort l).length = l.length := (sort_perm l).length_eq

theorem mem_sort {l : List K} {x : K} : x ∈ Np.sort l ↔ x ∈ l := (sort_perm l).mem_iff

theorem sort_eq_of_perm {l l' : List K} (h : l.Perm l') : Np.sort l = Np.sort l' :=
  (((sort_perm l).trans h).trans (sort_perm l').symm).eq_of_pairwise' (sort_pairwise l) (sort_pairwise l')

/-- the sorted list is the only ordered rearrangement -/
theorem eq_sort {l s : List K} (hp : s.Perm l) (hs : s.Pairwise (· ≤ ·)) : s = Np.sort l :=
  (hp.trans (sort_perm l).symm).eq_of_pairwise' hs (sort_pairwise l)

/-- in a sorted list the entries up to `t` are the first ones -/
theorem count_le_iff {s : List K} (h : s.Pairwise (· ≤ ·)) (t : K) (i : ℕ) (v : K) (hv : s[i]? = some v) :
    v ≤ t ↔ i < s.countP (fun x => decide (x ≤ t)) := by
  induction s generalizing i with
  | nil => simp at hv
  | cons a s ih =>
    rw [List.pairwise_cons] at h
    by_cases ha : a ≤ t
    · rw [List.countP_cons_of_pos (by simpa using ha)]
      cases i with
      | zero => simp at hv; subst hv; simp [ha]
      | succ i => rw [ih h.2 i (by simpa using hv)]; omega
    · have h0 : (a :: s).countP (fun x => decide (x ≤ t)) = 0 := by
        rw [List.countP_eq_zero]
        intro x hx
        rw [List.mem_cons] at hx
        rcases hx with rfl | hx
        · simpa using ha
        · simpa using lt_of_lt_of_le (not_le.1 ha) (h.1 x hx)
      rw [h0]
      refine ⟨fun hvt => ?_, fun h => by omega⟩
      have hm : v ∈ a :: s := List.mem_of_getElem? hv
      rw [List.mem_cons] at hm
      rcases hm with rfl | hm
      · exact absurd hvt ha
      · exact absurd ((h.1 v hm).trans hvt) ha

/-- in a sorted list the entries below `t` are the first ones -/
theorem count_lt_iff {s : List K} (h : s.Pairwise (· ≤ ·)) (t : K) (i : ℕ) (v : K) (hv : s[i]? = some v) :
    v < t ↔ i < s.countP (fun x => decide (x < t)) := by
  induction s generalizing i with
  | nil => simp at hv
  | cons a s ih =>
    rw [List.pairwise_cons] at h
    by_cases ha : a < t
    · rw [List.countP_cons_of_pos (by simpa using ha)]
      cases i with
      | zero => simp at hv; subst hv; simp [ha]
      | succ i => rw [ih h.2 i (by simpa using hv)]; omega
    · have h0 : (a :: s).countP (fun x => decide (x < t)) = 0 := by
        rw [List.countP_eq_zero]
        intro x hx
        rw [List.mem_cons] at hx
        rcases hx with rfl | hx
        · simpa using ha
        · simpa using le_trans (not_lt.1 ha) (h.1 x hx)
      rw [h0]
      refine ⟨fun hvt => ?_, fun h => by omega⟩
      have hm : v ∈ a :: s := List.mem_of_getElem? hv
      rw [List.mem_cons] at hm
      rcases hm with rfl | hm
      · exact absurd hvt ha
      · exact absurd ((h.1 v hm).trans_lt hvt) ha

theorem pairwise_get {s : List K} (h : s.Pairwise (· ≤ ·)) {i j : ℕ} {v w : K} (hij : i ≤ j) (hi : s[i]? = some v) (hj : s[j]? = some w) :
    v ≤ w := by
  rcases hij.lt_or_eq with hij | rfl
  · rw [List.pairwise_iff_getElem] at h
    obtain ⟨hi', rfl⟩ := List.getElem?_eq_some_iff.1 hi
    obtain ⟨hj', rfl⟩ := List.getElem?_eq_some_iff.1 hj
    exact h i j hi' hj' hij
  · rw [hi] at hj; cases hj; rfl

end Verif.Lemmas
