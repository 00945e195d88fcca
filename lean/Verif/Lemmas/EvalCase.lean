import Verif.Model.EvalCase
import Mathlib.Data.List.Dedup
import Mathlib.Tactic.Linarith

/-! Helper lemmas about `np.unique`, flattening and the evaluation dispatch. -/

set_option linter.unusedSectionVars false

namespace Verif.Np

variable {K : Type*} [LinearOrder K]

theorem mem_unique {l : List K} {a : K} : a ∈ unique l ↔ a ∈ l := by
  simp [unique, sort]

theorem nodup_unique (l : List K) : (unique l).Nodup :=
  ((List.perm_insertionSort (· ≤ ·) l.dedup).nodup_iff).2 l.nodup_dedup

theorem pairwise_unique (l : List K) : (unique l).Pairwise (· ≤ ·) :=
  List.pairwise_insertionSort (· ≤ ·) l.dedup

theorem length_unique (l : List K) : (unique l).length = l.dedup.length := by
  simp [unique, sort]

theorem unique_congr {l l' : List K} (h : ∀ a, a ∈ l ↔ a ∈ l') : unique l = unique l' := by
  apply List.Perm.eq_of_pairwise' (r := (· ≤ ·)) (pairwise_unique l) (pairwise_unique l')
  rw [List.perm_ext_iff_of_nodup (nodup_unique l) (nodup_unique l')]
  intro a; rw [mem_unique, mem_unique]; exact h a

theorem unique_of_nodup {l : List K} (h : l.Nodup) : unique l = sort l := by
  rw [unique, h.dedup]

theorem sort_of_pairwise {l : List K} (h : l.Pairwise (· ≤ ·)) : sort l = l :=
  h.insertionSort_eq

theorem nodup_of_strict {l : List K} (h : l.Pairwise (· < ·)) : l.Nodup :=
  h.imp fun h => ne_of_lt h

theorem length_unique_le (l : List K) : (unique l).length ≤ l.length := by
  rw [length_unique]; exact (List.dedup_sublist l).length_le

theorem length_unique_eq_iff (l : List K) : (unique l).length = l.length ↔ l.Nodup := by
  rw [length_unique]
  constructor
  · intro h
    have := (List.dedup_sublist l).eq_of_length h
    rw [← this]; exact l.nodup_dedup
  · intro h; rw [h.dedup]

theorem unique_eq_nil_iff (l : List K) : unique l = [] ↔ l = [] := by
  constructor
  · intro h
    cases l with
    | nil => rfl
    | cons a l =>
      have : a ∈ unique (a :: l) := mem_unique.2 (by simp)
      rw [h] at this; simp at this
  · rintro rfl; rfl

end Verif.Np

namespace Verif.Model

open Verif.Np

variable {K : Type*} [LinearOrder K] {β : Type*}

theorem flatRows_length {α : Type*} (X : List (List α)) (s : ℕ) :
    (flatRows s X).length = X.flatten.length := by
  induction X generalizing s with
  | nil => rfl
  | cons r t ih => simp [flatRows, ih]

theorem mem_flatRows_replicate {α : Type*} {x : List α} (hx : x ≠ []) (n s r : ℕ) :
    r ∈ flatRows s (List.replicate n x) ↔ s ≤ r ∧ r < s + n := by
  induction n generalizing s with
  | zero => simp [flatRows]
  | succ n ih =>
    simp only [List.replicate_succ, flatRows, List.mem_append, ih]
    have : (r ∈ x.map fun _ => s) ↔ r = s := by
      cases x with
      | nil => exact absurd rfl hx
      | cons a x => simp
    rw [this]; omega

theorem mem_flatten_replicate {α : Type*} {x : List α} {n : ℕ} (hn : n ≠ 0) (a : α) :
    a ∈ (List.replicate n x).flatten ↔ a ∈ x := by
  simp [List.mem_flatten, List.mem_replicate, hn]

theorem unique_flatRows_replicate {α : Type*} {x : List α} (hx : x ≠ []) (n : ℕ) :
    unique (flatRows 0 (List.replicate n x)) = List.range n := by
  have : unique (flatRows 0 (List.replicate n x)) = unique (List.range n) := by
    apply unique_congr
    intro r; rw [mem_flatRows_replicate hx]; simp
  rw [this, unique_of_nodup List.nodup_range]
  apply sort_of_pairwise
  exact (List.pairwise_lt_range).imp le_of_lt

/-- zipping the flattened points with their row numbers evaluates each point on its row -/
theorem zipWith_flatRows (f : ℕ → K → β) (X : List (List K)) (s : ℕ) :
    List.zipWith (fun r v => f r v) (flatRows s X) X.flatten =
      ((X.zipIdx s).map fun p => p.1.map (f p.2)).flatten := by
  induction X generalizing s with
  | nil => rfl
  | cons r t ih =>
    simp only [flatRows, List.flatten_cons, List.zipIdx_cons, List.map_cons]
    rw [List.zipWith_append (by simp), ih]
    congr 1
    induction r with
    | nil => rfl
    | cons a r ih2 => simp only [List.map_cons, List.zipWith_cons_cons, ih2]

theorem unflatten_flatten (X : List (List K)) (V : List (List β))
    (h : V.map List.length = X.map List.length) : unflatten X V.flatten = V := by
  induction X generalizing V with
  | nil => cases V with
    | nil => rfl
    | cons => simp at h
  | cons r t ih =>
    cases V with
    | nil => simp at h
    | cons v V =>
      simp at h
      simp only [unflatten, List.flatten_cons]
      rw [← h.1]
      simp [ih V h.2]

theorem length_flatten_eq {α : Type*} (X : List (List α)) (V : List (List β))
    (h : V.map List.length = X.map List.length) : V.flatten.length = X.flatten.length := by
  simp [List.length_flatten, h]

/-- what `scipyEval` returns when the class answers with one row of values per row of points -/
theorem scipyEval_of_core {core : Pts K → Pts ℕ → Except Err (List β)} {X : List (List K)}
    {V : List (List β)} (h : X.flatten ≠ [] → core (.vec X.flatten) (.vec (flatRows 0 X)) = .ok V.flatten)
    (hl : V.map List.length = X.map List.length) : scipyEval core X = .ok V := by
  unfold scipyEval
  split
  · next he =>
    have he : X.flatten = [] := by simpa using he
    congr 1
    clear h
    induction X generalizing V with
    | nil => cases V <;> simp_all
    | cons r t ih =>
      cases V with
      | nil => simp at hl
      | cons v V =>
        simp at hl he
        simp only [List.map_cons]
        congr 1
        · have : v.length = 0 := by rw [hl.1, he.1]; rfl
          exact (List.length_eq_zero_iff.1 this).symm
        · exact ih hl.2 (by simpa using he.2) (by simpa using he.2)
  · next he =>
    rw [h (by simpa using he)]
    simp only
    rw [if_neg (by rw [length_flatten_eq X V hl]; omega), unflatten_flatten X V hl]

/-- the two list-like cases of `getEvalCase` in one formula -/
theorem getEvalCase_vec (x : List K) (row : List ℕ) :
    getEvalCase (.vec x) (.vec row) =
      if x.length = 1 ∨ row.length = 1 ∨ (unique x).length * (unique row).length ≠ x.length then
        .ok (.flat (.vec x) (.vec row))
      else .ok (.factor (if (unique x).length = x.length then x else unique x)
        (if (unique row).length = row.length then row else unique row)) := by
  have hx : (if (unique x).length = x.length then x else unique x).length = (unique x).length := by
    split
    · next h => exact h.symm
    · rfl
  have hr : (if (unique row).length = row.length then row else unique row).length =
      (unique row).length := by
    split
    · next h => exact h.symm
    · rfl
  unfold getEvalCase
  dsimp only [Pts.ndim, Pts.size, Pts.ravel]
  rw [hx, hr]
  simp only [show ¬ (2 : ℕ) ≤ 1 by omega, false_and, if_false]
  by_cases h1 : x.length = 1
  · simp [h1]
  · by_cases h2 : row.length = 1
    · simp [h2]
    · by_cases h3 : (unique x).length * (unique row).length ≠ x.length
      · simp only [h1, h2, h3, or_self, or_true, if_true, if_false, ne_eq, not_false_eq_true]
      · simp only [h1, h2, h3, or_self, if_false]

/-- the two list-like cases of the dispatcher in one formula -/
theorem dispatch_vec (f g h : ℕ → K → β) (x : List K) (row : List ℕ) :
    dispatch f g h (.vec x) (.vec row) =
      if x.length = 1 ∨ row.length = 1 ∨ (unique x).length * (unique row).length ≠ x.length then
        evalFlat f x row
      else .ok (evalProduct g (if (unique x).length = x.length then x else unique x)
        (if (unique row).length = row.length then row else unique row)) := by
  unfold dispatch
  rw [getEvalCase_vec]
  by_cases hc : x.length = 1 ∨ row.length = 1 ∨ (unique x).length * (unique row).length ≠ x.length
  · rw [if_pos hc, if_pos hc]
  · rw [if_neg hc, if_neg hc]

theorem flatMap_range_eq (n : ℕ) (g : ℕ → List β) :
    (List.range n).flatMap g = ((List.range n).map g).flatten := by
  rw [List.flatMap_def]

theorem zipIdx_replicate_map (n s : ℕ) (x : List K) (f : ℕ → K → β) :
    ((List.replicate n x).zipIdx s).map (fun p => p.1.map (f p.2)) =
      (List.range' s n).map fun i => x.map (f i) := by
  induction n generalizing s with
  | zero => rfl
  | succ n ih => simp [List.replicate_succ, List.zipIdx_cons, List.range'_succ, ih]

end Verif.Model
