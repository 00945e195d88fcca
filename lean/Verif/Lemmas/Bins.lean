import Verif.Model.Bins
import Mathlib.Tactic.Linarith
import Mathlib.Tactic.LinearCombination
import Mathlib.Tactic.Ring
import Mathlib.Tactic.FieldSimp

/-! Helper lemmas about bin lookup. -/

set_option linter.unusedSectionVars false

namespace Verif.Np

variable {K : Type*} [Field K] [LinearOrder K] [IsStrictOrderedRing K]

theorem length_diff (l : List K) : (diff l).length = l.length - 1 := by
  induction l using diff.induct with
  | case1 => rfl
  | case2 => rfl
  | case3 a b t ih => simp [diff, ih]

/-- entries of `diff` -/
theorem getElem?_diff (l : List K) (i : ℕ) (a b : K) (ha : l[i]? = some a) (hb : l[i+1]? = some b) :
    (diff l)[i]? = some (b - a) := by
  induction l using diff.induct generalizing i with
  | case1 => simp at ha
  | case2 => simp at hb
  | case3 x y t ih =>
    cases i with
    | zero => simp at ha hb; simp [diff, ha, hb]
    | succ i => simp only [diff, List.getElem?_cons_succ] at *; exact ih i ha hb

/-- in a list with constant differences the entries are an arithmetic progression -/
theorem arith_of_diff {w : K} (l : List K) (b0 : K) (t : List K) (hl : l = b0 :: t)
    (h : ∀ v ∈ diff l, v = w) (i : ℕ) (a : K) (ha : l[i]? = some a) : a = b0 + i * w := by
  induction l using diff.induct generalizing i b0 t with
  | case1 => simp at ha
  | case2 x =>
    cases i with
    | zero => simp at ha; simp at hl; simp [← hl.1, ha]
    | succ i => simp at ha
  | case3 x y s ih =>
    have hx : x = b0 := by simpa using congrArg List.head? hl
    cases i with
    | zero => simp at ha; simp [← hx, ha]
    | succ i =>
      have h1 : y - x = w := h _ (by simp [diff])
      have := ih y s rfl (fun v hv => h v (by simp [diff, hv])) i (by simpa using ha)
      rw [this, ← hx]; push_cast; linear_combination h1

theorem searchsortedLeft_eq {l : List K} (h : l.Pairwise (· < ·)) {x : K} {i : ℕ} {a b : K}
    (ha : l[i]? = some a) (hb : l[i+1]? = some b) (hax : a < x) (hxb : x ≤ b) :
    searchsortedLeft l x = i + 1 := by
  induction l generalizing i with
  | nil => simp at ha
  | cons c t ih =>
    rw [List.pairwise_cons] at h
    cases i with
    | zero =>
      simp at ha
      cases t with
      | nil => simp at hb
      | cons d t =>
        simp at hb
        subst ha hb
        simp [searchsortedLeft, List.takeWhile, hax, not_lt.2 hxb]
    | succ i =>
      simp only [List.getElem?_cons_succ] at ha hb
      have hc : c < x := lt_trans (h.1 a (List.mem_of_getElem? ha)) hax
      have := ih h.2 ha hb
      unfold searchsortedLeft at *
      rw [List.takeWhile_cons_of_pos (by simpa using hc)]
      simp [this]

theorem searchsortedLeft_eq_zero {l : List K} {x b0 : K} {t : List K} (hl : l = b0 :: t) (h : x ≤ b0) :
    searchsortedLeft l x = 0 := by
  subst hl; simp [searchsortedLeft, List.takeWhile, not_lt.2 h]

theorem searchsortedLeft_eq_length {l : List K} {x : K} (h : ∀ v ∈ l, v < x) :
    searchsortedLeft l x = l.length := by
  unfold searchsortedLeft
  induction l with
  | nil => rfl
  | cons a t ih =>
    rw [List.takeWhile_cons_of_pos (by simpa using h a (by simp)), List.length_cons,
      ih (fun v hv => h v (by simp [hv])), List.length_cons]

theorem searchsortedLeft_bracket {l : List K} {x : K} {i : ℕ} (h : searchsortedLeft l x = i + 1) (hl : i + 1 < l.length) :
    ∃ a b, l[i]? = some a ∧ l[i+1]? = some b ∧ a < x ∧ x ≤ b := by
  induction l generalizing i with
  | nil => simp at hl
  | cons c t ih =>
    by_cases hc : c < x
    · have ht : searchsortedLeft t x = i := by
        unfold searchsortedLeft at h ⊢
        rw [List.takeWhile_cons_of_pos (by simpa using hc)] at h
        simpa using h
      cases i with
      | zero =>
        cases t with
        | nil => simp at hl
        | cons d t =>
          refine ⟨c, d, rfl, rfl, hc, ?_⟩
          by_contra hd
          unfold searchsortedLeft at ht
          rw [List.takeWhile_cons_of_pos (by simpa using not_le.1 hd)] at ht
          simp at ht
      | succ i =>
        obtain ⟨a, b, ha, hb, h1, h2⟩ := ih ht (by simpa using hl)
        exact ⟨a, b, by simpa using ha, by simpa using hb, h1, h2⟩
    · unfold searchsortedLeft at h
      rw [List.takeWhile_cons_of_neg (by simpa using hc)] at h
      simp at h

end Verif.Np

namespace Verif.Model

open Verif.Np

variable {K : Type*} [Field K] [LinearOrder K] [IsStrictOrderedRing K] [FloorRing K]

theorem getBinIndex_cons (b0 b1 : K) (t : List K) (x : K) (idx : ℤ)
    (hidx : idx = if allcloseScalar (binWidths (b0 :: b1 :: t)) (b1 - b0) = true then ⌊(x - b0) / (b1 - b0)⌋
      else (searchsortedLeft (b0 :: b1 :: t) x : ℤ) - 1) :
    getBinIndex (b0 :: b1 :: t) x =
      if 0 ≤ idx ∧ idx < ((b0 :: b1 :: t).length : ℤ) - 1 then .ok (idx.toNat, true) else .ok (0, false) := by
  have : getBinIndex (b0 :: b1 :: t) x =
      .ok ((max 0 (min (if (decide (0 ≤ idx) && decide (idx < ((b0 :: b1 :: t).length : ℤ) - 1)) = true
        then idx else 0) (((b0 :: b1 :: t).length : ℤ) - 1 - 1))).toNat,
        decide (0 ≤ idx) && decide (idx < ((b0 :: b1 :: t).length : ℤ) - 1)) := by
    subst hidx; rfl
  rw [this]
  by_cases h : 0 ≤ idx ∧ idx < ((b0 :: b1 :: t).length : ℤ) - 1
  · rw [if_pos h]
    have h2 := h.2
    simp only [h.1, h2, decide_true, Bool.and_true, if_true]
    congr 3
    rw [min_eq_left (by omega), max_eq_right h.1]
  · rw [if_neg h]
    have hb : (decide (0 ≤ idx) && decide (idx < ((b0 :: b1 :: t).length : ℤ) - 1)) = false := by
      rw [Bool.eq_false_iff]; simpa [-List.length_cons] using h
    rw [hb]
    simp

end Verif.Model
