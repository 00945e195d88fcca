import Mathlib.Algebra.Order.Floor.Ring
import Mathlib.Algebra.Order.Archimedean.Basic
import Mathlib.Algebra.Ring.Int.Parity
import Mathlib.Tactic.Linarith
import Mathlib.Tactic.NormNum
import Mathlib.Tactic.Positivity
import Verif.Model.Err

/-!
# numpy helpers: rounding, row maximum, integer casts
-/

set_option linter.unusedSectionVars false
set_option autoImplicit false

namespace Verif.Np

variable {K : Type*} [Field K] [LinearOrder K] [IsStrictOrderedRing K] [FloorRing K]

/-- `np.round(x)` and Python's `round(x)`: nearest integer, ties to the even one. -/
def npRound (x : K) : ℤ :=
  if x - ⌊x⌋ < 1/2 then ⌊x⌋
  else if 1/2 < x - ⌊x⌋ then ⌊x⌋ + 1
  else if ⌊x⌋ % 2 = 0 then ⌊x⌋ else ⌊x⌋ + 1

/-- `.astype(np.uint8)` of an integral value. Values outside 0..255 wrap modulo 256 (C leaves the cast of a floating-point value
outside the range undefined; no theorem depends on that case). -/
def toU8 (z : ℤ) : ℕ := (z % 256).toNat

omit [Field K] [IsStrictOrderedRing K] [FloorRing K] in
/-- `a.max()` of one row; `ValueError` for an empty one. -/
def rowMax (l : List K) : Except Err K :=
  match l with
  | [] => .error .ValueError
  | a :: t => .ok (t.foldl max a)

theorem npRound_abs (x : K) : |(npRound x : K) - x| ≤ 1/2 := by
  have h1 := Int.floor_le x
  have h2 := Int.lt_floor_add_one x
  unfold npRound
  split_ifs with a b c <;> rw [abs_le] <;> push_cast <;> constructor <;> linarith

theorem npRound_le (x : K) : (npRound x : K) ≤ x + 1/2 := by have := abs_le.1 (npRound_abs x); linarith [this.2]
theorem le_npRound (x : K) : x - 1/2 ≤ (npRound x : K) := by have := abs_le.1 (npRound_abs x); linarith [this.1]

theorem npRound_int (n : ℤ) : npRound (n : K) = n := by
  unfold npRound
  rw [Int.floor_intCast, sub_self, if_pos (by norm_num)]

theorem npRound_mono {x y : K} (h : x ≤ y) : npRound x ≤ npRound y := by
  have hf : ⌊x⌋ ≤ ⌊y⌋ := Int.floor_le_floor h
  rcases hf.lt_or_eq with hlt | heq
  · have a : npRound x ≤ ⌊x⌋ + 1 := by unfold npRound; split_ifs <;> omega
    have b : ⌊y⌋ ≤ npRound y := by unfold npRound; split_ifs <;> omega
    omega
  · unfold npRound
    rw [heq]
    split_ifs <;> first | omega | (exfalso; linarith)

theorem npRound_pos_iff (x : K) : 1 ≤ npRound x ↔ 1/2 < x := by
  constructor
  · intro h
    by_contra hc
    have h2 := npRound_mono (not_lt.1 hc)
    have : npRound (1/2 : K) = 0 := by
      have hf : ⌊(1/2 : K)⌋ = 0 := by rw [Int.floor_eq_iff]; norm_num
      unfold npRound
      rw [hf]; norm_num
    omega
  · intro h
    have h1 : 0 ≤ ⌊x⌋ := Int.floor_nonneg.2 (by linarith)
    unfold npRound
    rcases h1.lt_or_eq with h2 | h2
    · split_ifs <;> omega
    · rw [← h2] at *
      simp only [Int.cast_zero, sub_zero]
      rw [if_neg (by linarith), if_pos h]; norm_num

theorem toU8_cast {z : ℤ} (h0 : 0 ≤ z) (h1 : z ≤ 255) : ((toU8 z : ℕ) : ℤ) = z := by
  unfold toU8
  rw [Int.emod_eq_of_lt h0 (by omega)]
  exact Int.toNat_of_nonneg h0

theorem toU8_le (z : ℤ) : toU8 z ≤ 255 := by
  unfold toU8
  have := Int.emod_lt_of_pos z (b := 256) (by norm_num)
  omega

section Max
variable {K : Type*} [LinearOrder K]

private theorem foldl_max_spec (t : List K) : ∀ a : K, (t.foldl max a ∈ a :: t) ∧ ∀ v ∈ a :: t, v ≤ t.foldl max a := by
  induction t with
  | nil => intro a; simp
  | cons b t ih =>
    intro a
    obtain ⟨h1, h2⟩ := ih (max a b)
    rw [List.foldl_cons]
    constructor
    · rcases List.mem_cons.1 h1 with h | h
      · rw [h]
        rcases max_choice a b with hh | hh <;> rw [hh] <;> simp
      · simp [h]
    · intro v hv
      rcases List.mem_cons.1 hv with rfl | hv
      · exact (le_max_left v b).trans (h2 _ (by simp))
      · rcases List.mem_cons.1 hv with rfl | hv
        · exact (le_max_right a v).trans (h2 _ (by simp))
        · exact h2 v (by simp [hv])

theorem rowMax_ok_iff (l : List K) (m : K) : rowMax l = .ok m ↔ m ∈ l ∧ ∀ v ∈ l, v ≤ m := by
  cases l with
  | nil => simp [rowMax]
  | cons a t =>
    obtain ⟨h1, h2⟩ := foldl_max_spec t a
    simp only [rowMax, Except.ok.injEq]
    constructor
    · rintro rfl; exact ⟨h1, h2⟩
    · rintro ⟨h3, h4⟩
      exact le_antisymm (h4 _ h1) (h2 _ h3)

theorem rowMax_exists {l : List K} (h : l ≠ []) : ∃ m, rowMax l = .ok m := by
  cases l with
  | nil => exact absurd rfl h
  | cons a t => exact ⟨_, rfl⟩

end Max

end Verif.Np
