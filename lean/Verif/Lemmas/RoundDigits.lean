import Verif.Spec.Rounding
import Mathlib.Tactic.Linarith
import Mathlib.Tactic.Ring
import Mathlib.Tactic.FieldSimp
import Mathlib.Tactic.Push

/-!
# Rounding to binary digits is a rounding
-/

set_option linter.unusedSectionVars false
set_option autoImplicit false

namespace Verif.Lemmas.RoundDigits

open Verif.Spec

variable {K : Type} [Field K] [LinearOrder K] [IsStrictOrderedRing K] [FloorRing K]

/-- `roundDigits` of positive numbers -/
def pos (r : K → ℤ) (p : ℕ) (x : K) : K := (r (x / 2 ^ (Int.log 2 x - p)) : K) * 2 ^ (Int.log 2 x - p)

theorem log_bounds {x : K} (hx : 0 < x) : (2 : K) ^ Int.log 2 x ≤ x ∧ x < 2 ^ (Int.log 2 x + 1) := by
  constructor
  · simpa using Int.zpow_log_le_self (R := K) (b := 2) (by norm_num) hx
  · simpa using Int.lt_zpow_succ_log_self (R := K) (b := 2) (by norm_num) x

theorem two_zpow_pos (e : ℤ) : (0 : K) < 2 ^ e := zpow_pos (by norm_num) e

theorem log_of_bounds {x : K} {e : ℤ} (h1 : (2 : K) ^ e ≤ x) (h2 : x < 2 ^ (e + 1)) : Int.log 2 x = e := by
  have hx : 0 < x := lt_of_lt_of_le (two_zpow_pos e) h1
  obtain ⟨h3, h4⟩ := log_bounds hx
  have a : e < Int.log 2 x + 1 := (zpow_lt_zpow_iff_right₀ (by norm_num : (1 : K) < 2)).1 (lt_of_le_of_lt h1 h4)
  have b : Int.log 2 x < e + 1 := (zpow_lt_zpow_iff_right₀ (by norm_num : (1 : K) < 2)).1 (lt_of_le_of_lt h3 h2)
  omega

/-- the mantissa -/
theorem mantissa {x : K} (hx : 0 < x) (p : ℕ) :
    (((2 ^ p : ℤ)) : K) ≤ x / 2 ^ (Int.log 2 x - p) ∧ x / 2 ^ (Int.log 2 x - p) < (((2 ^ (p + 1) : ℤ)) : K) := by
  obtain ⟨h1, h2⟩ := log_bounds hx
  constructor
  · rw [le_div_iff₀ (two_zpow_pos _)]
    calc (((2 ^ p : ℤ)) : K) * 2 ^ (Int.log 2 x - p) = 2 ^ (p : ℤ) * 2 ^ (Int.log 2 x - p) := by push_cast; rw [zpow_natCast]
      _ = 2 ^ Int.log 2 x := by rw [← zpow_add₀ (by norm_num)]; congr 1; omega
      _ ≤ x := h1
  · rw [div_lt_iff₀ (two_zpow_pos _)]
    calc x < 2 ^ (Int.log 2 x + 1) := h2
      _ = 2 ^ ((p + 1 : ℕ) : ℤ) * 2 ^ (Int.log 2 x - p) := by rw [← zpow_add₀ (by norm_num)]; congr 1; push_cast; omega
      _ = (((2 ^ (p + 1) : ℤ)) : K) * 2 ^ (Int.log 2 x - p) := by rw [zpow_natCast]; push_cast; rfl

/-- what is asked of the rounding to integers -/
structure IntRound (r : K → ℤ) (c : K) : Prop where
  mono : ∀ x y, x ≤ y → r x ≤ r y
  int : ∀ n : ℤ, r n = n
  err : ∀ x, |(r x : K) - x| ≤ c

variable {r : K → ℤ} {c : K}

theorem round_bounds (h : IntRound r c) {x : K} (hx : 0 < x) (p : ℕ) :
    2 ^ p ≤ r (x / 2 ^ (Int.log 2 x - p)) ∧ r (x / 2 ^ (Int.log 2 x - p)) ≤ 2 ^ (p + 1) := by
  obtain ⟨h1, h2⟩ := mantissa hx p
  constructor
  · have := h.mono _ _ h1
    rwa [h.int] at this
  · have := h.mono _ _ h2.le
    rwa [h.int] at this

/-- the result lies between the powers of two around the argument -/
theorem pos_bounds (h : IntRound r c) {x : K} (hx : 0 < x) (p : ℕ) :
    (2 : K) ^ Int.log 2 x ≤ pos r p x ∧ pos r p x ≤ 2 ^ (Int.log 2 x + 1) := by
  obtain ⟨h1, h2⟩ := round_bounds h hx p
  have h1' : (((2 ^ p : ℤ)) : K) ≤ r (x / 2 ^ (Int.log 2 x - p)) := by exact_mod_cast h1
  have h2' : (r (x / 2 ^ (Int.log 2 x - p)) : K) ≤ (((2 ^ (p + 1) : ℤ)) : K) := by exact_mod_cast h2
  constructor
  · calc (2 : K) ^ Int.log 2 x = 2 ^ (p : ℤ) * 2 ^ (Int.log 2 x - p) := by rw [← zpow_add₀ (by norm_num)]; congr 1; omega
      _ = (((2 ^ p : ℤ)) : K) * 2 ^ (Int.log 2 x - p) := by push_cast; rw [zpow_natCast]
      _ ≤ _ := mul_le_mul_of_nonneg_right h1' (two_zpow_pos _).le
  · calc pos r p x ≤ (((2 ^ (p + 1) : ℤ)) : K) * 2 ^ (Int.log 2 x - p) := mul_le_mul_of_nonneg_right h2' (two_zpow_pos _).le
      _ = 2 ^ ((p + 1 : ℕ) : ℤ) * 2 ^ (Int.log 2 x - p) := by push_cast; rw [← zpow_natCast]; push_cast; rfl
      _ = 2 ^ (Int.log 2 x + 1) := by rw [← zpow_add₀ (by norm_num)]; congr 1; push_cast; omega

theorem pos_pos (h : IntRound r c) {x : K} (hx : 0 < x) (p : ℕ) : 0 < pos r p x :=
  lt_of_lt_of_le (two_zpow_pos _) (pos_bounds h hx p).1

theorem pos_mono (h : IntRound r c) (p : ℕ) {x y : K} (hx : 0 < x) (hxy : x ≤ y) : pos r p x ≤ pos r p y := by
  have hy := lt_of_lt_of_le hx hxy
  rcases lt_trichotomy (Int.log 2 x) (Int.log 2 y) with hl | hl | hl
  · refine ((pos_bounds h hx p).2.trans ?_).trans (pos_bounds h hy p).1
    exact zpow_le_zpow_right₀ (by norm_num) (by omega)
  · unfold pos
    rw [hl]
    refine mul_le_mul_of_nonneg_right ?_ (two_zpow_pos _).le
    exact_mod_cast h.mono _ _ (div_le_div_of_nonneg_right hxy (two_zpow_pos _).le)
  · exact absurd (Int.log_mono_right (b := 2) hx hxy) (not_le.2 hl)

theorem pos_err (h : IntRound r c) (p : ℕ) {x : K} (hx : 0 < x) : |pos r p x - x| ≤ c / 2 ^ p * x := by
  have hc : 0 ≤ c := (abs_nonneg _).trans (h.err 0)
  have e : pos r p x - x = ((r (x / 2 ^ (Int.log 2 x - p)) : K) - x / 2 ^ (Int.log 2 x - p)) * 2 ^ (Int.log 2 x - p) := by
    rw [sub_mul, div_mul_cancel₀ _ (two_zpow_pos _).ne']
    rfl
  rw [e, abs_mul, abs_of_pos (two_zpow_pos (K := K) (Int.log 2 x - p))]
  refine (mul_le_mul_of_nonneg_right (h.err _) (two_zpow_pos _).le).trans ?_
  rw [zpow_sub₀ (by norm_num), zpow_natCast, div_mul_eq_mul_div, ← mul_div_assoc]
  exact div_le_div_of_nonneg_right (mul_le_mul_of_nonneg_left (log_bounds hx).1 hc) (by positivity)

/-- a number with few digits is kept -/
theorem pos_int (h : IntRound r c) (p : ℕ) {x : K} {N e : ℤ} (hN : x = N * 2 ^ e) (he : e = Int.log 2 x - p) : pos r p x = x := by
  unfold pos
  rw [← he]
  conv_lhs => rw [hN]
  rw [mul_div_assoc, div_self (two_zpow_pos e).ne', mul_one, h.int, ← hN]

theorem pos_idem (h : IntRound r c) (p : ℕ) {x : K} (hx : 0 < x) : pos r p (pos r p x) = pos r p x := by
  obtain ⟨h1, h2⟩ := pos_bounds h hx p
  rcases h2.lt_or_eq with h3 | h3
  · exact pos_int h p rfl (by rw [log_of_bounds h1 h3])
  · have hl : Int.log 2 (pos r p x) = Int.log 2 x + 1 := by
      refine log_of_bounds h3.ge ?_
      rw [h3]
      exact (zpow_lt_zpow_iff_right₀ (by norm_num : (1 : K) < 2)).2 (by omega)
    refine pos_int h p (N := 2 ^ p) (e := Int.log 2 x + 1 - p) ?_ (by rw [hl])
    rw [h3]
    push_cast
    rw [← zpow_natCast, ← zpow_add₀ (by norm_num)]
    congr 1
    omega

theorem pos_half (p : ℕ) {x : K} (hx : 0 < x) : pos r p (x / 2) = pos r p x / 2 := by
  obtain ⟨h1, h2⟩ := log_bounds hx
  have hl : Int.log 2 (x / 2) = Int.log 2 x - 1 := by
    refine log_of_bounds ?_ ?_
    · rw [zpow_sub₀ (by norm_num), zpow_one]
      exact div_le_div_of_nonneg_right h1 (by norm_num)
    · rw [sub_add_cancel, div_lt_iff₀ (by norm_num)]
      rwa [zpow_add₀ (by norm_num), zpow_one] at h2
  have e : (2 : K) ^ (Int.log 2 x - 1 - p) = 2 ^ (Int.log 2 x - p) / 2 := by
    rw [show Int.log 2 x - 1 - p = (Int.log 2 x - p) - 1 by omega, zpow_sub₀ (by norm_num), zpow_one]
  unfold pos
  rw [hl, e]
  have e2 : x / 2 / (2 ^ (Int.log 2 x - p) / 2) = x / 2 ^ (Int.log 2 x - p) := by
    rw [div_div_div_cancel_right₀ (by norm_num)]
  rw [e2, mul_div_assoc]

theorem roundDigits_zero (p : ℕ) : roundDigits r p (0 : K) = 0 := by simp [roundDigits]

theorem roundDigits_pos (p : ℕ) {x : K} (hx : 0 < x) : roundDigits r p x = pos r p x := by simp [roundDigits, hx.ne', hx, pos]

theorem roundDigits_neg (p : ℕ) {x : K} (hx : x < 0) : roundDigits r p x = -pos r p (-x) := by
  simp [roundDigits, hx.ne, not_lt.2 hx.le, pos]

theorem roundDigits_odd (p : ℕ) (x : K) : roundDigits r p (-x) = -roundDigits r p x := by
  rcases lt_trichotomy x 0 with hx | hx | hx
  · rw [roundDigits_neg p hx, roundDigits_pos p (neg_pos.2 hx), neg_neg]
  · simp [hx, roundDigits_zero]
  · rw [roundDigits_pos p hx, roundDigits_neg p (neg_lt_zero.2 hx), neg_neg]

/-- rounding to `p + 1` binary digits is a rounding with relative error `c · 2⁻ᵖ` -/
theorem roundDigits_rounding (h : IntRound r c) (p : ℕ) (hc : c < 2 ^ p) : Rounding (roundDigits r p : K → K) (c / 2 ^ p) where
  mono := by
    intro x y hxy
    rcases lt_trichotomy x 0 with hx | hx | hx
    · rcases lt_trichotomy y 0 with hy | hy | hy
      · rw [roundDigits_neg p hx, roundDigits_neg p hy]
        exact neg_le_neg (pos_mono h p (neg_pos.2 hy) (neg_le_neg hxy))
      · rw [roundDigits_neg p hx, hy, roundDigits_zero]
        exact neg_nonpos.2 (pos_pos h (neg_pos.2 hx) p).le
      · rw [roundDigits_neg p hx, roundDigits_pos p hy]
        exact (neg_nonpos.2 (pos_pos h (neg_pos.2 hx) p).le).trans (pos_pos h hy p).le
    · rw [hx, roundDigits_zero]
      rcases (hx ▸ hxy).eq_or_lt with hy | hy
      · rw [← hy, roundDigits_zero]
      · rw [roundDigits_pos p hy]; exact (pos_pos h hy p).le
    · rw [roundDigits_pos p hx, roundDigits_pos p (lt_of_lt_of_le hx hxy)]
      exact pos_mono h p hx hxy
  idem := by
    intro x
    rcases lt_trichotomy x 0 with hx | hx | hx
    · have h' := neg_pos.2 hx
      rw [roundDigits_neg p hx, roundDigits_odd, roundDigits_pos p (pos_pos h h' p), pos_idem h p h']
    · rw [hx, roundDigits_zero, roundDigits_zero]
    · rw [roundDigits_pos p hx, roundDigits_pos p (pos_pos h hx p), pos_idem h p hx]
  zero := roundDigits_zero p
  one := by
    rw [roundDigits_pos p one_pos]
    have hl : Int.log 2 (1 : K) = 0 := log_of_bounds (by simp) (by norm_num)
    refine pos_int h p (N := 2 ^ p) (e := -p) ?_ (by rw [hl]; simp)
    push_cast
    rw [zpow_neg, zpow_natCast, mul_inv_cancel₀ (by positivity)]
  half := by
    intro x
    rcases lt_trichotomy x 0 with hx | hx | hx
    · have h1 : x / 2 < 0 := by linarith
      rw [roundDigits_neg p hx, roundDigits_neg p h1, ← neg_div, pos_half p (neg_pos.2 hx), neg_div]
    · simp [hx, roundDigits_zero]
    · have h1 : 0 < x / 2 := by linarith
      rw [roundDigits_pos p hx, roundDigits_pos p h1, pos_half p hx]
  err := by
    intro x
    rcases lt_trichotomy x 0 with hx | hx | hx
    · have := pos_err h p (neg_pos.2 hx)
      rw [roundDigits_neg p hx, abs_of_neg hx, ← abs_neg]
      convert this using 2
      ring
    · simp [hx, roundDigits_zero]
    · rw [roundDigits_pos p hx, abs_of_pos hx]
      exact pos_err h p hx
  nonneg := div_nonneg ((abs_nonneg _).trans (h.err 0)) (by positivity)
  lt_one := by rw [div_lt_one (by positivity)]; exact hc

theorem roundEven_err (x : K) : |(roundEven x : K) - x| ≤ 1 / 2 := by
  have h1 := Int.floor_le x
  have h2 := Int.lt_floor_add_one x
  unfold roundEven
  split
  · rw [abs_le]; constructor <;> linarith
  · split
    · push_cast; rw [abs_le]; constructor <;> linarith
    · split
      · rw [abs_le]; constructor <;> linarith
      · push_cast; rw [abs_le]; constructor <;> linarith

theorem roundEven_cases (x : K) : roundEven x = ⌊x⌋ ∨ roundEven x = ⌊x⌋ + 1 := by
  unfold roundEven
  split
  · exact .inl rfl
  · split
    · exact .inr rfl
    · split
      · exact .inl rfl
      · exact .inr rfl

theorem roundEven_round : IntRound (roundEven : K → ℤ) (1 / 2) where
  mono := by
    intro x y hxy
    have hf := Int.floor_mono hxy
    rcases hf.lt_or_eq with hl | he
    · rcases roundEven_cases x with h1 | h1 <;> rcases roundEven_cases y with h2 | h2 <;> rw [h1, h2] <;> omega
    · unfold roundEven
      rw [he]
      split
      · split
        · exact le_refl _
        · split
          · omega
          · split <;> omega
      · rename_i h1
        split
        · rename_i h2
          have h3 : 1 / 2 < y - ⌊y⌋ := by linarith
          rw [if_neg (not_lt.2 h3.le), if_pos h3]
        · rename_i h2
          have h3 : ¬ (y - ⌊y⌋ < 1 / 2) := by push Not; linarith [not_lt.1 h1]
          rw [if_neg h3]
          split
          · split <;> omega
          · split <;> omega
  int := by intro n; simp [roundEven]
  err := roundEven_err

/-- doubles round with relative error `2⁻⁵³` -/
theorem double_rounding : Rounding (double : K → K) (1 / 2 ^ 53) := by
  have := roundDigits_rounding (K := K) roundEven_round 52 (by norm_num)
  have e : (1 / 2 / 2 ^ 52 : K) = 1 / 2 ^ 53 := by norm_num
  rw [e] at this
  exact this

end Verif.Lemmas.RoundDigits
