import Verif.Model.DTypes
import Verif.Lemmas.RoundDigits

/-!
# Rounding to a floating-point format with gradual underflow
-/

set_option linter.unusedSectionVars false
set_option autoImplicit false

namespace Verif.Lemmas.FloatRound

open Verif Verif.Model Verif.Spec Verif.Lemmas.RoundDigits

variable {K : Type} [Field K] [LinearOrder K] [IsStrictOrderedRing K] [FloorRing K]

theorem roundEven_odd (x : K) : roundEven (-x) = -roundEven x := by
  have hf := Int.floor_le x
  have hl := Int.lt_floor_add_one x
  unfold roundEven
  by_cases hi : (⌊x⌋ : K) = x
  · have h1 : ⌊-x⌋ = -⌊x⌋ := by rw [← hi]; simp [← Int.cast_neg]
    have e1 : x - ⌊x⌋ = 0 := by rw [hi]; ring
    have e2 : -x - ((-⌊x⌋ : ℤ) : K) = 0 := by push_cast; rw [hi]; ring
    rw [h1, e1, e2, if_pos (by norm_num), if_pos (by norm_num)]
  · have hlt : (⌊x⌋ : K) < x := lt_of_le_of_ne hf hi
    have h1 : ⌊-x⌋ = -⌊x⌋ - 1 := by
      rw [Int.floor_eq_iff]
      push_cast
      constructor <;> linarith
    have e2 : -x - ((-⌊x⌋ - 1 : ℤ) : K) = 1 - (x - ⌊x⌋) := by push_cast; ring
    rw [h1, e2]
    rcases lt_trichotomy (x - ⌊x⌋) (1 / 2) with h | h | h
    · have a1 : ¬ 1 - (x - ⌊x⌋) < 1 / 2 := by linarith
      have a2 : 1 / 2 < 1 - (x - ⌊x⌋) := by linarith
      rw [if_pos h, if_neg a1, if_pos a2]; ring
    · have a0 : ¬ ((1 : K) / 2 < 1 / 2) := lt_irrefl _
      have a1 : (1 : K) - 1 / 2 = 1 / 2 := by norm_num
      rw [h, a1]
      simp only [a0, if_false]
      split_ifs <;> omega
    · have a1 : 1 - (x - ⌊x⌋) < 1 / 2 := by linarith
      have a2 : ¬ x - ⌊x⌋ < 1 / 2 := by linarith
      rw [if_pos a1, if_neg a2, if_pos h]; ring

theorem spacing_neg (p : ℕ) (emin : ℤ) (x : K) : spacing p emin (-x) = spacing p emin x := by simp [spacing]

theorem floatRound_odd (p : ℕ) (emin : ℤ) (x : K) : floatRound p emin (-x) = -floatRound p emin x := by
  unfold floatRound
  rw [spacing_neg, neg_div, roundEven_odd]
  push_cast
  ring

theorem roundEven_zero : roundEven (0 : K) = 0 := by simp [roundEven]

theorem floatRound_zero (p : ℕ) (emin : ℤ) : floatRound p emin (0 : K) = 0 := by simp [floatRound, roundEven_zero]

/-- normal numbers: as without a smallest exponent -/
theorem floatRound_normal (p : ℕ) (emin : ℤ) {x : K} (h : (2 : K) ^ (emin + p) ≤ |x|) : floatRound p emin x = roundDigits roundEven p x := by
  have hx : 0 < |x| := lt_of_lt_of_le (two_zpow_pos _) h
  have hl : emin + p ≤ Int.log 2 |x| := by
    have h2 := (log_bounds hx).2
    have := (zpow_lt_zpow_iff_right₀ (by norm_num : (1 : K) < 2)).1 (lt_of_le_of_lt h h2)
    omega
  have hs : spacing p emin x = Int.log 2 |x| - p := by unfold spacing; omega
  unfold floatRound
  rw [hs]
  rcases lt_trichotomy x 0 with h0 | h0 | h0
  · rw [roundDigits_neg p h0]
    unfold pos
    rw [abs_of_neg h0, ← neg_neg x, neg_div, roundEven_odd, neg_neg]
    push_cast
    ring
  · rw [h0] at hx; simp at hx
  · rw [roundDigits_pos p h0]
    unfold pos
    rw [abs_of_pos h0]

/-- below the smallest normal number: multiples of the smallest spacing -/
theorem floatRound_small (p : ℕ) (emin : ℤ) {x : K} (h : |x| ≤ 2 ^ (emin + p)) : floatRound p emin x = (roundEven (x / 2 ^ emin) : K) * 2 ^ emin := by
  by_cases h0 : x = 0
  · rw [h0, floatRound_zero, zero_div, roundEven_zero]; simp
  have hx : 0 < |x| := abs_pos.2 h0
  have hl : Int.log 2 |x| ≤ emin + p := by
    have h2 := (log_bounds hx).1
    exact (zpow_le_zpow_iff_right₀ (by norm_num : (1 : K) < 2)).1 (h2.trans h)
  have hs : spacing p emin x = emin := by unfold spacing; omega
  unfold floatRound
  rw [hs]

theorem small_bound (p : ℕ) (emin : ℤ) {x : K} (h : |x| ≤ 2 ^ (emin + p)) : |floatRound p emin x| ≤ 2 ^ (emin + p) := by
  rw [floatRound_small p emin h]
  have hp := two_zpow_pos (K := K) emin
  have e : (2 : K) ^ (emin + p) = (((2 ^ p : ℕ) : ℤ) : K) * 2 ^ emin := by
    rw [zpow_add₀ (by norm_num), mul_comm]; push_cast; rw [zpow_natCast]
  rw [abs_mul, abs_of_pos hp, e]
  refine mul_le_mul_of_nonneg_right ?_ hp.le
  have hr := roundEven_round (K := K)
  rw [abs_le] at h ⊢
  have h2 : x / 2 ^ emin ≤ (((2 ^ p : ℕ) : ℤ) : K) := by rw [div_le_iff₀ hp, ← e]; exact h.2
  have h1 : ((-((2 ^ p : ℕ) : ℤ) : ℤ) : K) ≤ x / 2 ^ emin := by
    rw [le_div_iff₀ hp]; push_cast at e ⊢; rw [neg_mul, ← e]; exact h.1
  have m1 := hr.mono _ _ h1
  have m2 := hr.mono _ _ h2
  rw [hr.int] at m1 m2
  constructor
  · have : ((-((2 ^ p : ℕ) : ℤ) : ℤ) : K) ≤ (roundEven (x / 2 ^ emin) : K) := by exact_mod_cast m1
    simpa using this
  · exact_mod_cast m2

theorem normal_bound (p : ℕ) (emin : ℤ) {x : K} (h : (2 : K) ^ (emin + p) ≤ |x|) : (2 : K) ^ (emin + p) ≤ |floatRound p emin x| := by
  rw [floatRound_normal p emin h]
  have key : ∀ y : K, 0 < y → (2 : K) ^ (emin + p) ≤ y → (2 : K) ^ (emin + p) ≤ pos roundEven p y := by
    intro y hy h
    refine le_trans ?_ (pos_bounds roundEven_round hy p).1
    refine zpow_le_zpow_right₀ (by norm_num) ?_
    have := (zpow_lt_zpow_iff_right₀ (by norm_num : (1 : K) < 2)).1 (lt_of_le_of_lt h (log_bounds hy).2)
    omega
  have hx : 0 < |x| := lt_of_lt_of_le (two_zpow_pos _) h
  rcases lt_trichotomy x 0 with h0 | h0 | h0
  · rw [roundDigits_neg p h0, abs_neg, abs_of_pos (pos_pos roundEven_round (neg_pos.2 h0) p)]
    rw [abs_of_neg h0] at h
    exact key _ (neg_pos.2 h0) h
  · rw [h0] at hx; simp at hx
  · rw [roundDigits_pos p h0, abs_of_pos (pos_pos roundEven_round h0 p)]
    rw [abs_of_pos h0] at h
    exact key _ h0 h

theorem floatRound_idem (p : ℕ) (emin : ℤ) (x : K) : floatRound p emin (floatRound p emin x) = floatRound p emin x := by
  rcases le_total |x| (2 ^ (emin + p)) with h | h
  · rw [floatRound_small p emin (small_bound p emin h), floatRound_small p emin h, mul_div_assoc, div_self (two_zpow_pos (K := K) emin).ne', mul_one,
      roundEven_round.int]
  · have h' := normal_bound p emin h
    rw [floatRound_normal p emin h', floatRound_normal p emin h]
    by_cases hp : (1 / 2 : K) < 2 ^ p
    · exact (roundDigits_rounding roundEven_round p hp).idem x
    · exact absurd (one_le_pow₀ (by norm_num : (1 : K) ≤ 2) (n := p)) (by intro hh; exact hp (by linarith))

theorem floatRound_nonneg (p : ℕ) (emin : ℤ) {x : K} (h : 0 ≤ x) : 0 ≤ floatRound p emin x := by
  unfold floatRound
  refine mul_nonneg ?_ (two_zpow_pos _).le
  have := roundEven_round.mono _ _ (div_nonneg h (two_zpow_pos (K := K) (spacing p emin x)).le)
  rw [roundEven_zero] at this
  exact_mod_cast this

theorem floatRound_mono (p : ℕ) (emin : ℤ) {x y : K} (h : x ≤ y) : floatRound p emin x ≤ floatRound p emin y := by
  have key : ∀ {x y : K}, 0 ≤ x → x ≤ y → floatRound p emin x ≤ floatRound p emin y := by
    intro x y hx h
    have hy := hx.trans h
    rcases le_total |y| (2 ^ (emin + p)) with h1 | h1
    · have h2 : |x| ≤ 2 ^ (emin + p) := by rw [abs_of_nonneg hx]; rw [abs_of_nonneg hy] at h1; exact h.trans h1
      rw [floatRound_small p emin h1, floatRound_small p emin h2]
      refine mul_le_mul_of_nonneg_right ?_ (two_zpow_pos _).le
      exact_mod_cast roundEven_round.mono _ _ (div_le_div_of_nonneg_right h (two_zpow_pos (K := K) emin).le)
    · rcases le_total |x| (2 ^ (emin + p)) with h2 | h2
      · have a := small_bound p emin h2
        have b := normal_bound p emin h1
        rw [abs_of_nonneg (floatRound_nonneg p emin hx)] at a
        rw [abs_of_nonneg (floatRound_nonneg p emin hy)] at b
        exact a.trans b
      · rw [floatRound_normal p emin h1, floatRound_normal p emin h2]
        have hp : (1 / 2 : K) < 2 ^ p := by
          have := one_le_pow₀ (by norm_num : (1 : K) ≤ 2) (n := p)
          linarith
        exact (roundDigits_rounding roundEven_round p hp).mono _ _ h
  rcases le_total 0 x with h0 | h0
  · exact key h0 h
  · rcases le_total 0 y with h1 | h1
    · refine le_trans ?_ (floatRound_nonneg p emin h1)
      have := floatRound_nonneg p emin (neg_nonneg.2 h0)
      rw [floatRound_odd] at this
      linarith
    · have := key (neg_nonneg.2 h1) (neg_le_neg h)
      rw [floatRound_odd, floatRound_odd] at this
      linarith

/-- the error: half a unit in the last place, or half the smallest spacing -/
theorem floatRound_err (p : ℕ) (emin : ℤ) (x : K) : |floatRound p emin x - x| ≤ max (|x| / 2 ^ (p + 1)) (2 ^ emin / 2) := by
  rcases le_total |x| (2 ^ (emin + p)) with h | h
  · refine le_trans ?_ (le_max_right _ _)
    rw [floatRound_small p emin h]
    have hp := two_zpow_pos (K := K) emin
    have e : (roundEven (x / 2 ^ emin) : K) * 2 ^ emin - x = ((roundEven (x / 2 ^ emin) : K) - x / 2 ^ emin) * 2 ^ emin := by
      rw [sub_mul, div_mul_cancel₀ _ hp.ne']
    rw [e, abs_mul, abs_of_pos hp]
    have := roundEven_err (x / 2 ^ emin)
    nlinarith
  · refine le_trans ?_ (le_max_left _ _)
    rw [floatRound_normal p emin h]
    have hp : (1 / 2 : K) < 2 ^ p := by
      have := one_le_pow₀ (by norm_num : (1 : K) ≤ 2) (n := p)
      linarith
    refine ((roundDigits_rounding roundEven_round p hp).err x).trans (le_of_eq ?_)
    rw [pow_succ]
    field_simp

end Verif.Lemmas.FloatRound
