import Verif.Model.Spline
import Mathlib.Analysis.Calculus.Deriv.Mul
import Mathlib.Analysis.Calculus.Deriv.Add
import Mathlib.Analysis.Calculus.Deriv.Linear
import Mathlib.Algebra.BigOperators.Intervals
import Mathlib.Tactic.FieldSimp
import Mathlib.Tactic.Linarith
import Mathlib.Tactic.Ring

/-!
# B-splines: support, sign, partition of unity, derivative, Gaffney's integral
-/

set_option linter.unusedSectionVars false
set_option autoImplicit false

namespace Verif.Lemmas.Spline

open Verif Verif.Np Verif.Model Finset

section Algebra

variable {K : Type*} [Field K] [LinearOrder K] [IsStrictOrderedRing K]

theorem sum_range (f : ℕ → K) : ∀ n : ℕ, ((List.range n).map f).sum = ∑ i ∈ range n, f i := by
  intro n
  induction n with
  | zero => simp
  | succ n ih => rw [List.range_succ, List.map_append, List.sum_append, ih, Finset.sum_range_succ]; simp

/-- knots `0 … n-1` are non-decreasing -/
def MonoTo (t : ℕ → K) (n : ℕ) : Prop := ∀ i j, i ≤ j → j < n → t i ≤ t j

theorem bspl_support (t : ℕ → K) (l : ℕ) (x : K) : ∀ (d m : ℕ), ¬ (m ≤ l ∧ l ≤ m + d) → bspl t l d m x = 0 := by
  intro d
  induction d with
  | zero => intro m h; simp only [bspl]; rw [if_neg]; omega
  | succ d ih =>
    intro m h
    simp only [bspl]
    rw [ih m (by omega), ih (m + 1) (by omega)]; ring

theorem bspl_nonneg (t : ℕ → K) (n l : ℕ) (ht : MonoTo t n) (x : K) (h1 : t l ≤ x) (h2 : x ≤ t (l + 1)) :
    ∀ (d m : ℕ), m + d + 1 < n → 0 ≤ bspl t l d m x := by
  intro d
  induction d with
  | zero => intro m _; simp only [bspl]; split <;> simp
  | succ d ih =>
    intro m hm
    simp only [bspl]
    apply add_nonneg
    · by_cases hs : m ≤ l ∧ l ≤ m + d
      · refine mul_nonneg (div_nonneg ?_ ?_) (ih m (by omega))
        · have := ht m l hs.1 (by omega); linarith
        · have := ht m (m + d + 1) (by omega) (by omega); linarith
      · rw [bspl_support t l x d m hs]; simp
    · by_cases hs : m + 1 ≤ l ∧ l ≤ m + 1 + d
      · refine mul_nonneg (div_nonneg ?_ ?_) (ih (m + 1) (by omega))
        · have := ht (l + 1) (m + d + 2) (by omega) (by omega); linarith
        · have := ht (m + 1) (m + d + 2) (by omega) (by omega); linarith
      · rw [bspl_support t l x d (m + 1) hs]; simp

/-- the B-splines of an interval add up to 1 -/
theorem bspl_sum (t : ℕ → K) (n l : ℕ) (ht : MonoTo t n) (hl : t l < t (l + 1)) (x : K) :
    ∀ d : ℕ, d ≤ l → l + d + 1 < n → ∑ j ∈ range (d + 1), bspl t l d (l - d + j) x = 1 := by
  intro d
  induction d with
  | zero => intro _ _; simp [bspl]
  | succ d ih =>
    intro hd hn
    have ih := ih (by omega) (by omega)
    simp only [bspl]
    rw [Finset.sum_add_distrib]
    -- first sum: the term with index l-d-1 vanishes; second: the last one does
    rw [Finset.sum_range_succ' (fun j => (x - t (l - (d + 1) + j)) / (t (l - (d + 1) + j + d + 1) - t (l - (d + 1) + j)) * bspl t l d (l - (d + 1) + j) x)]
    rw [Finset.sum_range_succ (fun j => (t (l - (d + 1) + j + d + 2) - x) / (t (l - (d + 1) + j + d + 2) - t (l - (d + 1) + j + 1)) * bspl t l d (l - (d + 1) + j + 1) x)]
    rw [bspl_support t l x d (l - (d + 1) + 0) (by omega), bspl_support t l x d (l - (d + 1) + (d + 1) + 1) (by omega)]
    rw [mul_zero, mul_zero, add_zero, add_zero, ← Finset.sum_add_distrib, ← ih]
    apply Finset.sum_congr rfl
    intro j hj
    have hj' : j < d + 1 := by simpa using hj
    have e1 : l - (d + 1) + (j + 1) = l - d + j := by omega
    have e2 : l - (d + 1) + j + d + 2 = l - d + j + d + 1 := by omega
    have e3 : l - (d + 1) + j + 1 = l - d + j := by omega
    rw [e1, e2, e3]
    have hlt : t (l - d + j) < t (l - d + j + d + 1) := by
      have h1 := ht (l - d + j) l (by omega) (by omega)
      have h2 := ht (l + 1) (l - d + j + d + 1) (by omega) (by omega)
      linarith
    have hne : t (l - d + j + d + 1) - t (l - d + j) ≠ 0 := by linarith
    rw [← add_mul, ← add_div]
    rw [show x - t (l - d + j) + (t (l - d + j + d + 1) - x) = t (l - d + j + d + 1) - t (l - d + j) by ring, div_self hne, one_mul]

/-- neighbouring intervals agree at their common knot, for degree at least one -/
theorem bspl_join (t : ℕ → K) (l : ℕ) (h1 : t l < t (l + 1)) (h2 : t (l + 1) < t (l + 2)) :
    ∀ (d m : ℕ), bspl t l (d + 1) m (t (l + 1)) = bspl t (l + 1) (d + 1) m (t (l + 1)) := by
  intro d
  induction d with
  | zero =>
    intro m
    simp only [bspl]
    by_cases e1 : m = l
    · subst e1
      have hne : t (m + 1) - t m ≠ 0 := by linarith
      have hne' : t (m + 2) - t (m + 1) ≠ 0 := by linarith
      simp [div_self hne, div_self hne']
    by_cases e2 : m = l + 1
    · subst e2; simp; omega
    by_cases e3 : m + 1 = l
    · subst e3; simp; omega
    · have : ¬ (m + 1 = l + 1) := by omega
      simp [e1, e2, e3]
  | succ d ih =>
    intro m
    have e : ∀ l', bspl t l' (d + 1 + 1) m (t (l + 1)) = (t (l + 1) - t m) / (t (m + (d + 1) + 1) - t m) * bspl t l' (d + 1) m (t (l + 1)) +
        (t (m + (d + 1) + 2) - t (l + 1)) / (t (m + (d + 1) + 2) - t (m + 1)) * bspl t l' (d + 1) (m + 1) (t (l + 1)) := fun l' => rfl
    rw [e, e, ih m, ih (m + 1)]

/-- the fraction of Gaffney's formula written as a sum over a `Finset` -/
theorem splRes_eq (t : ℕ → K) (l k m : ℕ) (x : K) (h : ¬ m + k < l) :
    splRes t l k m x = ∑ j ∈ range (k + 1), bspl t l j (m + k - j) x * (x - t (m + k - j)) / (t (m + k + 1) - t (m + k - j)) := by
  unfold splRes
  rw [if_neg h, sum_range]

/-- neighbouring intervals give the same fraction at their common knot -/
theorem splRes_join (t : ℕ → K) (l k m : ℕ) (h1 : t l < t (l + 1)) (h2 : t (l + 1) < t (l + 2)) :
    splRes t l k m (t (l + 1)) = splRes t (l + 1) k m (t (l + 1)) := by
  by_cases ha : m + k < l
  · unfold splRes; rw [if_pos ha, if_pos (by omega)]
  · rw [splRes_eq t l k m _ ha, Finset.sum_range_succ']
    by_cases hb : m + k < l + 1
    · have e : m + k = l := by omega
      rw [Finset.sum_eq_zero]
      · unfold splRes
        rw [if_pos hb]
        have hne : t (l + 1) - t l ≠ 0 := by linarith
        simp only [Nat.sub_zero, bspl, e, if_true, one_mul, div_self hne, zero_add]
      · intro j hj
        have hj' : j < k := by simpa using hj
        rw [bspl_join t l h1 h2, bspl_support t (l + 1) _ _ _ (by omega)]; simp
    · rw [splRes_eq t (l + 1) k m _ hb, Finset.sum_range_succ']
      congr 1
      · apply Finset.sum_congr rfl
        intro j _
        rw [bspl_join t l h1 h2]
      · simp only [Nat.sub_zero, bspl]
        rw [if_neg (by omega)]
        by_cases e : m + k = l + 1
        · rw [e]; simp
        · rw [if_neg e]

end Algebra

/-! ## derivatives -/

theorem bspl_deriv (t : ℕ → ℝ) (n l : ℕ) (ht : MonoTo t n) (x : ℝ) : ∀ (d m : ℕ), m + d + 2 < n →
    HasDerivAt (bspl t l (d + 1) m) (((d : ℝ) + 1) * (bspl t l d m x / (t (m + d + 1) - t m) - bspl t l d (m + 1) x / (t (m + d + 2) - t (m + 1)))) x := by
  intro d
  induction d with
  | zero =>
    intro m _
    have h1 : HasDerivAt (fun y => (y - t m) / (t (m + 0 + 1) - t m) * bspl t l 0 m y + (t (m + 0 + 2) - y) / (t (m + 0 + 2) - t (m + 1)) * bspl t l 0 (m + 1) y) _ x :=
      ((((hasDerivAt_id x).sub_const (t m)).div_const _).mul_const (bspl t l 0 m x)).add
        ((((hasDerivAt_id x).const_sub (t (m + 0 + 2))).div_const (t (m + 0 + 2) - t (m + 1))).mul_const (bspl t l 0 (m + 1) x))
    refine h1.congr_deriv ?_
    push_cast; ring
  | succ d ih =>
    intro m hm
    have h1 : HasDerivAt (fun y => (y - t m) / (t (m + (d + 1) + 1) - t m) * bspl t l (d + 1) m y +
        (t (m + (d + 1) + 2) - y) / (t (m + (d + 1) + 2) - t (m + 1)) * bspl t l (d + 1) (m + 1) y) _ x :=
      ((((hasDerivAt_id x).sub_const (t m)).div_const _).mul (ih m (by omega))).add
        ((((hasDerivAt_id x).const_sub (t (m + (d + 1) + 2))).div_const (t (m + (d + 1) + 2) - t (m + 1))).mul (ih (m + 1) (by omega)))
    refine h1.congr_deriv ?_
    simp only [id]
    rw [bspl, bspl]
    rw [show m + (d + 1) + 1 = m + d + 2 by omega, show m + (d + 1) + 2 = m + d + 3 by omega, show m + 1 + d + 1 = m + d + 2 by omega,
      show m + 1 + d + 2 = m + d + 3 by omega, show m + 1 + 1 = m + 2 by omega]
    set P := bspl t l d m x / (t (m + d + 1) - t m) with hP
    set Q := bspl t l d (m + 1) x / (t (m + d + 2) - t (m + 1)) with hQ
    set R := bspl t l d (m + 2) x / (t (m + d + 3) - t (m + 2)) with hR
    have eP : ∀ a : ℝ, a / (t (m + d + 1) - t m) * bspl t l d m x = a * P := fun a => by rw [hP]; ring
    have eQ : ∀ a : ℝ, a / (t (m + d + 2) - t (m + 1)) * bspl t l d (m + 1) x = a * Q := fun a => by rw [hQ]; ring
    have eR : ∀ a : ℝ, a / (t (m + d + 3) - t (m + 2)) * bspl t l d (m + 2) x = a * R := fun a => by rw [hR]; ring
    rw [eP, eQ, eQ, eR]
    by_cases hE : t (m + d + 2) - t (m + 1) = 0
    · have hQ0 : Q = 0 := by rw [hQ, hE, div_zero]
      rw [hQ0]; push_cast; ring
    · have m0 := ht m (m + 1) (by omega) (by omega)
      have m1 := ht (m + 1) (m + d + 2) (by omega) (by omega)
      have m2 := ht (m + d + 2) (m + d + 3) (by omega) (by omega)
      have hlt : t (m + 1) < t (m + d + 2) := lt_of_le_of_ne m1 (fun h => hE (by rw [h]; ring))
      have hD1 : t (m + d + 2) - t m ≠ 0 := by linarith
      have hD2 : t (m + d + 3) - t (m + 1) ≠ 0 := by linarith
      push_cast
      field_simp
      ring

/-- Gaffney's sum with right knot number `r` -/
theorem gaffney_deriv (t : ℕ → ℝ) (n l r : ℕ) (ht : MonoTo t n) (hr : r < n) (x : ℝ) : ∀ k : ℕ, k + 1 ≤ r →
    HasDerivAt (fun y => ∑ j ∈ range (k + 1), bspl t l j (r - 1 - j) y * (y - t (r - 1 - j)) / (t r - t (r - 1 - j)))
      (((k : ℝ) + 1) * (bspl t l k (r - 1 - k) x / (t r - t (r - 1 - k)))) x := by
  intro k
  induction k with
  | zero =>
    intro _
    simp only [zero_add, Finset.sum_range_one, bspl]
    have h1 : HasDerivAt (fun y => (if r - 1 - 0 = l then (1 : ℝ) else 0) * (y - t (r - 1 - 0)) / (t r - t (r - 1 - 0))) _ x :=
      (((hasDerivAt_id x).sub_const (t (r - 1 - 0))).const_mul _).div_const _
    refine h1.congr_deriv ?_
    push_cast; ring
  | succ k ih =>
    intro hk
    have hd := bspl_deriv t n l ht x k (r - 1 - (k + 1)) (by omega)
    have h1 : HasDerivAt (fun y => ∑ j ∈ range (k + 1), bspl t l j (r - 1 - j) y * (y - t (r - 1 - j)) / (t r - t (r - 1 - j)) +
        bspl t l (k + 1) (r - 1 - (k + 1)) y * (y - t (r - 1 - (k + 1))) / (t r - t (r - 1 - (k + 1)))) _ x :=
      (ih (by omega)).add ((hd.mul ((hasDerivAt_id x).sub_const (t (r - 1 - (k + 1))))).div_const _)
    have hfun : (fun y => ∑ j ∈ range (k + 1 + 1), bspl t l j (r - 1 - j) y * (y - t (r - 1 - j)) / (t r - t (r - 1 - j))) =
        fun y => ∑ j ∈ range (k + 1), bspl t l j (r - 1 - j) y * (y - t (r - 1 - j)) / (t r - t (r - 1 - j)) +
        bspl t l (k + 1) (r - 1 - (k + 1)) y * (y - t (r - 1 - (k + 1))) / (t r - t (r - 1 - (k + 1))) := by
      funext y; rw [Finset.sum_range_succ]
    rw [hfun]
    refine h1.congr_deriv ?_
    simp only [id]
    rw [bspl]
    obtain ⟨m, rfl⟩ : ∃ m, r = m + k + 2 := ⟨r - (k + 2), by omega⟩
    rw [show m + k + 2 - 1 - (k + 1) = m by omega, show m + k + 2 - 1 - k = m + 1 by omega]
    set P := bspl t l k m x / (t (m + k + 1) - t m) with hP
    set Q := bspl t l k (m + 1) x / (t (m + k + 2) - t (m + 1)) with hQ
    have eP : ∀ a : ℝ, a / (t (m + k + 1) - t m) * bspl t l k m x = a * P := fun a => by rw [hP]; ring
    have eQ : ∀ a : ℝ, a / (t (m + k + 2) - t (m + 1)) * bspl t l k (m + 1) x = a * Q := fun a => by rw [hQ]; ring
    rw [eP, eQ]
    by_cases hD : t (m + k + 2) - t m = 0
    · have m0 := ht m (m + 1) (by omega) (by omega)
      have m1 := ht (m + 1) (m + k + 2) (by omega) (by omega)
      have hE : t (m + k + 2) - t (m + 1) = 0 := by linarith
      have hQ0 : Q = 0 := by rw [hQ, hE, div_zero]
      rw [hQ0, hD]; simp
    · push_cast
      field_simp
      ring

/-- the derivative of the integral of a B-spline is the B-spline -/
theorem splRes_deriv (t : ℕ → ℝ) (n l k m : ℕ) (ht : MonoTo t n) (hl : t l < t (l + 1)) (hln : l + 1 < n) (hm : m + k + 1 < n) (x : ℝ) :
    HasDerivAt (fun y => (t (m + k + 1) - t m) / ((k : ℝ) + 1) * splRes t l k m y) (bspl t l k m x) x := by
  by_cases h : m + k < l
  · have : (fun y => (t (m + k + 1) - t m) / ((k : ℝ) + 1) * splRes t l k m y) = fun _ => (t (m + k + 1) - t m) / ((k : ℝ) + 1) * 1 := by
      funext y; simp [splRes, h]
    rw [this, bspl_support t l x k m (by omega)]
    exact hasDerivAt_const x _
  · have hfun : (fun y => splRes t l k m y) = fun y => ∑ j ∈ range (k + 1), bspl t l j (m + k + 1 - 1 - j) y * (y - t (m + k + 1 - 1 - j)) / (t (m + k + 1) - t (m + k + 1 - 1 - j)) := by
      funext y; rw [splRes_eq t l k m y h, show m + k + 1 - 1 = m + k by omega]
    have hg := gaffney_deriv t n l (m + k + 1) ht hm x k (by omega)
    rw [← hfun] at hg
    rw [show m + k + 1 - 1 - k = m by omega] at hg
    refine (hg.const_mul ((t (m + k + 1) - t m) / ((k : ℝ) + 1))).congr_deriv ?_
    have hk : (k : ℝ) + 1 ≠ 0 := by positivity
    by_cases hD : t (m + k + 1) - t m = 0
    · have hs : ¬ (m ≤ l ∧ l ≤ m + k) := by
        rintro ⟨a, b⟩
        have h1 := ht m l a (by omega)
        have h2 := ht (l + 1) (m + k + 1) (by omega) hm
        linarith
      rw [bspl_support t l x k m hs]; simp
    · field_simp

end Verif.Lemmas.Spline
