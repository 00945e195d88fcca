import Verif.Spec.Step
import Verif.Model.Hist
import Verif.Lemmas.Interp
import Verif.Lemmas.Bins
import Mathlib.Tactic.Positivity

/-! Helper lemmas for histograms. -/

set_option linter.unusedSectionVars false

namespace Verif.Lemmas.Hist

open Verif Verif.Np Verif.Model Verif.Spec

variable {K : Type*} [Field K] [LinearOrder K] [IsStrictOrderedRing K]

theorem histSum_eq (edges row : List K) : histSum edges row = totalMass edges row := by
  unfold histSum binWidths
  induction edges, row using totalMass.induct with
  | case1 a b e p ps ih => simpa [Np.sum, Np.mul, diff, totalMass] using ih
  | case2 l r h =>
    have : totalMass l r = 0 := by
      unfold totalMass; split
      · exact absurd rfl (h _ _ _ _ _ rfl)
      · rfl
    rw [this]
    match l, r with
    | [], r => simp [Np.sum, Np.mul, diff]
    | [a], r => simp [Np.sum, Np.mul, diff]
    | a :: b :: e, [] => simp [Np.sum, Np.mul]
    | a :: b :: e, p :: ps => exact absurd rfl (h _ _ _ _ _ rfl)

theorem totalMass_nil_right (e : List K) : totalMass e ([] : List K) = 0 := by
  unfold totalMass; split
  · contradiction
  · rfl

theorem totalMass_nonneg {e p : List K} (he : e.Pairwise (· < ·)) (hp : ∀ v ∈ p, 0 ≤ v) : 0 ≤ totalMass e p := by
  induction e, p using totalMass.induct with
  | case1 a b e p ps ih =>
    rw [totalMass]
    have h1 := (List.pairwise_cons.1 he).1 b (by simp)
    have h2 := ih (List.pairwise_cons.1 he).2 fun v hv => hp v (List.mem_cons_of_mem _ hv)
    have h3 := mul_nonneg (hp p (by simp)) (sub_nonneg.2 h1.le)
    linarith
  | case2 l r h =>
    have : totalMass l r = 0 := by
      unfold totalMass; split
      · exact absurd rfl (h _ _ _ _ _ rfl)
      · rfl
    rw [this]

theorem totalMass_scale (e p : List K) (c : K) : totalMass e (p.map (c * ·)) = c * totalMass e p := by
  induction p generalizing e with
  | nil => simp [totalMass_nil_right]
  | cons a p ih =>
    match e with
    | [] => simp [totalMass]
    | [_] => simp [totalMass]
    | u :: v :: e => simp only [List.map_cons, totalMass, ih]; ring

theorem totalMass_div (e p : List K) (c : K) : totalMass e (p.map (· / c)) = totalMass e p / c := by
  have h : (fun v : K => v / c) = fun v => c⁻¹ * v := by funext v; rw [div_eq_inv_mul]
  rw [h, totalMass_scale, div_eq_inv_mul]

/-- core fact: interpolating the cumulated masses gives the mass to the left -/
theorem go_eq_mass (e : List K) : ∀ (a : K) (p : List K) (c x : K), (a :: e).Pairwise (· < ·) → a ≤ x →
    p.length = e.length →
    npInterpGo a c (e.zip (cumsumFrom c (Np.mul p (diff (a :: e))))) x = c + massUpTo (a :: e) p x := by
  induction e with
  | nil => intro a p c x _ _ hl; simp at hl; subst hl; simp [npInterpGo, massUpTo]
  | cons b e ih =>
    intro a p c x hs hx hl
    cases p with
    | nil => simp at hl
    | cons q p =>
      have hs' := List.pairwise_cons.1 hs
      have hab : a < b := hs'.1 b (by simp)
      simp only [diff, Np.mul, List.zipWith_cons_cons, cumsumFrom, List.zip_cons_cons, massUpTo]
      rw [npInterpGo_cons]
      split
      · next h =>
        have := ih b p (c + q * (b - a)) x hs'.2 h (by simpa using hl)
        rw [Np.mul] at this
        rw [this, min_eq_right h, max_eq_right (by linarith)]; ring
      · next h =>
        have h := not_le.1 h
        have hz : massUpTo (b :: e) p x = 0 := by
          have : ∀ (e : List K) (b : K) (p : List K), (b :: e).Pairwise (· < ·) → x < b →
              massUpTo (b :: e) p x = 0 := by
            intro e
            induction e with
            | nil => intro b p _ _; cases p <;> simp [massUpTo]
            | cons d e ih2 =>
              intro b p hs hxb
              cases p with
              | nil => simp [massUpTo]
              | cons r p =>
                have hs' := List.pairwise_cons.1 hs
                have hbd : b < d := hs'.1 d (by simp)
                simp only [massUpTo]
                rw [ih2 d p hs'.2 (hxb.trans hbd), min_eq_left (by linarith), max_eq_left (by linarith)]
                simp
          exact this e b p hs'.2 h
        rw [hz, min_eq_left h.le, max_eq_right (by linarith)]
        unfold line
        have : b - a ≠ 0 := by linarith
        field_simp
        ring

theorem massUpTo_left (e : List K) : ∀ (b : K) (p : List K) (x : K), (b :: e).Pairwise (· < ·) → x ≤ b →
    massUpTo (b :: e) p x = 0 := by
  induction e with
  | nil => intro b p x _ _; cases p <;> simp [massUpTo]
  | cons d e ih =>
    intro b p x hs hxb
    cases p with
    | nil => simp [massUpTo]
    | cons r p =>
      have hs' := List.pairwise_cons.1 hs
      have hbd : b < d := hs'.1 d (by simp)
      simp only [massUpTo]
      rw [ih d p x hs'.2 (hxb.trans hbd.le), min_eq_left (by linarith), max_eq_left (by linarith)]
      simp

theorem massUpTo_right (e : List K) : ∀ (b : K) (p : List K) (x : K), (b :: e).Pairwise (· < ·) →
    (∀ v ∈ b :: e, v ≤ x) → massUpTo (b :: e) p x = totalMass (b :: e) p := by
  induction e with
  | nil => intro b p x _ _; cases p <;> simp [massUpTo, totalMass]
  | cons d e ih =>
    intro b p x hs hxb
    cases p with
    | nil => simp [massUpTo, totalMass]
    | cons r p =>
      have hs' := List.pairwise_cons.1 hs
      have hbd : b < d := hs'.1 d (by simp)
      simp only [massUpTo, totalMass]
      rw [ih d p x hs'.2 (fun v hv => hxb v (by simp [hv])), min_eq_right (hxb d (by simp)),
        max_eq_right (by linarith)]

theorem massUpTo_mono (e : List K) : ∀ (p : List K) (x y : K), (∀ v ∈ p, 0 ≤ v) → x ≤ y →
    massUpTo e p x ≤ massUpTo e p y := by
  intro p
  induction p generalizing e with
  | nil => intro x y _ _; unfold massUpTo; split <;> simp_all
  | cons r p ih =>
    intro x y hp hxy
    match e with
    | [] => simp [massUpTo]
    | [_] => simp [massUpTo]
    | a :: b :: e =>
      simp only [massUpTo]
      have h1 := ih (b :: e) x y (fun v hv => hp v (by simp [hv])) hxy
      have h2 : max 0 (min x b - a) ≤ max 0 (min y b - a) :=
        max_le_max le_rfl (sub_le_sub_right (min_le_min_right b hxy) a)
      have h3 := mul_le_mul_of_nonneg_left h2 (hp r (by simp))
      linarith

theorem length_cumsumFrom (c : K) (l : List K) : (cumsumFrom c l).length = l.length := by
  induction l generalizing c with
  | nil => rfl
  | cons a l ih => simp [cumsumFrom, ih]

theorem length_mul_widths {p : List K} {a : K} {e : List K} (h : p.length = e.length) :
    (Np.mul p (binWidths (a :: e))).length = e.length := by
  simp [Np.mul, binWidths, length_diff, h]

/-- last cumulated value -/
theorem cumul_last (e : List K) : ∀ (a : K) (p : List K) (c : K), p.length = e.length →
    ((a, c) :: e.zip (cumsumFrom c (Np.mul p (diff (a :: e))))).getLast (by simp) =
      ((a :: e).getLast (by simp), c + totalMass (a :: e) p) := by
  induction e with
  | nil => intro a p c hl; simp at hl; subst hl; simp [totalMass]
  | cons b e ih =>
    intro a p c hl
    cases p with
    | nil => simp at hl
    | cons q p =>
      have := ih b p (c + q * (b - a)) (by simpa using hl)
      simp only [diff, Np.mul, List.zipWith_cons_cons, cumsumFrom, List.zip_cons_cons, totalMass] at *
      rw [List.getLast_cons (by simp), this]
      refine Prod.ext ?_ ?_
      · exact (List.getLast_cons (a := a) (by simp)).symm
      · simp only; ring

/-- the interpolation knots of the histogram CDF -/
def knots (a : K) (e p : List K) : List (K × K) := e.zip (cumsumFrom 0 (Np.mul p (diff (a :: e))))

theorem zip_cumul (a : K) (e p : List K) :
    (a :: e).zip (histCumul (a :: e) p) = (a, 0) :: knots a e p := rfl

theorem knots_strictX (e : List K) : ∀ (a : K) (p : List K) (c : K), (a :: e).Pairwise (· < ·) →
    StrictX ((a, c) :: e.zip (cumsumFrom c (Np.mul p (diff (a :: e))))) := by
  induction e with
  | nil => intro a p c _; simp [StrictX]
  | cons b e ih =>
    intro a p c hs
    have hs' := List.pairwise_cons.1 hs
    cases p with
    | nil => simp [StrictX, Np.mul, cumsumFrom]
    | cons q p =>
      simp only [diff, Np.mul, List.zipWith_cons_cons, cumsumFrom, List.zip_cons_cons]
      exact List.isChain_cons_cons.2 ⟨hs'.1 b (by simp), ih b p (c + q * (b - a)) hs'.2⟩

theorem knots_monoY (e : List K) : ∀ (a : K) (p : List K) (c : K), (a :: e).Pairwise (· < ·) → (∀ v ∈ p, 0 ≤ v) →
    MonoY ((a, c) :: e.zip (cumsumFrom c (Np.mul p (diff (a :: e))))) := by
  induction e with
  | nil => intro a p c _ _; simp [MonoY]
  | cons b e ih =>
    intro a p c hs hp
    have hs' := List.pairwise_cons.1 hs
    cases p with
    | nil => simp [MonoY, Np.mul, cumsumFrom]
    | cons q p =>
      simp only [diff, Np.mul, List.zipWith_cons_cons, cumsumFrom, List.zip_cons_cons]
      refine List.isChain_cons_cons.2 ⟨?_, ih b p (c + q * (b - a)) hs'.2 (fun v hv => hp v (by simp [hv]))⟩
      have := mul_nonneg (hp q (by simp)) (sub_nonneg.2 (hs'.1 b (by simp)).le)
      simpa using this

theorem knots_strictY (e : List K) : ∀ (a : K) (p : List K) (c : K), (a :: e).Pairwise (· < ·) → (∀ v ∈ p, 0 < v) →
    StrictY ((a, c) :: e.zip (cumsumFrom c (Np.mul p (diff (a :: e))))) := by
  induction e with
  | nil => intro a p c _ _; simp [StrictY]
  | cons b e ih =>
    intro a p c hs hp
    have hs' := List.pairwise_cons.1 hs
    cases p with
    | nil => simp [StrictY, Np.mul, cumsumFrom]
    | cons q p =>
      simp only [diff, Np.mul, List.zipWith_cons_cons, cumsumFrom, List.zip_cons_cons]
      refine List.isChain_cons_cons.2 ⟨?_, ih b p (c + q * (b - a)) hs'.2 (fun v hv => hp v (by simp [hv]))⟩
      have := mul_pos (hp q (by simp)) (sub_pos.2 (hs'.1 b (by simp)))
      simpa using this

theorem zip_swap {α β : Type*} (l : List α) (m : List β) : (l.zip m).map Prod.swap = m.zip l := by
  induction l generalizing m with
  | nil => simp
  | cons a l ih => cases m with
    | nil => simp
    | cons b m => simp [ih]

end Verif.Lemmas.Hist
