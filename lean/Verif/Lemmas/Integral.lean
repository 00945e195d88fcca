import Verif.Spec.Step
import Verif.Spec.Linear
import Verif.Np.Interp
import Mathlib.Analysis.SpecialFunctions.Integrals.Basic

/-! Integrals of step functions and of broken lines (Lebesgue integral of Mathlib), for the theorems that compare the model's sums with
them. -/

set_option linter.unusedSectionVars false
set_option autoImplicit false

namespace Verif.Lemmas.Integral

open Verif Verif.Spec Verif.Np MeasureTheory Set

/-- a function that vanishes outside `[a, b]` -/
theorem supported (f : ℝ → ℝ) (a b : ℝ) (hab : a ≤ b) (h0 : ∀ t, t < a ∨ b < t → f t = 0) (hi : IntervalIntegrable f volume a b) :
    Integrable f ∧ (∫ t, f t) = (∫ t in a..b, f t) ∧ (∀ x, x ≤ a → (∫ t in Iic x, f t) = 0) ∧
    ∀ x, a ≤ x → (∫ t in Iic x, f t) = ∫ t in a..x, f t := by
  have hon : IntegrableOn f (Icc a b) := (intervalIntegrable_iff_integrableOn_Icc_of_le hab).1 hi
  have hind : (Icc a b).indicator f = f := by
    funext t
    by_cases ht : t ∈ Icc a b
    · rw [indicator_of_mem ht]
    · rw [indicator_of_notMem ht, h0]
      simp only [mem_Icc, not_and_or, not_le] at ht
      exact ht
  have hint : Integrable f := by
    have := (integrable_indicator_iff measurableSet_Icc).2 hon
    rwa [hind] at this
  have hz : ∀ x, x ≤ a → (∫ t in Iic x, f t) = 0 := by
    intro x hx
    rw [integral_Iic_eq_integral_Iio]
    exact setIntegral_eq_zero_of_forall_eq_zero fun t ht => h0 t (Or.inl (lt_of_lt_of_le ht hx))
  refine ⟨hint, ?_, hz, fun x hx => ?_⟩
  · rw [intervalIntegral.integral_of_le hab, ← integral_Icc_eq_integral_Ioc, ← integral_indicator measurableSet_Icc, hind]
  · rw [← intervalIntegral.integral_Iic_sub_Iic hint.integrableOn hint.integrableOn, hz a le_rfl, sub_zero]

/-- one piece of a function given piecewise -/
theorem piece (f F : ℝ → ℝ) (a b : ℝ) (hab : a ≤ b) (h : ∀ t ∈ Ioo a b, f t = F t) (hF : Continuous F) :
    IntervalIntegrable f volume a b ∧ (∫ t in a..b, f t) = ∫ t in a..b, F t := by
  have he : (uIoo a b).EqOn f F := by rw [uIoo_of_le hab]; exact h
  exact ⟨(hF.intervalIntegrable a b).congr_uIoo he.symm, intervalIntegral.integral_congr_uIoo he⟩

/-- `f` is the step function with values `p` on the bins of `edges` (the values at the edges do not matter) and zero outside -/
def IsStep (edges p : List ℝ) (f : ℝ → ℝ) : Prop :=
  (∀ (i : ℕ) a b v, edges[i]? = some a → edges[i+1]? = some b → p[i]? = some v → ∀ t ∈ Ioo a b, f t = v) ∧
  ∀ t, (∀ e ∈ edges, t < e) ∨ (∀ e ∈ edges, e < t) → f t = 0

/-- `f` is the broken line through the points `(xs, ys)` and zero outside -/
def IsLine (xs ys : List ℝ) (f : ℝ → ℝ) : Prop :=
  (∀ (i : ℕ) x0 x1 y0 y1, xs[i]? = some x0 → xs[i+1]? = some x1 → ys[i]? = some y0 → ys[i+1]? = some y1 →
    ∀ t ∈ Ioo x0 x1, f t = line x0 y0 x1 y1 t) ∧
  ∀ t, (∀ e ∈ xs, t < e) ∨ (∀ e ∈ xs, e < t) → f t = 0

theorem step_from (f : ℝ → ℝ) : ∀ (e : List ℝ) (a : ℝ) (p : List ℝ), (a :: e).Pairwise (· < ·) → p.length = e.length →
    (∀ (i : ℕ) u w v, (a :: e)[i]? = some u → (a :: e)[i+1]? = some w → p[i]? = some v → ∀ t ∈ Ioo u w, f t = v) →
    (∀ t, (∀ u ∈ a :: e, u < t) → f t = 0) → ∀ x, a ≤ x →
    IntervalIntegrable f volume a x ∧ (∫ t in a..x, f t) = massUpTo (a :: e) p x := by
  intro e
  induction e with
  | nil =>
    intro a p _ _ _ h0 x hx
    have := piece f (fun _ => 0) a x hx (fun t ht => h0 t (by simpa using ht.1)) continuous_const
    refine ⟨this.1, ?_⟩
    rw [this.2]; simp [massUpTo]
  | cons b e ih =>
    intro a p hs hl hp h0 x hx
    match p, hl with
    | v :: p, hl =>
    have hab : a < b := (List.pairwise_cons.1 hs).1 b (by simp)
    have hin : ∀ t ∈ Ioo a b, f t = v := hp 0 a b v rfl rfl rfl
    have ih' := ih b p (List.pairwise_cons.1 hs).2 (by simpa using hl)
      (fun i u w z h1 h2 h3 => hp (i + 1) u w z (by simpa using h1) (by simpa using h2) (by simpa using h3))
      (fun t ht => h0 t (by
        intro u hu
        rcases List.mem_cons.1 hu with rfl | hu
        · exact hab.trans (ht b (by simp))
        · exact ht u hu))
    rcases le_or_gt x b with h | h
    · have := piece f (fun _ => v) a x hx (fun t ht => hin t ⟨ht.1, lt_of_lt_of_le ht.2 h⟩) continuous_const
      refine ⟨this.1, ?_⟩
      rw [this.2]
      have hz : ∀ (e : List ℝ) (b : ℝ) (p : List ℝ), (b :: e).Pairwise (· < ·) → x ≤ b → massUpTo (b :: e) p x = 0 := by
        intro e
        induction e with
        | nil => intro b p _ _; simp [massUpTo]
        | cons c e ih =>
          intro b p hs hxb
          cases p with
          | nil => simp [massUpTo]
          | cons q p =>
            have hbc : b < c := (List.pairwise_cons.1 hs).1 c (by simp)
            rw [massUpTo, ih c p (List.pairwise_cons.1 hs).2 (hxb.trans hbc.le), min_eq_left (hxb.trans hbc.le),
              max_eq_left (by linarith)]
            ring
      rw [massUpTo, hz e b p (List.pairwise_cons.1 hs).2 h, min_eq_left h, max_eq_right (by linarith)]
      simp [mul_comm]
    · have h1 := piece f (fun _ => v) a b hab.le hin continuous_const
      obtain ⟨h2, h3⟩ := ih' x h.le
      refine ⟨h1.1.trans h2, ?_⟩
      rw [← intervalIntegral.integral_add_adjacent_intervals h1.1 h2, h1.2, h3, massUpTo, min_eq_right h.le,
        max_eq_right (by linarith)]
      simp [mul_comm]

/-- the integral of a step function up to any point -/
theorem step_integral (edges p : List ℝ) (hs : edges.Pairwise (· < ·)) (hl : edges.length = p.length + 1) (f : ℝ → ℝ)
    (hf : IsStep edges p f) : Integrable f ∧ (∫ t, f t) = totalMass edges p ∧ ∀ x, (∫ t in Iic x, f t) = massUpTo edges p x := by
  match edges, hl with
  | a :: e, hl =>
  have hl' : p.length = e.length := by simpa using hl.symm
  have hne : (a :: e) ≠ [] := by simp
  have hmem := List.getLast_mem hne
  have hlast : ∀ u ∈ a :: e, u ≤ (a :: e).getLast hne := by
    intro u hu
    obtain ⟨i, hi, rfl⟩ := List.mem_iff_getElem.1 hu
    rw [List.getLast_eq_getElem]
    rcases Nat.lt_or_ge i ((a :: e).length - 1) with h | h
    · exact (List.pairwise_iff_getElem.1 hs i _ hi (by simp) h).le
    · have : i = (a :: e).length - 1 := by simp at hi h ⊢; omega
      simp [this]
  have hfirst : ∀ u ∈ a :: e, a ≤ u := by
    intro u hu
    rcases List.mem_cons.1 hu with rfl | hu
    · exact le_rfl
    · exact ((List.pairwise_cons.1 hs).1 u hu).le
  set b := (a :: e).getLast hne with hb
  have hstep := step_from f e a p hs hl' hf.1 (fun t ht => hf.2 t (Or.inr ht))
  have hsup := supported f a b (hfirst b hmem) (fun t ht => by
    rcases ht with h | h
    · exact hf.2 t (Or.inl fun u hu => lt_of_lt_of_le h (hfirst u hu))
    · exact hf.2 t (Or.inr fun u hu => lt_of_le_of_lt (hlast u hu) h)) (hstep b (hfirst b hmem)).1
  have hleft : ∀ (e : List ℝ) (a : ℝ) (p : List ℝ) (x : ℝ), (a :: e).Pairwise (· < ·) → x ≤ a → massUpTo (a :: e) p x = 0 := by
    intro e
    induction e with
    | nil => intro a p x _ _; simp [massUpTo]
    | cons c e ih =>
      intro a p x hs hxb
      cases p with
      | nil => simp [massUpTo]
      | cons q p =>
        have hbc : a < c := (List.pairwise_cons.1 hs).1 c (by simp)
        rw [massUpTo, ih c p x (List.pairwise_cons.1 hs).2 (hxb.trans hbc.le), min_eq_left (hxb.trans hbc.le),
          max_eq_left (by linarith)]
        ring
  have hright : ∀ (e : List ℝ) (a : ℝ) (p : List ℝ) (x : ℝ), (∀ u ∈ a :: e, u ≤ x) → (a :: e).Pairwise (· < ·) →
      massUpTo (a :: e) p x = totalMass (a :: e) p := by
    intro e
    induction e with
    | nil => intro a p x _ _; simp [massUpTo, totalMass]
    | cons c e ih =>
      intro a p x hx hs
      cases p with
      | nil => simp [massUpTo, totalMass]
      | cons q p =>
        have hbc : a < c := (List.pairwise_cons.1 hs).1 c (by simp)
        rw [massUpTo, totalMass, ih c p x (fun u hu => hx u (List.mem_cons_of_mem _ hu)) (List.pairwise_cons.1 hs).2,
          min_eq_right (hx c (by simp)), max_eq_right (by linarith)]
  refine ⟨hsup.1, ?_, fun x => ?_⟩
  · rw [hsup.2.1, (hstep b (hfirst b hmem)).2, hright e a p b hlast hs]
  · rcases le_or_gt x a with h | h
    · rw [hsup.2.2.1 x h, hleft e a p x hs h]
    · rw [hsup.2.2.2 x h.le, (hstep x h.le).2]

/-- the integrals over the cells of a grid, added up -/
noncomputable def cellSum (f : ℝ → ℝ) : List ℝ → ℝ
  | a :: b :: e => (∫ t in a..b, f t) + cellSum f (b :: e)
  | _ => 0

theorem cells (f : ℝ → ℝ) : ∀ (e : List ℝ) (a : ℝ),
    (∀ (i : ℕ) u w, (a :: e)[i]? = some u → (a :: e)[i+1]? = some w → IntervalIntegrable f volume u w) →
    IntervalIntegrable f volume a ((a :: e).getLast (by simp)) ∧
    (∫ t in a..((a :: e).getLast (by simp)), f t) = cellSum f (a :: e) := by
  intro e
  induction e with
  | nil => intro a _; simp [cellSum]
  | cons b e ih =>
    intro a h
    have h0 := h 0 a b rfl rfl
    obtain ⟨h1, h2⟩ := ih b fun i u w hu hw => h (i + 1) u w (by simpa using hu) (by simpa using hw)
    rw [List.getLast_cons (by simp)]
    exact ⟨h0.trans h1, by rw [← intervalIntegral.integral_add_adjacent_intervals h0 h1, h2, cellSum]⟩

/-- a function that vanishes outside the grid and is integrable over every cell -/
theorem on_grid (xs : List ℝ) (hs : xs.Pairwise (· < ·)) (hne : xs ≠ []) (f : ℝ → ℝ)
    (h0 : ∀ t, (∀ e ∈ xs, t < e) ∨ (∀ e ∈ xs, e < t) → f t = 0)
    (hi : ∀ (i : ℕ) u w, xs[i]? = some u → xs[i+1]? = some w → IntervalIntegrable f volume u w) :
    Integrable f ∧ (∫ t, f t) = cellSum f xs ∧ (∀ x, (∀ e ∈ xs, x ≤ e) → (∫ t in Iic x, f t) = 0) ∧
    ∀ (a : ℝ), xs[0]? = some a → ∀ x, a ≤ x → (∫ t in Iic x, f t) = ∫ t in a..x, f t := by
  match xs, hne with
  | a :: e, _ =>
  have hne : (a :: e) ≠ [] := by simp
  have hmem := List.getLast_mem hne
  have hlast : ∀ u ∈ a :: e, u ≤ (a :: e).getLast hne := by
    intro u hu
    obtain ⟨i, hi, rfl⟩ := List.mem_iff_getElem.1 hu
    rw [List.getLast_eq_getElem]
    rcases Nat.lt_or_ge i ((a :: e).length - 1) with h | h
    · exact (List.pairwise_iff_getElem.1 hs i _ hi (by simp) h).le
    · have : i = (a :: e).length - 1 := by simp at hi h ⊢; omega
      simp [this]
  have hfirst : ∀ u ∈ a :: e, a ≤ u := by
    intro u hu
    rcases List.mem_cons.1 hu with rfl | hu
    · exact le_rfl
    · exact ((List.pairwise_cons.1 hs).1 u hu).le
  obtain ⟨c1, c2⟩ := cells f e a hi
  obtain ⟨s1, s2, s3, s4⟩ := supported f a _ (hfirst _ hmem) (fun t ht => by
    rcases ht with h | h
    · exact h0 t (Or.inl fun u hu => lt_of_lt_of_le h (hfirst u hu))
    · exact h0 t (Or.inr fun u hu => lt_of_le_of_lt (hlast u hu) h)) c1
  refine ⟨s1, by rw [s2, c2], fun x hx => s3 x (hx a (by simp)), ?_⟩
  intro a' ha x hx
  have : a' = a := by simpa using ha.symm
  subst this
  exact s4 x hx

/-- the integral of `t^m` times a step function -/
theorem step_moment (m : ℕ) (edges p : List ℝ) (hs : edges.Pairwise (· < ·)) (hl : edges.length = p.length + 1) (f : ℝ → ℝ)
    (hf : IsStep edges p f) : Integrable (fun t => t ^ m * f t) ∧ (∫ t, t ^ m * f t) = rawMoment m edges p := by
  have hcell : ∀ u w v : ℝ, u ≤ w → (∀ t ∈ Ioo u w, f t = v) → IntervalIntegrable (fun t => t ^ m * f t) volume u w ∧
      (∫ t in u..w, t ^ m * f t) = v * ((w ^ (m + 1) - u ^ (m + 1)) / ((m : ℝ) + 1)) := by
    intro u w v huw h
    have := piece (fun t => t ^ m * f t) (fun t => t ^ m * v) u w huw (fun t ht => by rw [h t ht]) (by fun_prop)
    refine ⟨this.1, ?_⟩
    rw [this.2, intervalIntegral.integral_mul_const, integral_pow]
    ring
  have hpair : ∀ (i : ℕ) u w, edges[i]? = some u → edges[i+1]? = some w → u ≤ w := by
    intro i u w hu hw
    obtain ⟨hi, rfl⟩ := List.getElem?_eq_some_iff.1 hu
    obtain ⟨hj, rfl⟩ := List.getElem?_eq_some_iff.1 hw
    exact (List.pairwise_iff_getElem.1 hs i (i+1) hi hj (by omega)).le
  have hg := on_grid edges hs (by intro h; rw [h] at hl; simp at hl) (fun t => t ^ m * f t) (fun t ht => by rw [hf.2 t ht, mul_zero]) (by
    intro i u w hu hw
    have hip : i < p.length := by have := (List.getElem?_eq_some_iff.1 hw).1; omega
    exact (hcell u w p[i] (hpair i u w hu hw) (hf.1 i u w _ hu hw (List.getElem?_eq_getElem hip))).1)
  refine ⟨hg.1, ?_⟩
  rw [hg.2.1]
  have : ∀ (e : List ℝ) (a : ℝ) (p : List ℝ), (a :: e).length = p.length + 1 →
      (∀ (i : ℕ) u w v, (a :: e)[i]? = some u → (a :: e)[i+1]? = some w → p[i]? = some v → u ≤ w ∧ ∀ t ∈ Ioo u w, f t = v) →
      cellSum (fun t => t ^ m * f t) (a :: e) = rawMoment m (a :: e) p := by
    intro e
    induction e with
    | nil => intro a p _ _; cases p <;> simp [cellSum, rawMoment]
    | cons b e ih =>
      intro a p hl h
      match p, hl with
      | v :: p, hl =>
      obtain ⟨h1, h2⟩ := h 0 a b v rfl rfl rfl
      rw [cellSum, rawMoment, (hcell a b v h1 h2).2, ih b p (by simpa using hl) fun i u w v hu hw hv =>
        h (i + 1) u w v (by simpa using hu) (by simpa using hw) (by simpa using hv)]
  match edges, hl with
  | a :: e, hl => exact this e a p hl fun i u w v hu hw hv => ⟨hpair i u w hu hw, hf.1 i u w v hu hw hv⟩

/-- the straight line as a polynomial -/
theorem line_poly (x0 y0 x1 y1 : ℝ) : line x0 y0 x1 y1 = fun t => ((y1 - y0) / (x1 - x0)) * t + (y0 - (y1 - y0) / (x1 - x0) * x0) := by
  funext t; unfold line; ring

theorem line_cont (x0 y0 x1 y1 : ℝ) : Continuous (line x0 y0 x1 y1) := by rw [line_poly]; fun_prop

/-- the integral of a straight line -/
theorem line_int (x0 y0 x1 y1 x : ℝ) (h : x0 < x1) : (∫ t in x0..x, line x0 y0 x1 y1 t) =
    y0 * (x - x0) + (y1 - y0) / (x1 - x0) * (x - x0) ^ 2 / 2 := by
  rw [line_poly, intervalIntegral.integral_add (by apply Continuous.intervalIntegrable; fun_prop) (by simp),
    intervalIntegral.integral_const_mul, integral_id, intervalIntegral.integral_const, smul_eq_mul]
  ring

theorem line_int_mul (x0 y0 x1 y1 : ℝ) (h : x0 < x1) : (∫ t in x0..x1, t * line x0 y0 x1 y1 t) =
    (x1 - x0) * (x0 * (2 * y0 + y1) + x1 * (y0 + 2 * y1)) / 6 := by
  have e : (fun t : ℝ => t * line x0 y0 x1 y1 t) = fun t =>
      ((y1 - y0) / (x1 - x0)) * t ^ 2 + (y0 - (y1 - y0) / (x1 - x0) * x0) * t ^ 1 := by
    funext t; unfold line; ring
  rw [e, intervalIntegral.integral_add (by apply Continuous.intervalIntegrable; fun_prop) (by apply Continuous.intervalIntegrable; fun_prop),
    intervalIntegral.integral_const_mul, intervalIntegral.integral_const_mul, integral_pow, integral_pow]
  have : x1 - x0 ≠ 0 := by linarith
  push_cast
  field_simp
  ring

theorem line_int_sq (x0 y0 x1 y1 : ℝ) (h : x0 < x1) : (∫ t in x0..x1, t ^ 2 * line x0 y0 x1 y1 t) =
    (x1 - x0) * (x0 ^ 2 * (3 * y0 + y1) + 2 * x0 * x1 * (y0 + y1) + x1 ^ 2 * (y0 + 3 * y1)) / 12 := by
  have e : (fun t : ℝ => t ^ 2 * line x0 y0 x1 y1 t) = fun t =>
      ((y1 - y0) / (x1 - x0)) * t ^ 3 + (y0 - (y1 - y0) / (x1 - x0) * x0) * t ^ 2 := by
    funext t; unfold line; ring
  rw [e, intervalIntegral.integral_add (by apply Continuous.intervalIntegrable; fun_prop) (by apply Continuous.intervalIntegrable; fun_prop),
    intervalIntegral.integral_const_mul, intervalIntegral.integral_const_mul, integral_pow, integral_pow]
  have : x1 - x0 ≠ 0 := by linarith
  push_cast
  field_simp
  ring

/-- the integral of a weight times a broken line, cell by cell -/
theorem line_weighted (w : ℝ → ℝ) (hw : Continuous w) (S : List ℝ → List ℝ → ℝ) (c : ℝ → ℝ → ℝ → ℝ → ℝ)
    (hS : ∀ a b xs u v ys, S (a :: b :: xs) (u :: v :: ys) = c a u b v + S (b :: xs) (v :: ys)) (hS1 : ∀ a u, S [a] [u] = 0)
    (hc : ∀ a u b v, a < b → (∫ t in a..b, w t * line a u b v t) = c a u b v)
    (xs ys : List ℝ) (hs : xs.Pairwise (· < ·)) (hne : xs ≠ []) (hl : xs.length = ys.length) (f : ℝ → ℝ) (hf : IsLine xs ys f) :
    Integrable (fun t => w t * f t) ∧ (∫ t, w t * f t) = S xs ys := by
  have hpair : ∀ (i : ℕ) u w, xs[i]? = some u → xs[i+1]? = some w → u < w := by
    intro i u w hu hw
    obtain ⟨hi, rfl⟩ := List.getElem?_eq_some_iff.1 hu
    obtain ⟨hj, rfl⟩ := List.getElem?_eq_some_iff.1 hw
    exact List.pairwise_iff_getElem.1 hs i (i+1) hi hj (by omega)
  have hcell : ∀ a u b v : ℝ, a < b → (∀ t ∈ Ioo a b, f t = line a u b v t) → IntervalIntegrable (fun t => w t * f t) volume a b ∧
      (∫ t in a..b, w t * f t) = c a u b v := by
    intro a u b v hab h
    have := piece (fun t => w t * f t) (fun t => w t * line a u b v t) a b hab.le (fun t ht => by rw [h t ht]) (hw.mul (line_cont _ _ _ _))
    exact ⟨this.1, by rw [this.2, hc a u b v hab]⟩
  have hg := on_grid xs hs hne (fun t => w t * f t) (fun t ht => by rw [hf.2 t ht, mul_zero]) (by
    intro i u w hu hw
    have hj := (List.getElem?_eq_some_iff.1 hw).1
    exact (hcell u _ w _ (hpair i u w hu hw) (hf.1 i u w _ _ hu hw (List.getElem?_eq_getElem (by omega)) (List.getElem?_eq_getElem (by omega)))).1)
  refine ⟨hg.1, ?_⟩
  rw [hg.2.1]
  have : ∀ (e : List ℝ) (a u : ℝ) (r : List ℝ), e.length = r.length →
      (∀ (i : ℕ) x0 x1 y0 y1, (a :: e)[i]? = some x0 → (a :: e)[i+1]? = some x1 → (u :: r)[i]? = some y0 → (u :: r)[i+1]? = some y1 →
        x0 < x1 ∧ ∀ t ∈ Ioo x0 x1, f t = line x0 y0 x1 y1 t) →
      cellSum (fun t => w t * f t) (a :: e) = S (a :: e) (u :: r) := by
    intro e
    induction e with
    | nil =>
      intro a u r hl _
      have : r = [] := by simpa using hl.symm
      subst this
      rw [cellSum, hS1]
      simp
    | cons b e ih =>
      intro a u r hl h
      match r, hl with
      | v :: r, hl =>
      obtain ⟨h1, h2⟩ := h 0 a b u v rfl rfl rfl rfl
      rw [cellSum, hS, (hcell a u b v h1 h2).2, ih b v r (by simpa using hl) fun i x0 x1 y0 y1 g1 g2 g3 g4 =>
        h (i + 1) x0 x1 y0 y1 (by simpa using g1) (by simpa using g2) (by simpa using g3) (by simpa using g4)]
  match xs, ys, hl with
  | a :: e, u :: r, hl =>
    exact this e a u r (by simpa using hl) fun i x0 x1 y0 y1 g1 g2 g3 g4 => ⟨hpair i x0 x1 g1 g2, hf.1 i x0 x1 y0 y1 g1 g2 g3 g4⟩
  | [], _, _ => exact absurd rfl hne

end Verif.Lemmas.Integral
