import Verif.Lemmas.FloatRound
import Verif.Props.DTypes
import Verif.Props.Hist
import Verif.Props.PackedPdf
import Verif.Props.Mixmod
import Verif.Props.Alloc

/-!
# C125: distributions in files with single-precision data sets
-/

set_option linter.unusedSectionVars false
set_option autoImplicit false

namespace Verif.Props.SinglePrecision

open Verif Verif.Np Verif.Model Verif.Spec Verif.Lemmas.FloatRound Verif.Lemmas.RoundDigits Verif.Props.InterpPdf

variable {K : Type} [Field K] [LinearOrder K] [IsStrictOrderedRing K]

/-- the number next to `x` in IEEE single precision, ties to even, with gradual underflow -/
def single [FloorRing K] (x : K) : K := floatRound 23 (-149) x

/-- relative error of single precision -/
def relErr : K := 1 / 2 ^ 24

/-- error of the numbers that are so small that they lose digits -/
def absErr : K := 1 / 2 ^ 150

/-- `y` is `x` up to a relative error `u` and an absolute error `η`, and neither is negative -/
structure Near (u η x y : K) : Prop where
  off : |y - x| ≤ u * x + η
  left : 0 ≤ x
  right : 0 ≤ y

/-! ## what is stored -/

section
variable [FloorRing K]

theorem near_single {x : K} (hx : 0 ≤ x) : Near relErr absErr x (single x) := by
  refine ⟨(floatRound_err 23 (-149) x).trans ?_, hx, floatRound_nonneg _ _ hx⟩
  have e : (2 : K) ^ (-149 : ℤ) / 2 = absErr := by
    unfold absErr
    rw [zpow_neg]
    rw [show (149 : ℤ) = ((149 : ℕ) : ℤ) by norm_num, zpow_natCast]
    rw [show (150 : ℕ) = 149 + 1 by norm_num, pow_succ]
    field_simp
  rw [abs_of_nonneg hx, e]
  have h1 : (0 : K) ≤ absErr := by unfold absErr; positivity
  have h2 : (0 : K) ≤ relErr * x := mul_nonneg (by unfold relErr; positivity) hx
  refine max_le ?_ (by linarith)
  have : x / 2 ^ (23 + 1) = relErr * x := by unfold relErr; ring
  rw [this]; linarith

theorem single_bound {x : K} (hx : |x| ≤ 2 ^ 127) : |single x| < 2 ^ (128 : ℤ) := by
  have he := floatRound_err 23 (-149) x
  have h2 : max (|x| / 2 ^ (23 + 1)) ((2 : K) ^ (-149 : ℤ) / 2) < 2 ^ 127 := by
    refine max_lt ?_ ?_
    · rw [div_lt_iff₀ (by positivity)]
      have : (2 : K) ^ 127 * 1 < 2 ^ 127 * 2 ^ (23 + 1) := mul_lt_mul_of_pos_left (by norm_num) (by positivity)
      linarith
    · have : (2 : K) ^ (-149 : ℤ) ≤ 1 := by
        have := zpow_le_zpow_right₀ (a := (2 : K)) (by norm_num) (show (-149 : ℤ) ≤ 0 by norm_num)
        simpa using this
      have h3 : (1 : K) ≤ 2 ^ 127 := one_le_pow₀ (by norm_num)
      have h4 : (2 : K) ^ (-149 : ℤ) / 2 ≤ 1 / 2 := by gcongr
      refine lt_of_le_of_lt h4 ?_
      have : (1 : K) / 2 < 1 := by norm_num
      linarith
  have e : (2 : K) ^ (128 : ℤ) = 2 ^ 127 + 2 ^ 127 := by
    rw [show (128 : ℤ) = ((128 : ℕ) : ℤ) by norm_num, zpow_natCast]
    rw [show (128 : ℕ) = 127 + 1 by norm_num, pow_succ]; ring
  rw [e]
  have h5 : |single x| ≤ |floatRound 23 (-149) x - x| + |x| := by
    have := abs_add_le (floatRound 23 (-149) x - x) x
    rw [sub_add_cancel] at this
    exact this
  linarith

/-- **C125: what a single-precision data set holds.** A row of numbers of magnitude at most `2 ^ 127` is stored entry by entry as the nearest single-precision numbers:
an entry that is not negative is off by at most `2⁻²⁴` of itself plus `2⁻¹⁵⁰`; the order of entries is kept (though different entries may become equal). -/
theorem C125_cast (row : List K) (h : ∀ x ∈ row, |x| ≤ 2 ^ 127) :
    castVal .f4 (.arr ⟨[row.length], row.map fun x => .num (some x)⟩) = .ok (.arr ⟨[row.length], row.map fun x => .num (some (single x))⟩) ∧
    (∀ x ∈ row, 0 ≤ x → |single x - x| ≤ x / 2 ^ 24 + 1 / 2 ^ 150 ∧ 0 ≤ single x) ∧
    (∀ x ∈ row, ∀ y ∈ row, x ≤ y → single x ≤ single y) := by
  refine ⟨?_, fun x _ hx => ?_, fun x _ y _ hxy => floatRound_mono _ _ hxy⟩
  · have : (row.map fun x => Elem.num (some x)).mapM (castElem .f4) = (.ok (row.map fun x => .num (some (single x))) : Except Err (List (Elem K))) := by
      induction row with
      | nil => rfl
      | cons x t ih =>
        have hx : castElem .f4 (.num (some x)) = (.ok (.num (some (single x))) : Except Err (Elem K)) := by
          have hb := single_bound (h x (by simp))
          unfold single at hb
          unfold castElem DType.f4
          simp only
          rw [if_pos hb]; rfl
        rw [List.map_cons, List.mapM_cons, hx, ih fun y hy => h y (by simp [hy])]
        rfl
    unfold castVal
    simp only [this]
    rfl
  · have := near_single hx
    refine ⟨this.off.trans (le_of_eq ?_), this.right⟩
    unfold relErr absErr; ring

end

/-! ## sums -/

theorem near_add {u η ξ x y x' y' : K} (h : Near u η x y) (h' : Near u ξ x' y') : Near u (η + ξ) (x + x') (y + y') := by
  refine ⟨?_, add_nonneg h.left h'.left, add_nonneg h.right h'.right⟩
  have := abs_add_le (y - x) (y' - x')
  rw [show y - x + (y' - x') = y + y' - (x + x') by ring] at this
  have h1 := h.off
  have h2 := h'.off
  linarith

theorem near_scale {u η x y w : K} (hw : 0 ≤ w) (h : Near u η x y) : Near u (η * w) (x * w) (y * w) := by
  refine ⟨?_, mul_nonneg h.left hw, mul_nonneg h.right hw⟩
  rw [← sub_mul, abs_mul, abs_of_nonneg hw]
  calc |y - x| * w ≤ (u * x + η) * w := mul_le_mul_of_nonneg_right h.off hw
    _ = u * (x * w) + η * w := by ring

theorem near_zero {u : K} : Near u 0 0 (0 : K) := ⟨by simp, le_refl _, le_refl _⟩

theorem near_mono {u η ξ x y : K} (h : Near u η x y) (hle : η ≤ ξ) : Near u ξ x y := ⟨h.off.trans (by linarith), h.left, h.right⟩

/-- after dividing by a total that is close to one -/
theorem norm_off {u η δ x y s : K} (h : Near u η x y) (hu : u ≤ δ) (hδ : δ < 1) (hs : |s - 1| ≤ δ) : |y / s - x| ≤ (2 * δ * x + η) / (1 - δ) := by
  have hs' := abs_le.1 hs
  have hpos : 0 < s := by linarith
  have h1 : 0 < 1 - δ := by linarith
  have e : y / s - x = ((y - x) - x * (s - 1)) / s := by field_simp; ring
  rw [e, abs_div, abs_of_pos hpos]
  have hnum : |(y - x) - x * (s - 1)| ≤ 2 * δ * x + η := by
    have := abs_sub (y - x) (x * (s - 1))
    rw [abs_mul, abs_of_nonneg h.left] at this
    have h2 : x * |s - 1| ≤ x * δ := mul_le_mul_of_nonneg_left hs h.left
    have h3 := h.off
    have h4 : u * x ≤ δ * x := mul_le_mul_of_nonneg_right hu h.left
    linarith
  have hn0 : 0 ≤ 2 * δ * x + η := (abs_nonneg _).trans hnum
  calc _ ≤ (2 * δ * x + η) / s := by gcongr
    _ ≤ _ := by gcongr; linarith

theorem norm_off_one {u η δ x y s : K} (h : Near u η x y) (hx : x ≤ 1) (hu : 0 ≤ u) (hδ : u + η ≤ δ) (hδ1 : δ < 1) (hs : |s - 1| ≤ δ) : |y / s - x| ≤ 2 * δ / (1 - δ) := by
  have hs' := abs_le.1 hs
  have hpos : 0 < s := by linarith
  have h1 : 0 < 1 - δ := by linarith
  have e : y / s - x = ((y - x) - x * (s - 1)) / s := by field_simp; ring
  rw [e, abs_div, abs_of_pos hpos]
  have hnum : |(y - x) - x * (s - 1)| ≤ 2 * δ := by
    have := abs_sub (y - x) (x * (s - 1))
    rw [abs_mul, abs_of_nonneg h.left] at this
    have h2 : x * |s - 1| ≤ 1 * δ := mul_le_mul hx hs (abs_nonneg _) zero_le_one
    have h3 := h.off
    have h4 : u * x ≤ u * 1 := mul_le_mul_of_nonneg_left hx hu
    linarith
  have hn0 : 0 ≤ 2 * δ := (abs_nonneg _).trans hnum
  calc _ ≤ 2 * δ / s := by gcongr
    _ ≤ _ := by gcongr; linarith

/-! ## histograms -/

theorem near_massUpTo {u η : K} (x : K) (hη : 0 ≤ η) : ∀ (e p q : List K) (a : K), (a :: e).Pairwise (· < ·) → List.Forall₂ (Near u η) p q → p.length = e.length →
    Near u (η * ((a :: e).getLast (by simp) - a)) (massUpTo (a :: e) p x) (massUpTo (a :: e) q x) := by
  intro e
  induction e with
  | nil =>
    intro p q a _ _ _
    simpa [massUpTo] using near_zero
  | cons b e ih =>
    intro p q a hs hpq hl
    cases hpq with
    | nil => simp at hl
    | @cons v w p q hvw ht =>
      have hs' := List.pairwise_cons.1 hs
      have hab : a < b := hs'.1 b (by simp)
      have := ih p q b hs'.2 ht (by simpa using hl)
      rw [List.getLast_cons (by simp)]
      simp only [massUpTo]
      have hm : max 0 (min x b - a) ≤ b - a := max_le (by linarith) (by have := min_le_right x b; linarith)
      have h1 := near_scale (le_max_left 0 (min x b - a)) hvw
      refine near_mono (near_add h1 this) ?_
      have := mul_le_mul_of_nonneg_left hm hη
      linarith

theorem massUpTo_last : ∀ (e p : List K) (a x : K), (a :: e).Pairwise (· < ·) → (∀ b ∈ a :: e, b ≤ x) → massUpTo (a :: e) p x = totalMass (a :: e) p := by
  intro e
  induction e with
  | nil => intro p a x _ _; simp [massUpTo, totalMass]
  | cons b e ih =>
    intro p a x hs hx
    cases p with
    | nil => simp [massUpTo, totalMass]
    | cons v p =>
      have hs' := List.pairwise_cons.1 hs
      have hab : a < b := hs'.1 b (by simp)
      simp only [massUpTo, totalMass]
      rw [ih p b x hs'.2 fun c hc => hx c (by simp [List.mem_cons.1 hc]), min_eq_right (hx b (by simp)), max_eq_right (by linarith)]

theorem massUpTo_div (x c : K) : ∀ (e p : List K), massUpTo e (p.map (· / c)) x = massUpTo e p x / c := by
  intro e p
  induction p generalizing e with
  | nil =>
    match e with
    | [] => simp [massUpTo]
    | [_] => simp [massUpTo]
    | _ :: _ :: _ => simp [massUpTo]
  | cons v t ih =>
    match e with
    | [] => simp [massUpTo]
    | [_] => simp [massUpTo]
    | a :: b :: e => simp only [List.map_cons, massUpTo, ih]; ring

theorem massUpTo_le (x : K) : ∀ (e p : List K), e.Pairwise (· < ·) → (∀ v ∈ p, 0 ≤ v) → massUpTo e p x ≤ totalMass e p := by
  intro e
  induction e with
  | nil => intro p _ _; simp [massUpTo, totalMass]
  | cons a e ih =>
    intro p hs hp
    match e, p, ih with
    | [], _, _ => simp [massUpTo, totalMass]
    | b :: e, [], _ => simp [massUpTo, totalMass]
    | b :: e, v :: p, ih =>
      have hs' := List.pairwise_cons.1 hs
      have hab : a < b := hs'.1 b (by simp)
      simp only [massUpTo, totalMass]
      have hm : max 0 (min x b - a) ≤ b - a := max_le (by linarith) (by have := min_le_right x b; linarith)
      have h1 := mul_le_mul_of_nonneg_left hm (hp v (by simp))
      have h2 := ih p hs'.2 fun w hw => hp w (by simp [hw])
      linarith

section
variable [FloorRing K]

theorem near_row (p : List K) (hp : ∀ v ∈ p, 0 ≤ v) : List.Forall₂ (Near relErr absErr) p (p.map single) := by
  rw [List.forall₂_map_right_iff, List.forall₂_same]
  exact fun x hx => near_single (hp x hx)

theorem consts : (0 : K) ≤ relErr ∧ (0 : K) ≤ absErr := ⟨by unfold relErr; positivity, by unfold absErr; positivity⟩

/-- **C125: histograms.** A normalised histogram whose bins span at most `W` is written to single-precision data sets and read again. With `δ = 2⁻²⁴ + W·2⁻¹⁵⁰` (below 1),
the histogram read is normalised exactly, each density is off by at most `(2δ·density + 2⁻¹⁵⁰)/(1-δ)`, and the CDF is off by at most `2δ/(1-δ)` everywhere. -/
theorem C125_hist (edges p : List K) (hg : Hist.Grid edges p.length) (hp : ∀ v ∈ p, 0 ≤ v) (h1 : totalMass edges p = 1) (W δ : K)
    (hW : ∀ a ∈ edges, ∀ b ∈ edges, b - a ≤ W) (hδ : δ = 1 / 2 ^ 24 + W / 2 ^ 150) (hlt : δ < 1) :
    ∃ q, histNormRow edges (p.map single) = some q ∧ totalMass edges q = 1 ∧ (∀ v ∈ q, 0 ≤ v) ∧
      List.Forall₂ (fun v v' => |v' - v| ≤ (2 * δ * v + 1 / 2 ^ 150) / (1 - δ)) p q ∧
      ∀ x, ∃ y y', histCdf edges p x = some y ∧ histCdf edges q x = some y' ∧ |y' - y| ≤ 2 * δ / (1 - δ) := by
  have hδ' : δ = relErr + absErr * W := by rw [hδ]; unfold relErr absErr; ring
  obtain ⟨hr, ha⟩ := consts (K := K)
  have hl : p.length + 1 = edges.length := hg.size.symm
  match edges, hg, hl with
  | a :: e, hg, hl =>
    have hw0 : 0 ≤ W := by have := hW a (by simp) a (by simp); linarith
    have hl' : p.length = e.length := by simpa using hl
    have hwl : (a :: e).getLast (by simp) - a ≤ W := hW a (by simp) _ (List.getLast_mem _)
    have hnear := fun x => near_mono (near_massUpTo x ha e p _ a hg.strict (near_row p hp) hl') (mul_le_mul_of_nonneg_left hwl ha)
    have hmax : ∀ b ∈ a :: e, b ≤ (a :: e).getLast (by simp) := fun b hb => Lemmas.InterpPdf.getLast_max hg.strict (by simp) hb
    have hS := hnear ((a :: e).getLast (by simp))
    rw [massUpTo_last e p a _ hg.strict hmax, massUpTo_last e _ a _ hg.strict hmax, h1] at hS
    set s := totalMass (a :: e) (p.map single) with hs
    have hs1 : |s - 1| ≤ δ := by have := hS.off; rw [hδ']; linarith
    have hspos : 0 < s := by have := (abs_le.1 hs1).1; linarith
    obtain ⟨q, hq, hq1, hqe, hq0⟩ := (Hist.C07_row_normalised (a :: e) (p.map single)).2 hspos.ne'
    refine ⟨q, hq, hq1, hq0 hg.strict ?_, ?_, fun x => ?_⟩
    · intro v hv
      obtain ⟨w, hw, rfl⟩ := List.mem_map.1 hv
      exact (near_single (hp w hw)).right
    · rw [hqe, List.map_map, List.forall₂_map_right_iff, List.forall₂_same]
      intro v hv
      have hle : relErr ≤ δ := by rw [hδ']; have := mul_nonneg ha hw0; linarith
      have := norm_off (near_single (hp v hv)) hle hlt hs1
      exact this
    · have hgq : Hist.Grid (a :: e) q.length := by rw [hqe]; simpa using hg
      refine ⟨_, _, Hist.C08_cdf_is_mass _ p hg h1 x, Hist.C08_cdf_is_mass _ q hgq hq1 x, ?_⟩
      rw [hqe, massUpTo_div]
      refine norm_off_one (hnear x) ?_ hr (le_of_eq hδ'.symm) hlt hs1
      rw [← h1]
      exact massUpTo_le x _ p hg.strict hp

end

/-! ## interpolated PDFs -/

theorem near_trap {u η a b v v' w w' : K} (hab : a < b) (h : Near u η v w) (h' : Near u η v' w') :
    Near u (η * (b - a)) ((b - a) * (1 / 2) * (v' + v)) ((b - a) * (1 / 2) * (w' + w)) := by
  have hb : 0 ≤ (b - a) * (1 / 2) := mul_nonneg (by linarith) (by norm_num)
  have := near_scale hb (near_add h' h)
  rw [mul_comm (v' + v), mul_comm (w' + w)] at this
  exact near_mono this (by ring_nf; exact le_refl _)

theorem near_cumsum {u η : K} (hη : 0 ≤ η) : ∀ (xs us ys : List K) (a : K), (a :: xs).Pairwise (· < ·) → ∀ (v w s t ξ : K), Near u η v w → List.Forall₂ (Near u η) us ys →
    xs.length = us.length → Near u ξ s t → List.Forall₂ (Near u (ξ + η * ((a :: xs).getLast (by simp) - a)))
      (cumsumFrom s (trapezoids (a :: xs) (v :: us))) (cumsumFrom t (trapezoids (a :: xs) (w :: ys))) := by
  intro xs
  induction xs with
  | nil => intro us ys a _ v w s t ξ _ _ hl _; simp at hl; simp [trapezoids, cumsumFrom]
  | cons b xs ih =>
    intro us ys a hs v w s t ξ h h2 hl he
    cases h2 with
    | nil => simp at hl
    | @cons v' w' us ys h' ht =>
      have hab : a < b := (List.pairwise_cons.1 hs).1 b (by simp)
      have hbl : b ≤ (b :: xs).getLast (by simp) := Lemmas.InterpPdf.getLast_max (List.pairwise_cons.1 hs).2 (by simp) (by simp)
      have hstep := near_add he (near_trap hab h h')
      simp only [trapezoids, cumsumFrom]
      rw [List.getLast_cons (by simp)]
      refine List.Forall₂.cons (near_mono hstep ?_) ?_
      · have := mul_le_mul_of_nonneg_left (show b - a ≤ (b :: xs).getLast (by simp) - a by linarith) hη
        linarith
      · have := ih us ys b (List.pairwise_cons.1 hs).2 v' w' _ _ _ h' ht (by simpa using hl) hstep
        have e : ξ + η * (b - a) + η * ((b :: xs).getLast (by simp) - b) = ξ + η * ((b :: xs).getLast (by simp) - a) := by ring
        rw [e] at this
        exact this

theorem near_area {u η : K} : ∀ (xs us ys : List K) (a : K), (a :: xs).Pairwise (· < ·) → ∀ (v w : K), Near u η v w → List.Forall₂ (Near u η) us ys →
    xs.length = us.length → Near u (η * ((a :: xs).getLast (by simp) - a)) (area (a :: xs) (v :: us)) (area (a :: xs) (w :: ys)) := by
  intro xs
  induction xs with
  | nil =>
    intro us ys a _ v w _ _ hl
    simpa [area] using near_zero
  | cons b xs ih =>
    intro us ys a hs v w h h2 hl
    cases h2 with
    | nil => simp at hl
    | @cons v' w' us ys h' ht =>
      have hab : a < b := (List.pairwise_cons.1 hs).1 b (by simp)
      have := near_add (near_trap hab h h') (ih us ys b (List.pairwise_cons.1 hs).2 v' w' h' ht (by simpa using hl))
      rw [List.getLast_cons (by simp)]
      simp only [area]
      have e : ∀ p q : K, (b - a) * (p + q) / 2 = (b - a) * (1 / 2) * (q + p) := by intro p q; ring
      rw [e, e]
      exact near_mono this (le_of_eq (by ring))

theorem cum_le : ∀ (xs ys : List K) (a v s : K), (a :: xs).Pairwise (· < ·) → (∀ y ∈ v :: ys, 0 ≤ y) → ∀ c ∈ cumsumFrom s (trapezoids (a :: xs) (v :: ys)),
    c ≤ s + area (a :: xs) (v :: ys) := by
  intro xs
  induction xs with
  | nil => intro ys a v s _ _ c hc; simp [trapezoids, cumsumFrom] at hc
  | cons b xs ih =>
    intro ys a v s hs hy c hc
    cases ys with
    | nil => simp [trapezoids, cumsumFrom] at hc
    | cons v' ys =>
      have hs' := List.pairwise_cons.1 hs
      have hab : a < b := hs'.1 b (by simp)
      have hpos := PackedPdf.area_nonneg (b :: xs) (v' :: ys) hs'.2 fun y hy' => hy y (List.mem_cons_of_mem _ hy')
      simp only [trapezoids, cumsumFrom, List.mem_cons] at hc
      simp only [area]
      rcases hc with rfl | hc
      · linarith
      · have := ih ys b v' _ hs'.2 (fun y hy' => hy y (List.mem_cons_of_mem _ hy')) c hc
        linarith

theorem first_le (xs ys : List K) (a b v w : K) (hs : (a :: b :: xs).Pairwise (· < ·)) (hy : ∀ y ∈ v :: w :: ys, 0 ≤ y) :
    1 / 2 * v * (b - a) ≤ area (a :: b :: xs) (v :: w :: ys) := by
  have hs' := List.pairwise_cons.1 hs
  have hab : a < b := hs'.1 b (by simp)
  have hpos := PackedPdf.area_nonneg (b :: xs) (w :: ys) hs'.2 fun y hy' => hy y (List.mem_cons_of_mem _ hy')
  have hw := mul_nonneg (sub_pos.2 hab).le (hy w (by simp))
  simp only [area]
  linarith

section
variable [FloorRing K]

/-- **C125: interpolated PDFs.** The same for a normalised PDF on a shared grid of length at most `W`: the PDF read is normalised exactly; its ordinates, and with them its values at all points,
are off by at most `(2δ·M + 2⁻¹⁵⁰)/(1-δ)` when no ordinate is above `M`; the CDF is off by at most `2δ/(1-δ)` everywhere. -/
theorem C125_interp (xs ys c : List K) (h : Constructed xs ys c) (hy : ∀ v ∈ ys, 0 ≤ v) (W M δ : K) (hW : ∀ a ∈ xs, ∀ b ∈ xs, b - a ≤ W) (hM : ∀ v ∈ ys, v ≤ M)
    (hδ : δ = 1 / 2 ^ 24 + W / 2 ^ 150) (hlt : δ < 1) :
    ∃ ys' c', interpNormRow xs (ys.map single) = .ok (some (ys', c')) ∧ area xs ys' = 1 ∧
      List.Forall₂ (fun v v' => |v' - v| ≤ (2 * δ * v + 1 / 2 ^ 150) / (1 - δ)) ys ys' ∧
      (∀ x, ∃ y y', interpPdf xs ys x = some y ∧ interpPdf xs ys' x = some y' ∧ |y' - y| ≤ (2 * δ * M + 1 / 2 ^ 150) / (1 - δ)) ∧
      ∀ x, ∃ y y', interpCdf xs c x = some y ∧ interpCdf xs c' x = some y' ∧ |y' - y| ≤ 2 * δ / (1 - δ) := by
  have hδ' : δ = relErr + absErr * W := by rw [hδ]; unfold relErr absErr; ring
  obtain ⟨hr, ha⟩ := consts (K := K)
  obtain ⟨a, b, t, v, w, r, rfl, rfl, hl, hs, h1, rfl⟩ := constructed_facts h
  have hw0 : 0 ≤ W := by have := hW a (by simp) a (by simp); linarith
  have hδ0 : 0 ≤ δ := by rw [hδ']; have := mul_nonneg ha hw0; linarith
  have hwl : (a :: b :: t).getLast (by simp) - a ≤ W := hW a (by simp) _ (List.getLast_mem _)
  have hbW : b - a ≤ W := hW a (by simp) b (by simp)
  have hab : a < b := (List.pairwise_cons.1 hs).1 b (by simp)
  have hrow := near_row (v :: w :: r) hy
  have hv := near_single (hy v (by simp))
  have htail := near_row (w :: r) fun y hy' => hy y (List.mem_cons_of_mem _ hy')
  have hS := near_mono (near_area (b :: t) (w :: r) _ a hs v _ hv htail (by simp [hl])) (mul_le_mul_of_nonneg_left hwl ha)
  rw [h1] at hS
  have hg : XGrid (a :: b :: t) ((v :: w :: r).map single).length := ⟨hs, by simp [hl], by simp⟩
  have e0 : (v :: w :: r).map single = single v :: (w :: r).map single := rfl
  set s := area (a :: b :: t) (single v :: (w :: r).map single) with hsd
  have hs1 : |s - 1| ≤ δ := by have := hS.off; rw [hδ']; linarith
  have hspos : 0 < s := by have := (abs_le.1 hs1).1; linarith
  obtain ⟨ys', c', hn, harea, hys, _⟩ := (C12_interp_normalises (a :: b :: t) ((v :: w :: r).map single) hg).2 (by rw [e0]; exact hspos.ne')
  have hc' : c' = ((1 / 2 * single v * (b - a)) :: cumsum (trapezoids (a :: b :: t) (single v :: (w :: r).map single))).map (· / s) := by
    have h2 := hn
    simp only [List.map_cons, interpNormRow, interpCumul] at h2
    split at h2
    · cases h2
    · next x hx =>
      have hlast := constructed_facts (xs := a :: b :: t) (ys := ys') (c := c') ⟨_, hg, hn⟩
      obtain ⟨a', b', t', v', w', r', e1, e2, _, _, _, rfl⟩ := hlast
      cases e1
      simp only [Except.ok.injEq] at h2
      split at h2
      · cases h2
      · simp only [Option.some.injEq, Prod.mk.injEq] at h2
        have hxs : x = s := by
          have h3 := h2.1
          rw [hys] at h3
          by_contra hne
          have h4 : (1 / 2 * single v * (b - a) :: cumsum (trapezoids (a :: b :: t) (single v :: single w :: r.map single))).getLast? = some s := by
            have hh : trapezoids (a :: b :: t) (single v :: single w :: r.map single) ≠ [] := by simp [trapezoids]
            have := Lemmas.InterpPdf.cumsumFrom_last 0 _ hh
            unfold cumsum
            rw [List.getLast?_cons, this, zero_add, Lemmas.InterpPdf.sum_trapezoids]; rfl
          rw [h4] at hx
          exact hne (Option.some.inj hx).symm
        rw [hxs] at h2
        exact h2.2.symm
  have hpt : ∀ y ∈ v :: w :: r, |single y / s - y| ≤ (2 * δ * y + 1 / 2 ^ 150) / (1 - δ) := by
    intro y hy'
    have hle : relErr ≤ δ := by rw [hδ']; have := mul_nonneg ha hw0; linarith
    exact norm_off (near_single (hy y hy')) hle hlt hs1
  have h1δ : 0 < 1 - δ := by linarith
  refine ⟨ys', c', hn, harea, ?_, ?_, ?_⟩
  · rw [hys, List.map_map, List.forall₂_map_right_iff, List.forall₂_same]
    exact hpt
  · intro x
    have hf : List.Forall₂ (fun v' v => |v' - v| ≤ (2 * δ * M + 1 / 2 ^ 150) / (1 - δ)) ys' (v :: w :: r) := by
      rw [hys, List.map_map, List.forall₂_map_left_iff, List.forall₂_same]
      intro y hy'
      refine (hpt y hy').trans ?_
      have := mul_le_mul_of_nonneg_left (hM y hy') (show 0 ≤ 2 * δ by linarith)
      gcongr
    have hM0 : 0 ≤ M := (hy v (by simp)).trans (hM v (by simp))
    have hnn : 0 ≤ (2 * δ * M + 1 / 2 ^ 150) / (1 - δ) := div_nonneg (by positivity) h1δ.le
    obtain ⟨p, q, hp, hq, hpq⟩ := PackedPdf.interp_close (lo := 0) (hi := 0) hnn x (xs := a :: b :: t) (by simp) hf (by rw [hys]; simp [hl])
    exact ⟨q, p, hq, hp, hpq⟩
  · intro x
    have hcum := near_cumsum (u := relErr) ha (b :: t) (w :: r) _ a hs v _ 0 0 0 hv htail (by simp [hl]) near_zero
    have hcum' : List.Forall₂ (fun y y' => Near relErr (absErr * W) y y' ∧ y ≤ 1) (cumsum (trapezoids (a :: b :: t) (v :: w :: r)))
        (cumsum (trapezoids (a :: b :: t) (single v :: (w :: r).map single))) := by
      rw [zero_add] at hcum
      have hle := cum_le (b :: t) (w :: r) a v 0 hs hy
      rw [zero_add, h1] at hle
      refine ((List.forall₂_and_left (p := fun y => y ≤ 1) _ _).2 ⟨hle, hcum⟩).imp ?_
      intro y y' hyy
      exact ⟨near_mono hyy.2 (mul_le_mul_of_nonneg_left hwl ha), hyy.1⟩
    have hfirst : Near relErr (absErr * W) (1 / 2 * v * (b - a)) (1 / 2 * single v * (b - a)) := by
      have := near_scale (show 0 ≤ 1 / 2 * (b - a) by have := sub_pos.2 hab; positivity) hv
      have e : ∀ z : K, z * (1 / 2 * (b - a)) = 1 / 2 * z * (b - a) := by intro z; ring
      rw [e, e, e] at this
      refine near_mono this ?_
      have h3 := mul_le_mul_of_nonneg_left hbW ha
      have h4 := mul_nonneg ha (sub_pos.2 hab).le
      linarith
    have hf : List.Forall₂ (fun y' y => |y' - y| ≤ 2 * δ / (1 - δ)) c' ((1 / 2 * v * (b - a)) :: cumsum (trapezoids (a :: b :: t) (v :: w :: r))) := by
      rw [hc', List.map_cons]
      refine .cons ?_ ?_
      · exact norm_off_one hfirst (h1 ▸ first_le t r a b v w hs hy) hr (le_of_eq hδ'.symm) hlt hs1
      · rw [List.forall₂_map_left_iff]
        refine (hcum'.flip).imp ?_
        intro y' y hyy
        exact norm_off_one hyy.1 hyy.2 hr (le_of_eq hδ'.symm) hlt hs1
    obtain ⟨p, q, hp, hq, hpq⟩ := PackedPdf.interp_close (lo := 0) (hi := 1) (div_nonneg (by linarith) h1δ.le : 0 ≤ 2 * δ / (1 - δ)) x (xs := a :: b :: t) (by simp) hf
      (by rw [hf.length_eq]; have := hcum'.length_eq; simp [cumsum, Lemmas.Hist.length_cumsumFrom, Lemmas.InterpPdf.length_trapezoids, hl])
    exact ⟨q, p, hq, hp, hpq⟩

/-! ## mixtures -/

theorem near_sum {u η : K} : ∀ (p q : List K), List.Forall₂ (Near u η) p q → Near u (p.length * η) p.sum q.sum := by
  intro p q h
  induction h with
  | nil => simpa using near_zero
  | cons h _ ih =>
    simp only [List.sum_cons, List.length_cons]
    refine near_mono (near_add h ih) (le_of_eq ?_)
    push_cast; ring

/-- **C125: mixtures.** The weights of a mixture of `n` components, normalised, are written and read: with `δ = 2⁻²⁴ + n·2⁻¹⁵⁰` the weights read sum to one exactly and each is off by
at most `(2δ·weight + 2⁻¹⁵⁰)/(1-δ)`. -/
theorem C125_mix (w : List K) (hw : ∀ v ∈ w, 0 ≤ v) (h1 : w.sum = 1) (δ : K) (hδ : δ = 1 / 2 ^ 24 + w.length / 2 ^ 150) (hlt : δ < 1) :
    ∃ w', mixInit [w.map single] = .ok [some w'] ∧ w'.sum = 1 ∧ (∀ v ∈ w', 0 ≤ v) ∧
      List.Forall₂ (fun v v' => |v' - v| ≤ (2 * δ * v + 1 / 2 ^ 150) / (1 - δ)) w w' := by
  have hδ' : δ = relErr + w.length * absErr := by rw [hδ]; unfold relErr absErr; ring
  obtain ⟨hr, ha⟩ := consts (K := K)
  have hS := near_sum w _ (near_row w hw)
  rw [h1] at hS
  set s := (w.map single).sum with hs
  have hs1 : |s - 1| ≤ δ := by have := hS.off; rw [hδ']; linarith
  have hspos : 0 < s := by have := (abs_le.1 hs1).1; linarith
  have hn0 : ∀ v ∈ w.map single, 0 ≤ v := by
    intro v hv
    obtain ⟨x, hx, rfl⟩ := List.mem_map.1 hv
    exact (near_single (hw x hx)).right
  refine ⟨(w.map single).map (· / s), ?_, ?_, ?_, ?_⟩
  · unfold mixInit
    rw [if_neg]
    · have : mixNormRow (w.map single) = some ((w.map single).map (· / s)) := if_neg (show Np.sum (w.map single) ≠ 0 from hspos.ne')
      simp only [List.map_cons, List.map_nil, this]
    · rw [List.any_eq_true]
      rintro ⟨r, hr', h2⟩
      obtain rfl := List.mem_singleton.1 hr'
      rw [List.any_eq_true] at h2
      obtain ⟨v, hv, h3⟩ := h2
      exact absurd (hn0 v hv) (not_le.2 (by simpa using h3))
  · have : ∀ l : List K, (l.map (· / s)).sum = l.sum / s := by
      intro l
      induction l with
      | nil => simp
      | cons a t ih => simp only [List.map_cons, List.sum_cons, ih]; rw [add_div]
    rw [this, ← hs, div_self hspos.ne']
  · intro v hv
    obtain ⟨x, hx, rfl⟩ := List.mem_map.1 hv
    exact div_nonneg (hn0 x hx) hspos.le
  · rw [List.map_map, List.forall₂_map_right_iff, List.forall₂_same]
    intro v hv
    have hle : relErr ≤ δ := by rw [hδ']; have : 0 ≤ (w.length : K) * absErr := by positivity
                                linarith
    exact norm_off (near_single (hw v hv)) hle hlt hs1

/-! ## packed PDFs -/

/-- a factor that is stored inexactly but stays positive -/
theorem single_pos {x : K} (h : 1 / 2 ^ 149 ≤ x) : 0 < single x := by
  have h0 : (1 : K) / 2 ^ 149 = 2 ^ (-149 : ℤ) := by
    rw [zpow_neg, show (149 : ℤ) = ((149 : ℕ) : ℤ) by norm_num, zpow_natCast, one_div]
  have h1 : single (2 ^ (-149 : ℤ) : K) ≤ single x := floatRound_mono _ _ (by rwa [← h0])
  have hp := two_zpow_pos (K := K) (-149)
  have h2 : single (2 ^ (-149 : ℤ) : K) = 2 ^ (-149 : ℤ) := by
    unfold single
    rw [floatRound_small]
    · rw [div_self hp.ne', show (1 : K) = ((1 : ℤ) : K) by norm_num, roundEven_round.int]; simp
    · rw [abs_of_pos hp]
      exact zpow_le_zpow_right₀ (by norm_num) (by norm_num)
  rw [h2] at h1
  exact lt_of_lt_of_le hp h1

/-- **C125: packed PDFs.** The codes are stored exactly (they are integers from 0 to 255) and the row maximum, in single precision, is only a scale: for every row maximum of at least `2⁻¹⁴⁹` the
distribution constructed from what was read is exactly the distribution that was written. -/
theorem C125_packed (xs : List K) (codes : List ℕ) (rm : K) (hg : XGrid xs codes.length) (hrm : 1 / 2 ^ 149 ≤ rm) :
    packedNormRow xs codes (single rm) = packedNormRow xs codes rm ∧
    ∀ c : ℕ, c ≤ 255 → castElem .u1 (.num (some (c : K))) = (.ok (.num (some (c : K))) : Except Err (Elem K)) := by
  constructor
  · have h1 := single_pos hrm
    have h0 : 0 < rm := lt_of_lt_of_le (by positivity) hrm
    unfold packedNormRow
    have e : linearUnpackRow codes (single rm) = (linearUnpackRow codes rm).map (· / (rm / single rm)) := by
      unfold linearUnpackRow
      rw [List.map_map]
      refine List.map_congr_left fun c _ => ?_
      simp only [Function.comp_apply]
      field_simp
    rw [e]
    refine C12_scale_invariant xs _ ?_ _ (div_pos h0 h1).ne'
    simpa [linearUnpackRow] using hg
  · intro c hc
    unfold castElem DType.u1
    simp only [truncate]
    rw [if_pos (Nat.cast_nonneg c), Int.floor_natCast, min_eq_right (by exact_mod_cast hc), max_eq_right (by positivity)]
    simp

end

/-- the same with logarithmic packing -/
theorem C125_packed_log (lf : ℝ) (xs : List ℝ) (codes : List ℕ) (rm : ℝ) (hg : XGrid xs codes.length) (hrm : 1 / 2 ^ 149 ≤ rm) (t : PackingType) :
    packedState t lf xs codes (single rm) = packedState t lf xs codes rm := by
  have h1 := single_pos hrm
  have h0 : 0 < rm := lt_of_lt_of_le (by positivity) hrm
  have e : unpackRow t lf codes (single rm) = (unpackRow t lf codes rm).map (· / (rm / single rm)) := by
    cases t
    all_goals
      simp only [unpackRow, linearUnpackRow, logUnpackRow]
      rw [List.map_map]
      refine List.map_congr_left fun c _ => ?_
      simp only [Function.comp_apply, logValue]
      field_simp
  unfold packedState
  rw [e]
  refine C12_scale_invariant xs _ ?_ _ (div_pos h0 h1).ne'
  cases t <;> simpa [unpackRow, linearUnpackRow, logUnpackRow] using hg

/-! ## locations -/

section
variable [FloorRing K]

/-- **C125 (partial): quantile locations, means and grids per PDF.** They are stored with a relative error of `2⁻²⁴` (plus `2⁻¹⁵⁰`) and stay in order. What is missing: locations that differ by less than
the spacing of single-precision numbers become equal, see `C125_locations_coincide`. -/
theorem C125_locations_partial (locs : List K) (h : locs.Pairwise (· ≤ ·)) :
    (locs.map single).Pairwise (· ≤ ·) ∧ (∀ l ∈ locs, |single l - l| ≤ max (|l| / 2 ^ 24) (1 / 2 ^ 150)) ∧
    ∀ a ∈ locs, ∀ b ∈ locs, |a| / 2 ^ 24 + |b| / 2 ^ 24 + 1 / 2 ^ 149 < b - a → single a < single b := by
  have herr : ∀ l : K, |single l - l| ≤ max (|l| / 2 ^ 24) (1 / 2 ^ 150) := by
    intro l
    have := floatRound_err 23 (-149) l
    have e : (2 : K) ^ (-149 : ℤ) / 2 = 1 / 2 ^ 150 := by
      rw [zpow_neg]
      rw [show (149 : ℤ) = ((149 : ℕ) : ℤ) by norm_num, zpow_natCast]
      rw [show (150 : ℕ) = 149 + 1 by norm_num, pow_succ]
      field_simp
    rw [e] at this
    exact this
  refine ⟨?_, fun l _ => herr l, ?_⟩
  · rw [List.pairwise_map]
    exact h.imp fun hab => floatRound_mono _ _ hab
  · intro a _ b _ hab
    have hm : ∀ l : K, max (|l| / 2 ^ 24) (1 / 2 ^ 150) ≤ |l| / 2 ^ 24 + 1 / 2 ^ 150 := by
      intro l
      refine max_le ?_ ?_
      · have : (0 : K) ≤ 1 / 2 ^ 150 := by positivity
        linarith
      · have : (0 : K) ≤ |l| / 2 ^ 24 := by positivity
        linarith
    have h1 := abs_le.1 ((herr a).trans (hm a))
    have h2 := abs_le.1 ((herr b).trans (hm b))
    have e : (1 : K) / 2 ^ 149 = 1 / 2 ^ 150 + 1 / 2 ^ 150 := by
      rw [show (150 : ℕ) = 149 + 1 by norm_num, pow_succ]; field_simp; norm_num
    rw [e] at hab
    linarith [h1.2, h2.1]

end

/-- **C125 is violated for grids per PDF and quantile locations far from zero.** On the grid 59000.0005, 59000.001, 59000.0015 (dates, in days) all single-precision grid points are equal;
the row, which has area, becomes non-finite when it is read. -/
theorem C125_locations_coincide :
    (irrNormRow (K := ℚ) [118000001 / 2000, 590000010 / 10000, 118000003 / 2000] [1, 1, 1]).isSome = true ∧
    ([118000001 / 2000, 590000010 / 10000, 118000003 / 2000] : List ℚ).map single = [59000, 59000, 59000] ∧
    irrNormRow (K := ℚ) (([118000001 / 2000, 590000010 / 10000, 118000003 / 2000] : List ℚ).map single) (([1, 1, 1] : List ℚ).map single) = none := by
  refine ⟨by decide +kernel, by decide +kernel, by decide +kernel⟩

/-! ## the columns -/

/-- **C125: which columns.** What the classes allocate has exactly the columns below, one type for each: single precision for all values, locations and weights,
integers for codes, spline orders and basis functions. -/
theorem C125_columns [FloorRing K] (k : RowKind) (n : ℕ) (d : Dict K) (al : List (String × List ℕ)) (h : Alloc.alloc k n d = .ok al) :
    al.map (·.1) = (classTypes k).map (·.1) ∧
    (∀ c ∈ classTypes k, c.2 = .f4 ↔ c.1 ∉ ["ypacked", "spln", "sparse_indices"]) := by
  constructor
  · cases k
    all_goals simp only [Alloc.alloc, histAlloc, interpAlloc, irrAlloc, mixAlloc, quantAlloc, packedAlloc, splineAlloc, sparseAlloc] at h
    · obtain ⟨v, -, h⟩ := Lemmas.bind_ok h
      split at h
      · split_ifs at h
        obtain rfl := Except.ok.inj h; rfl
      · cases h
    · obtain ⟨v, -, h⟩ := Lemmas.bind_ok h
      obtain ⟨w, -, h⟩ := Lemmas.bind_ok h
      obtain rfl := Except.ok.inj h; rfl
    · obtain ⟨v, -, h⟩ := Lemmas.bind_ok h
      obtain ⟨w, -, h⟩ := Lemmas.bind_ok h
      obtain rfl := Except.ok.inj h; rfl
    · obtain ⟨v, -, h⟩ := Lemmas.bind_ok h
      obtain ⟨w, -, h⟩ := Lemmas.bind_ok h
      obtain rfl := Except.ok.inj h; rfl
    · split at h
      · cases h
      · obtain ⟨w, -, h⟩ := Lemmas.bind_ok h
        obtain rfl := Except.ok.inj h; rfl
    · obtain ⟨v, -, h⟩ := Lemmas.bind_ok h
      obtain ⟨w, -, h⟩ := Lemmas.bind_ok h
      obtain rfl := Except.ok.inj h; rfl
    · obtain ⟨v, -, h⟩ := Lemmas.bind_ok h
      split at h
      · cases h
      · obtain rfl := Except.ok.inj h; rfl
    · obtain ⟨v, -, h⟩ := Lemmas.bind_ok h
      split at h
      · cases h
      · split_ifs at h
        obtain rfl := Except.ok.inj h; rfl
      · cases h
  · cases k <;> decide

/-! ## examples -/

/-- densities 1/3 and 1/6 on the bins 0, 1, 5: neither is a single-precision number -/
example : Hist.Grid ([0, 1, 5] : List ℚ) ([1/3, 1/6] : List ℚ).length ∧ totalMass ([0, 1, 5] : List ℚ) [1/3, 1/6] = 1 ∧ single (1/3 : ℚ) ≠ 1/3 ∧
    (∀ a ∈ ([0, 1, 5] : List ℚ), ∀ b ∈ ([0, 1, 5] : List ℚ), b - a ≤ 5) ∧ (1 / 2 ^ 24 + 5 / 2 ^ 150 : ℚ) < 1 := by
  refine ⟨⟨by decide +kernel, rfl, by decide⟩, by decide +kernel, by decide +kernel, by decide +kernel, by decide +kernel⟩

example : Constructed ([0, 1, 2] : List ℚ) [1/3, 1/2, 2/3] [1/6, 5/12, 1] :=
  ⟨[2, 3, 4], ⟨by decide +kernel, rfl, by decide⟩, by decide +kernel⟩

/-- weights 1/3 and 2/3, which are not single-precision numbers -/
example : ([1/3, 2/3] : List ℚ).sum = 1 ∧ (1 / 2 ^ 24 + (([1/3, 2/3] : List ℚ).length : ℚ) / 2 ^ 150 : ℚ) < 1 ∧ single (2/3 : ℚ) ≠ 2/3 := by
  refine ⟨by decide +kernel, by decide +kernel, by decide +kernel⟩

example : XGrid ([0, 1] : List ℚ) ([255, 17] : List ℕ).length ∧ (1 / 2 ^ 149 : ℚ) ≤ 1 / 3 ∧ single (1 / 3 : ℚ) ≠ 1 / 3 :=
  ⟨⟨by decide +kernel, rfl, by decide⟩, by decide +kernel, by decide +kernel⟩

example : ([-1/3, 1/3, 2/3] : List ℚ).Pairwise (· ≤ ·) ∧ |(1/3 : ℚ)| / 2 ^ 24 + |(2/3 : ℚ)| / 2 ^ 24 + 1 / 2 ^ 149 < 2/3 - 1/3 := by
  refine ⟨by decide +kernel, by decide +kernel⟩

end Verif.Props.SinglePrecision
