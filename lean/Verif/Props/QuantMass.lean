import Verif.Props.Quant
import Verif.Props.RealIntegral

/-!
# C20 (exact condition for the piecewise constant reconstruction) and C100: total probability of quantile PDFs

`f` is the density of one PDF: the hypothesis `hf` says that the reconstruction answers `f x` at every `x`.
-/

set_option linter.unusedSectionVars false
set_option autoImplicit false

namespace Verif.Props.QuantMass

open Verif Verif.Np Verif.Model Verif.Spec Verif.Props.Quant Verif.Props.InterpPdf Verif.Lemmas.Integral MeasureTheory Set

/-! ## C20 -/

section
variable {K : Type*} [Field K] [LinearOrder K] [IsStrictOrderedRing K] [FloorRing K]

/-- **C20, exactly when the piecewise constant reconstruction is non-negative between two midpoints**: if and only if
`v + w (v' - v) ≥ 0`, for the slopes `v`, `v'` of the CDF on the two sides and the distance `w` of the midpoints. -/
theorem C20_constant_iff (quants locs : List K) (hq : quants.Pairwise (· < ·)) (hl : locs.Pairwise (· < ·))
    (hlen : quants.length = locs.length) (h3 : 3 ≤ locs.length)
    (hu : Bins.Uniform (adjustedLocs locs) ∨ Bins.DetectablyNonUniform (adjustedLocs locs))
    (i : ℕ) (l0 l1 l2 q0 q1 q2 : K) (e0 : locs[i]? = some l0) (e1 : locs[i+1]? = some l1) (e2 : locs[i+2]? = some l2)
    (f0 : quants[i]? = some q0) (f1 : quants[i+1]? = some q1) (f2 : quants[i+2]? = some q2) :
    (∀ x, (l0 + l1) / 2 < x → x < (l1 + l2) / 2 → ∃ u, constantPdf quants locs x = .ok u ∧ 0 ≤ u) ↔
      0 ≤ (q1 - q0) / (l1 - l0) + (l2 - l0) / 2 * ((q2 - q1) / (l2 - l1) - (q1 - q0) / (l1 - l0)) := by
  have hlt : ∀ (j : ℕ) (a b : K) (l : List K), l.Pairwise (· < ·) → l[j]? = some a → l[j+1]? = some b → a < b := by
    intro j a b l hs ha hb
    obtain ⟨h1, rfl⟩ := List.getElem?_eq_some_iff.1 ha
    obtain ⟨h2, rfl⟩ := List.getElem?_eq_some_iff.1 hb
    exact List.pairwise_iff_getElem.1 hs j (j+1) h1 h2 (by omega)
  have hl01 := hlt i l0 l1 locs hl e0 e1
  have hl12 := hlt (i+1) l1 l2 locs hl e1 e2
  have hv : 0 < (q1 - q0) / (l1 - l0) := div_pos (sub_pos.2 (hlt i q0 q1 quants hq f0 f1)) (sub_pos.2 hl01)
  have hval := fun x h1 h2 => ((C20_constant_partial quants locs hq hl hlen h3 hu x).1 i l0 l1 l2 q0 q1 q2 e0 e1 e2 f0 f1 f2 h1 h2).1
  generalize (q1 - q0) / (l1 - l0) = v at hv hval ⊢
  generalize (q2 - q1) / (l2 - l1) = v' at hval ⊢
  have hw : 0 < (l2 - l0) / 2 := by linarith
  constructor
  · intro h
    by_contra hc
    push Not at hc
    -- the line is positive at the left end and negative at the right end: it is negative at some interior point
    have hs : v' - v < 0 := by
      by_contra hn
      push Not at hn
      have := mul_nonneg hw.le hn
      linarith
    set w := (l2 - l0) / 2 with hwd
    set z := v / (v - v') with hz
    have hz0 : 0 < z := div_pos hv (by linarith)
    have hzw : z < w := by
      rw [hz, div_lt_iff₀ (by linarith)]
      linarith
    have hx1 : (l0 + l1) / 2 < (l0 + l1) / 2 + (z + w) / 2 := by linarith
    have hx2 : (l0 + l1) / 2 + (z + w) / 2 < (l1 + l2) / 2 := by linarith
    obtain ⟨u, hu1, hu2⟩ := h _ hx1 hx2
    rw [hval _ hx1 hx2] at hu1
    have hu' := Except.ok.inj hu1
    have hzv : z * (v' - v) = - v := by
      rw [hz]
      have : v - v' ≠ 0 := by linarith
      field_simp
      ring
    have : (z + w) / 2 * (v' - v) < z * (v' - v) := mul_lt_mul_of_neg_right (by linarith) hs
    have e : (l0 + l1) / 2 + (z + w) / 2 - (l0 + l1) / 2 = (z + w) / 2 := by ring
    rw [e] at hu'
    linarith
  · intro h x h1 h2
    refine ⟨_, hval x h1 h2, ?_⟩
    rcases le_total 0 (v' - v) with hs | hs
    · exact add_nonneg hv.le (mul_nonneg (by linarith) hs)
    · have : (l2 - l0) / 2 * (v' - v) ≤ (x - (l0 + l1) / 2) * (v' - v) := mul_le_mul_of_nonpos_right (by linarith) hs
      linarith

end

/-! ## C100 -/

/-- total probability of the piecewise linear reconstruction: for three consecutive quantiles the mean slope times the distance of the midpoints -/
noncomputable def linearMass : List ℝ → List ℝ → ℝ
  | q0 :: q1 :: q2 :: q, l0 :: l1 :: l2 :: l =>
    ((q1 - q0) / (l1 - l0) + (q2 - q1) / (l2 - l1)) / 2 * ((l2 - l0) / 2) + linearMass (q1 :: q2 :: q) (l1 :: l2 :: l)
  | _, _ => 0

/-- total probability of the piecewise constant reconstruction -/
noncomputable def constantMass : List ℝ → List ℝ → ℝ
  | q0 :: q1 :: q2 :: q, l0 :: l1 :: l2 :: l =>
    (l2 - l0) / 2 * ((q1 - q0) / (l1 - l0) + (l2 - l0) / 2 * ((q2 - q1) / (l2 - l1) - (q1 - q0) / (l1 - l0)) / 2) +
      constantMass (q1 :: q2 :: q) (l1 :: l2 :: l)
  | _, _ => 0

theorem area_linearMass : ∀ (q l : List ℝ), area (adjustedLocs l) (cdfDerivs q l) = linearMass q l := by
  intro q
  induction q with
  | nil => intro l; cases h : adjustedLocs l <;> simp [cdfDerivs, diff, area, linearMass]
  | cons q0 q ih =>
    intro l
    match q, l with
    | _, [] => simp [adjustedLocs, area, linearMass]
    | _, [_] => simp [adjustedLocs, area, linearMass]
    | _, [_, _] => simp [adjustedLocs, area, linearMass]
    | [], l0 :: l1 :: l2 :: l => simp [cdfDerivs, diff, adjustedLocs, area, linearMass]
    | [q1], l0 :: l1 :: l2 :: l => simp [cdfDerivs, diff, adjustedLocs, area, linearMass]
    | q1 :: q2 :: q, l0 :: l1 :: l2 :: l =>
      have h := ih (l1 :: l2 :: l)
      simp only [cdfDerivs, diff, adjustedLocs, area, linearMass, List.zipWith_cons_cons] at h ⊢
      rw [h]
      ring

/-- **C100, piecewise linear: the exact total probability**, for all quantiles and all increasing locations (at least three).
Missing: total probability one, which the code violates (`C100_linear_even`, `C100_linear_unbounded`). -/
theorem C100_linear_partial (quants locs : List ℝ) (hl : locs.Pairwise (· < ·))
    (hlen : quants.length = locs.length) (h3 : 3 ≤ locs.length) (f : ℝ → ℝ) (hf : ∀ x, linearPdf quants locs x = some (f x)) :
    Integrable f ∧ (∫ t, f t) = linearMass quants locs := by
  have h1 := length_adjusted locs
  have h2 := length_derivs quants locs hlen
  have := RealIntegral.C12_lebesgue (adjustedLocs locs) (cdfDerivs quants locs) ⟨(strict_adjusted locs hl).1, by omega, by omega⟩ f hf
  rw [area_linearMass] at this
  exact this

/-- locations at equal distances `d` -/
def Even (d : ℝ) (l : List ℝ) : Prop := ∀ (i : ℕ) a b, l[i]? = some a → l[i+1]? = some b → b - a = d

theorem even_tail {d a : ℝ} {l : List ℝ} (h : Even d (a :: l)) : Even d l :=
  fun i x y hx hy => h (i + 1) x y (by simpa using hx) (by simpa using hy)

theorem even_uniform {d : ℝ} {l : List ℝ} (h : Even d l) : Bins.Uniform (adjustedLocs l) := by
  refine ⟨d, fun i a b ha hb => ?_⟩
  have hi := (List.getElem?_eq_some_iff.1 hb).1
  rw [length_adjusted] at hi
  have g0 : l[i]? = some l[i] := List.getElem?_eq_getElem (by omega)
  have g1 : l[i+1]? = some l[i+1] := List.getElem?_eq_getElem (by omega)
  have g2 : l[i+2]? = some l[i+2] := List.getElem?_eq_getElem (by omega)
  have e1 := getElem?_adjusted l i _ _ g0 g1
  have e2 := getElem?_adjusted l (i+1) _ _ g1 g2
  rw [ha] at e1
  rw [hb] at e2
  have h1 := h i _ _ g0 g1
  have h2 := h (i+1) _ _ g1 g2
  rw [Option.some.inj e1, Option.some.inj e2]
  linarith

theorem linearMass_even (d : ℝ) (hd : d ≠ 0) : ∀ (q : List ℝ) (q0 q1 : ℝ) (l : List ℝ), (q0 :: q1 :: q).length = l.length → Even d l →
    ∀ (n : ℕ) qa qb, (q0 :: q1 :: q).length = n + 2 → (q0 :: q1 :: q)[n]? = some qa → (q0 :: q1 :: q)[n+1]? = some qb →
    linearMass (q0 :: q1 :: q) l = (qb - q0) - (q1 - q0) / 2 - (qb - qa) / 2 := by
  intro q
  induction q with
  | nil =>
    intro q0 q1 l _ _ n qa qb hn ha hb
    have : n = 0 := by simpa using hn
    subst this
    simp at ha hb
    subst ha hb
    simp [linearMass]
    ring
  | cons q2 q ih =>
    intro q0 q1 l hlen he n qa qb hn ha hb
    match l, hlen with
    | l0 :: l1 :: l2 :: l, hlen =>
    match n with
    | 0 => simp at hn
    | n + 1 =>
    have h01 := he 0 l0 l1 rfl rfl
    have h12 := he 1 l1 l2 rfl rfl
    have := ih q1 q2 (l1 :: l2 :: l) (by simpa using hlen) (even_tail he) n qa qb (by simpa using hn) (by simpa using ha) (by simpa using hb)
    rw [linearMass, this, h01, h12, show l2 - l0 = 2 * d by linarith]
    field_simp
    ring

/-- **C100, piecewise linear on locations at equal distances**: the total probability is what the quantiles span less half of the probability of the
first and of the last interval. It is less than one for every such ensemble. -/
theorem C100_linear_even (quants locs : List ℝ) (hq : quants.Pairwise (· < ·)) (hl : locs.Pairwise (· < ·))
    (hlen : quants.length = locs.length) (n : ℕ) (hn : quants.length = n + 3) (d : ℝ) (he : Even d locs) (f : ℝ → ℝ)
    (hf : ∀ x, linearPdf quants locs x = some (f x)) (q0 q1 qa qb : ℝ) (h0 : quants[0]? = some q0) (h1 : quants[1]? = some q1)
    (ha : quants[n+1]? = some qa) (hb : quants[n+2]? = some qb) :
    (∫ t, f t) = (qb - q0) - (q1 - q0) / 2 - (qb - qa) / 2 ∧ (∫ t, f t) < qb - q0 := by
  have hm := (C100_linear_partial quants locs hl hlen (by omega) f hf).2
  have hd : 0 < d := by
    have g0 : locs[0]? = some locs[0] := List.getElem?_eq_getElem (by omega)
    have g1 : locs[0+1]? = some locs[0+1] := List.getElem?_eq_getElem (by omega)
    rw [← he 0 _ _ g0 g1]
    exact sub_pos.2 (List.pairwise_iff_getElem.1 hl 0 1 (by omega) (by omega) (by omega))
  match quants, h0, h1 with
  | x0 :: x1 :: q, h0, h1 =>
  simp at h0 h1
  subst h0 h1
  rw [hm, linearMass_even d hd.ne' q x0 x1 locs hlen he (n + 1) qa qb (by simpa using hn) ha hb]
  refine ⟨rfl, ?_⟩
  have h01 : x0 < x1 := (List.pairwise_cons.1 hq).1 x1 (by simp)
  have hab : qa < qb := by
    obtain ⟨g1, rfl⟩ := List.getElem?_eq_some_iff.1 ha
    obtain ⟨g2, rfl⟩ := List.getElem?_eq_some_iff.1 hb
    exact List.pairwise_iff_getElem.1 hq (n+1) (n+2) g1 g2 (by omega)
  linarith

/-- **C100 is violated without bound**: for every bound there are quantiles 0, 1/2, 1 at three increasing locations in [0, 1] for which the piecewise
linear density has a larger total probability. -/
theorem C100_linear_unbounded (M : ℝ) : ∃ (quants locs : List ℝ), QuantData quants [locs] ∧ quants = [0, 1 / 2, 1] ∧ (∀ x ∈ locs, 0 ≤ x ∧ x ≤ 1) ∧
    ∃ f : ℝ → ℝ, (∀ x, linearPdf quants locs x = some (f x)) ∧ Integrable f ∧ M < ∫ t, f t := by
  set e : ℝ := 1 / (8 * (|M| + 1)) with he
  have hM : 0 ≤ |M| := abs_nonneg M
  have he0 : 0 < e := by rw [he]; positivity
  have he1 : e < 1 := by
    rw [he, div_lt_one (by positivity)]
    linarith
  have hl : ([0, e, 1] : List ℝ).Pairwise (· < ·) := by simp [he0, he1]
  have hq : ([0, 1 / 2, 1] : List ℝ).Pairwise (· < ·) := by norm_num
  refine ⟨[0, 1 / 2, 1], [0, e, 1], ⟨hq, by simp, ?_, ?_⟩, rfl, ?_, ?_⟩
  · intro q hq; simp at hq; rcases hq with rfl | rfl | rfl <;> norm_num
  · intro r hr; simp at hr; subst hr; exact ⟨rfl, hl⟩
  · intro x hx; simp at hx; rcases hx with rfl | rfl | rfl
    · norm_num
    · exact ⟨he0.le, he1.le⟩
    · norm_num
  · choose f hf using fun x => C20_linear_partial ([0, 1 / 2, 1] : List ℝ) [0, e, 1] hq hl rfl (by simp) x
    have hm := C100_linear_partial [0, 1 / 2, 1] [0, e, 1] hl rfl (by simp) f fun x => (hf x).1
    refine ⟨f, fun x => (hf x).1, hm.1, ?_⟩
    rw [hm.2]
    simp only [linearMass, sub_zero, add_zero]
    have h1 : (1 / 2 : ℝ) / e = 4 * (|M| + 1) := by
      rw [he]; field_simp; norm_num
    have h2 : (0 : ℝ) < (1 - 1 / 2) / (1 - e) := div_pos (by norm_num) (by linarith)
    rw [h1]
    have := le_abs_self M
    nlinarith

/-! ### piecewise constant -/

theorem constant_from (f : ℝ → ℝ) : ∀ (q l : List ℝ) (q0 l0 q1 l1 : ℝ), (l0 :: l1 :: l).Pairwise (· < ·) → q.length = l.length →
    (∀ (i : ℕ) a0 a1 a2 p0 p1 p2, (l0 :: l1 :: l)[i]? = some a0 → (l0 :: l1 :: l)[i+1]? = some a1 → (l0 :: l1 :: l)[i+2]? = some a2 →
      (q0 :: q1 :: q)[i]? = some p0 → (q0 :: q1 :: q)[i+1]? = some p1 → (q0 :: q1 :: q)[i+2]? = some p2 →
      ∀ t ∈ Ioo ((a0 + a1) / 2) ((a1 + a2) / 2),
        f t = (p1 - p0) / (a1 - a0) + (t - (a0 + a1) / 2) * ((p2 - p1) / (a2 - a1) - (p1 - p0) / (a1 - a0))) →
    ∀ b, (adjustedLocs (l0 :: l1 :: l)).getLast? = some b →
    (l0 + l1) / 2 ≤ b ∧ IntervalIntegrable f volume ((l0 + l1) / 2) b ∧
      (∫ t in (l0 + l1) / 2..b, f t) = constantMass (q0 :: q1 :: q) (l0 :: l1 :: l) := by
  intro q
  induction q with
  | nil =>
    intro l q0 l0 q1 l1 hs hl hf b hb
    have : l = [] := by simpa using hl.symm
    subst this
    simp [adjustedLocs] at hb
    have hb' : b = (l0 + l1) / 2 := by rw [← hb]; ring
    subst hb'
    simp [constantMass]
  | cons q2 q ih =>
    intro l q0 l0 q1 l1 hs hl hf b hb
    match l, hl with
    | l2 :: l, hl =>
    have h01 : l0 < l1 := (List.pairwise_cons.1 hs).1 l1 (by simp)
    have hs' := (List.pairwise_cons.1 hs).2
    have h12 : l1 < l2 := (List.pairwise_cons.1 hs').1 l2 (by simp)
    obtain ⟨i1, i2, i3⟩ := ih l q1 l1 q2 l2 hs' (by simpa using hl)
      (fun i a0 a1 a2 p0 p1 p2 g0 g1 g2 g3 g4 g5 => hf (i + 1) a0 a1 a2 p0 p1 p2 (by simpa using g0) (by simpa using g1) (by simpa using g2)
        (by simpa using g3) (by simpa using g4) (by simpa using g5)) b (by
        simp only [adjustedLocs] at hb ⊢
        rw [List.getLast?_cons_cons] at hb
        exact hb)
    have hcell := hf 0 l0 l1 l2 q0 q1 q2 rfl rfl rfl rfl rfl rfl
    set v := (q1 - q0) / (l1 - l0) with hv
    set v' := (q2 - q1) / (l2 - l1) with hv'
    have hm : (l0 + l1) / 2 ≤ (l1 + l2) / 2 := by linarith
    have hp := piece f (fun t => v + (t - (l0 + l1) / 2) * (v' - v)) _ _ hm hcell (by fun_prop)
    refine ⟨hm.trans i1, hp.1.trans i2, ?_⟩
    rw [← intervalIntegral.integral_add_adjacent_intervals hp.1 i2, hp.2, i3, constantMass]
    congr 1
    have hint : (∫ t in (l0 + l1) / 2..(l1 + l2) / 2, v + (t - (l0 + l1) / 2) * (v' - v)) =
        (fun t => v * t + (t - (l0 + l1) / 2) ^ 2 / 2 * (v' - v)) ((l1 + l2) / 2) -
        (fun t => v * t + (t - (l0 + l1) / 2) ^ 2 / 2 * (v' - v)) ((l0 + l1) / 2) := by
      refine intervalIntegral.integral_eq_sub_of_hasDerivAt (f := fun t => v * t + (t - (l0 + l1) / 2) ^ 2 / 2 * (v' - v))
        (f' := fun t => v + (t - (l0 + l1) / 2) * (v' - v)) ?_ ?_
      · intro t _
        have h1 := (hasDerivAt_id t).const_mul v
        have h2 := ((((hasDerivAt_id t).sub_const ((l0 + l1) / 2)).pow 2).div_const 2).mul_const (v' - v)
        refine (h1.add h2).congr_deriv ?_
        simp only [id_eq, Nat.cast_ofNat, Nat.add_one_sub_one, pow_one, mul_one]
        ring
      · exact (by fun_prop : Continuous fun t => v + (t - (l0 + l1) / 2) * (v' - v)).intervalIntegrable _ _
    rw [hint]
    simp only []
    ring

/-- **C100, piecewise constant: the exact total probability**, for all increasing quantiles and locations (at least three) whose midpoints are
uniform or detectably non-uniform (C05). -/
theorem C100_constant (quants locs : List ℝ) (hq : quants.Pairwise (· < ·)) (hl : locs.Pairwise (· < ·))
    (hlen : quants.length = locs.length) (h3 : 3 ≤ locs.length)
    (hu : Bins.Uniform (adjustedLocs locs) ∨ Bins.DetectablyNonUniform (adjustedLocs locs)) (f : ℝ → ℝ)
    (hf : ∀ x, constantPdf quants locs x = .ok (f x)) :
    Integrable f ∧ (∫ t, f t) = constantMass quants locs := by
  have hval := C20_constant_partial quants locs hq hl hlen h3 hu
  obtain ⟨l0, l1, l, rfl⟩ : ∃ l0 l1 l, locs = l0 :: l1 :: l := by
    match locs, h3 with
    | a :: b :: t, _ => exact ⟨a, b, t, rfl⟩
  obtain ⟨q0, q1, q, rfl⟩ : ∃ q0 q1 q, quants = q0 :: q1 :: q := by
    match quants, hlen with
    | a :: b :: t, _ => exact ⟨a, b, t, rfl⟩
  have hadj := strict_adjusted (l0 :: l1 :: l) hl
  have hne : adjustedLocs (l0 :: l1 :: l) ≠ [] := by simp [adjustedLocs]
  set b := (adjustedLocs (l0 :: l1 :: l)).getLast hne with hb
  obtain ⟨g1, g2, g3⟩ := constant_from f q l q0 l0 q1 l1 hl (by simpa using hlen)
    (fun i a0 a1 a2 p0 p1 p2 e0 e1 e2 e3 e4 e5 t ht => by
      have := ((hval t).1 i a0 a1 a2 p0 p1 p2 e0 e1 e2 e3 e4 e5 ht.1 ht.2).1
      rw [hf t] at this
      exact Except.ok.inj this) b (List.getLast?_eq_some_getLast hne)
  have hfirst : ∀ e ∈ adjustedLocs (l0 :: l1 :: l), (l0 + l1) / 2 ≤ e := by
    intro e he
    have hh : adjustedLocs (l0 :: l1 :: l) = (l1 - (l1 - l0) / 2) :: adjustedLocs (l1 :: l) := rfl
    have hm : l1 - (l1 - l0) / 2 = (l0 + l1) / 2 := by ring
    rw [hh, hm] at he
    rcases List.mem_cons.1 he with rfl | he
    · exact le_rfl
    · have h1 := hadj.1
      rw [hh, hm] at h1
      exact ((List.pairwise_cons.1 h1).1 e he).le
  have hlast : ∀ e ∈ adjustedLocs (l0 :: l1 :: l), e ≤ b := by
    intro e he
    obtain ⟨i, hi, rfl⟩ := List.mem_iff_getElem.1 he
    rw [hb, List.getLast_eq_getElem]
    rcases Nat.lt_or_ge i ((adjustedLocs (l0 :: l1 :: l)).length - 1) with h | h
    · exact (List.pairwise_iff_getElem.1 hadj.1 i _ hi (by omega) h).le
    · have : i = (adjustedLocs (l0 :: l1 :: l)).length - 1 := by omega
      simp [this]
  have hsup := supported f ((l0 + l1) / 2) b g1 (fun t ht => by
    have : f t = 0 := by
      have := (hval t).2 (by
        rcases ht with h | h
        · exact Or.inl fun e he => lt_of_lt_of_le h (hfirst e he)
        · exact Or.inr fun e he => lt_of_le_of_lt (hlast e he) h)
      rw [hf t] at this
      exact Except.ok.inj this
    exact this) g2
  exact ⟨hsup.1, by rw [hsup.2.1, g3]⟩

theorem constantMass_even (d : ℝ) (hd : d ≠ 0) : ∀ (q : List ℝ) (q0 q1 : ℝ) (l : List ℝ), (q0 :: q1 :: q).length = l.length → Even d l →
    ∀ (n : ℕ) qa qb, (q0 :: q1 :: q).length = n + 2 → (q0 :: q1 :: q)[n]? = some qa → (q0 :: q1 :: q)[n+1]? = some qb →
    constantMass (q0 :: q1 :: q) l = (qa - q0) + d / 2 * ((qb - qa) - (q1 - q0)) := by
  intro q
  induction q with
  | nil =>
    intro q0 q1 l _ _ n qa qb hn ha hb
    have : n = 0 := by simpa using hn
    subst this
    simp at ha hb
    subst ha hb
    simp [constantMass]
  | cons q2 q ih =>
    intro q0 q1 l hlen he n qa qb hn ha hb
    match l, hlen with
    | l0 :: l1 :: l2 :: l, hlen =>
    match n with
    | 0 => simp at hn
    | n + 1 =>
    have h01 := he 0 l0 l1 rfl rfl
    have h12 := he 1 l1 l2 rfl rfl
    have := ih q1 q2 (l1 :: l2 :: l) (by simpa using hlen) (even_tail he) n qa qb (by simpa using hn) (by simpa using ha) (by simpa using hb)
    rw [constantMass, this, h01, h12, show l2 - l0 = 2 * d by linarith]
    field_simp
    ring

/-- **C100, piecewise constant on locations at equal distances `d`**: the total probability is what the quantiles span up to the last but one, plus
`d / 2` times the difference of the last and the first interval; it depends on the unit in which the locations are measured. -/
theorem C100_constant_even (quants locs : List ℝ) (hq : quants.Pairwise (· < ·)) (hl : locs.Pairwise (· < ·))
    (hlen : quants.length = locs.length) (n : ℕ) (hn : quants.length = n + 3) (d : ℝ) (he : Even d locs) (f : ℝ → ℝ)
    (hf : ∀ x, constantPdf quants locs x = .ok (f x)) (q0 q1 qa qb : ℝ) (h0 : quants[0]? = some q0) (h1 : quants[1]? = some q1)
    (ha : quants[n+1]? = some qa) (hb : quants[n+2]? = some qb) :
    (∫ t, f t) = (qa - q0) + d / 2 * ((qb - qa) - (q1 - q0)) := by
  have hm := (C100_constant quants locs hq hl hlen (by omega) (Or.inl (even_uniform he)) f hf).2
  have hd : 0 < d := by
    have g0 : locs[0]? = some locs[0] := List.getElem?_eq_getElem (by omega)
    have g1 : locs[0+1]? = some locs[0+1] := List.getElem?_eq_getElem (by omega)
    rw [← he 0 _ _ g0 g1]
    exact sub_pos.2 (List.pairwise_iff_getElem.1 hl 0 1 (by omega) (by omega) (by omega))
  match quants, h0, h1 with
  | x0 :: x1 :: q, h0, h1 =>
  simp at h0 h1
  subst h0 h1
  rw [hm, constantMass_even d hd.ne' q x0 x1 locs hlen he (n + 1) qa qb (by simpa using hn) ha hb]

/-! ### examples -/

-- quantiles 0, 9/10, 1 at 0, 2, 4: the slopes are 9/20 and 1/20, and 9/20 + 2 (1/20 - 9/20) is negative
example : ¬ ∀ x : ℚ, (0 + 2) / 2 < x → x < (2 + 4) / 2 → ∃ u, constantPdf [0, 9/10, 1] [0, 2, 4] x = .ok u ∧ 0 ≤ u := by
  rw [C20_constant_iff (K := ℚ) [0, 9/10, 1] [0, 2, 4] (by decide +kernel) (by decide +kernel) rfl (by decide) (Or.inl ⟨2, ?_⟩)
    0 0 2 4 0 (9/10) 1 rfl rfl rfl rfl rfl rfl]
  · norm_num
  · intro i a b ha hb
    match i with
    | 0 => simp [adjustedLocs] at ha hb; subst ha hb; norm_num
    | i + 1 => simp [adjustedLocs] at hb

-- quantiles 0, 1/4, 3/4, 1 at 0, 1, 2, 3: the piecewise linear density has total probability 3/4
example (f : ℝ → ℝ) (hf : ∀ x, linearPdf [0, 1/4, 3/4, 1] [0, 1, 2, 3] x = some (f x)) : (∫ t, f t) = 3 / 4 := by
  rw [(C100_linear_even [0, 1/4, 3/4, 1] [0, 1, 2, 3] (by norm_num) (by norm_num) rfl 1 rfl 1 ?_ f hf 0 (1/4) (3/4) 1 rfl rfl rfl rfl).1]
  · norm_num
  · intro i a b ha hb
    match i with
    | 0 | 1 | 2 => simp at ha hb; subst ha hb; norm_num
    | i + 3 => simp at hb

end Verif.Props.QuantMass
