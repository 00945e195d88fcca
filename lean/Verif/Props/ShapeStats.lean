import Verif.Props.Variance
import Verif.Model.StatsReal

/-!
# C105: standard deviation, skewness and kurtosis
-/

set_option linter.unusedSectionVars false
set_option autoImplicit false

namespace Verif.Props.ShapeStats

open Verif Verif.Np Verif.Model Verif.Spec Verif.Lemmas.Integral Verif.Props.Hist Verif.Props.Bins Verif.Props.RealIntegral Verif.Props.Variance
open MeasureTheory Set

/-- sum of `w (x - c)^n` over points `x` with weights `w` -/
noncomputable def central (d : List (ℝ × ℝ)) (c : ℝ) (n : ℕ) : ℝ := (d.map fun p => p.2 * (p.1 - c) ^ n).sum

/-- the results asked for by the letters of `s`, always in the order mean, variance, skewness, kurtosis -/
def asked (s : String) (m v g k : Option ℝ) : List (Option ℝ) :=
  ([('m', m), ('v', v), ('s', g), ('k', k)].filter fun p => decide (p.1 ∈ s.toList)).map (·.2)

theorem central_expand (d : List (ℝ × ℝ)) (c : ℝ) (h1 : central d 0 0 = 1) (hc : central d 0 1 = c) :
    central d c 2 = central d 0 2 - c * c ∧ central d c 3 = (-c * c - 3 * (central d 0 2 - c * c)) * c + central d 0 3 ∧
    central d c 4 = ((-c ^ 2 - 6 * (central d 0 2 - c * c)) * c - 4 * ((-c * c - 3 * (central d 0 2 - c * c)) * c + central d 0 3)) * c + central d 0 4 := by
  have key : ∀ d : List (ℝ × ℝ), central d c 2 = central d 0 2 - 2 * c * central d 0 1 + c ^ 2 * central d 0 0 ∧
      central d c 3 = central d 0 3 - 3 * c * central d 0 2 + 3 * c ^ 2 * central d 0 1 - c ^ 3 * central d 0 0 ∧
      central d c 4 = central d 0 4 - 4 * c * central d 0 3 + 6 * c ^ 2 * central d 0 2 - 4 * c ^ 3 * central d 0 1 + c ^ 4 * central d 0 0 := by
    intro d
    induction d with
    | nil => simp [central]
    | cons p d ih =>
      obtain ⟨a, b, e⟩ := ih
      simp only [central, List.map_cons, List.sum_cons] at *
      exact ⟨by linear_combination a, by linear_combination b, by linear_combination e⟩
  obtain ⟨a, b, e⟩ := key d
  rw [a, b, e, h1, hc]
  exact ⟨by ring, by ring, by ring⟩

theorem three_halves {v : ℝ} (h : 0 < v) : Real.sqrt v ^ 3 = v ^ (3 / 2 : ℝ) := by
  rw [Real.sqrt_eq_rpow, ← Real.rpow_natCast, ← Real.rpow_mul h.le]
  norm_num

/-- **C105, whatever is asked for.** If the moments of a PDF are those of points with weights of sum one and positive variance, `stats` returns the mean, the
variance, the third central moment over the cubed standard deviation, and the fourth over the squared variance minus 3; which of them depends on the letters,
their order and values do not. `std` is the root of the variance.
Missing: that these are the numbers of the density; the moments reported by the classes are not (C89, `C105_negative_variance`). -/
theorem C105_stats_partial (munp : ℕ → Except Err ℝ) (d : List (ℝ × ℝ)) (hm : ∀ n, munp n = .ok (central d 0 n)) (h1 : central d 0 0 = 1)
    (μ : ℝ) (hμ : central d 0 1 = μ) (hv : 0 < central d μ 2) (s : String) :
    statsOut munp s = .ok (asked s (some μ) (some (central d μ 2)) (some (central d μ 3 / Real.sqrt (central d μ 2) ^ 3))
      (some (central d μ 4 / central d μ 2 ^ 2 - 3))) ∧
    statsStd munp = .ok (some (Real.sqrt (central d μ 2))) := by
  obtain ⟨e2, e3, e4⟩ := central_expand d μ h1 hμ
  constructor
  · simp only [statsOut, hm, bind, Except.bind, hμ, ← e2]
    congr 1
    have hs : statsSkew μ (central d μ 2) (central d 0 3) = some (central d μ 3 / Real.sqrt (central d μ 2) ^ 3) := by
      rw [three_halves hv]
      unfold statsSkew
      rw [if_neg (not_le.2 hv), e2, e3]
    have hp : central d μ 2 ^ (3 / 2 : ℝ) ≠ 0 := (Real.rpow_pos_of_pos hv _).ne'
    have hk : ∀ b, statsKurt b μ (central d μ 2) (central d 0 3) (central d 0 4) = some (central d μ 4 / central d μ 2 ^ 2 - 3) := by
      intro b
      have h3 : statsMu3 b μ (central d μ 2) (central d 0 3) = some (central d μ 3) := by
        unfold statsMu3
        cases b with
        | true => rw [if_pos rfl, hs, three_halves hv, Option.map_some, div_mul_cancel₀ _ hp]
        | false => rw [if_neg (by simp), e2, e3]
      unfold statsKurt
      rw [h3, Option.bind_some, if_neg hv.ne', e4, ← e3, ← e2]
    rw [hs]
    simp only [hk]
    unfold asked
    simp only [List.contains_eq_mem, List.filter_cons, List.filter_nil]
    split_ifs <;> simp_all
  · have : statsVar munp = .ok (central d μ 2) := by
      simp only [statsVar, hm, bind, Except.bind, hμ, e2]
    simp only [statsStd, this, bind, Except.bind, if_neg (not_lt.2 hv.le)]

/-- **C105 is violated for negative variances** (which `C89_mean_and_variance_wrong` shows to occur): the standard deviation and the skewness are not
numbers, and the kurtosis is a number when it is asked for alone but not together with the skewness. -/
theorem C105_negative_variance (munp : ℕ → Except Err ℝ) (M : ℕ → ℝ) (hm : ∀ n, munp n = .ok (M n)) (hv : M 2 < M 1 ^ 2) :
    statsStd munp = .ok none ∧ statsOut munp "s" = .ok [none] ∧ (∃ k, statsOut munp "k" = .ok [some k]) ∧ statsOut munp "sk" = .ok [none, none] := by
  have h : M 2 - M 1 * M 1 < 0 := by linarith [sq (M 1)]
  have e1 : "s".toList = ['s'] := rfl
  have e2 : "k".toList = ['k'] := rfl
  have e3 : "sk".toList = ['s', 'k'] := rfl
  refine ⟨?_, ?_, ⟨(((-M 1 ^ 2 - 6 * (M 2 - M 1 * M 1)) * M 1 - 4 * ((-M 1 * M 1 - 3 * (M 2 - M 1 * M 1)) * M 1 + M 3)) * M 1 + M 4) /
    (M 2 - M 1 * M 1) ^ 2 - 3, ?_⟩, ?_⟩
  · simp [statsStd, statsVar, hm, bind, Except.bind, h]
  · simp [statsOut, hm, bind, Except.bind, e1, statsSkew, h.le]
  · simp [statsOut, hm, bind, Except.bind, e2, statsKurt, statsMu3, h.ne]
  · simp [statsOut, hm, bind, Except.bind, e3, statsSkew, statsKurt, statsMu3, h.le]

/-- the centres of the bins with the probabilities of the bins -/
noncomputable def binMasses : List ℝ → List ℝ → List (ℝ × ℝ)
  | a :: b :: e, q :: p => ((a + b) / 2, q * (b - a)) :: binMasses (b :: e) p
  | _, _ => []

theorem moment_masses (w : ℝ) : ∀ (e : List ℝ) (a : ℝ) (p : List ℝ), p.length = e.length → Spaced (a :: e) w → ∀ n : ℕ,
    Np.sum (Np.mul ((edgeToCenter (a :: e)).map (· ^ n)) p) * w = central (binMasses (a :: e) p) 0 n := by
  intro e
  induction e with
  | nil => intro a p hl _ n; simp at hl; subst hl; simp [edgeToCenter, Np.mul, Np.sum, central, binMasses]
  | cons b e ih =>
    intro a p hl hw n
    cases p with
    | nil => simp at hl
    | cons q p =>
      have hab : b - a = w := hw 0 a b rfl rfl
      have i0 := ih b p (by simpa using hl) hw.tail n
      simp only [edgeToCenter, List.map_cons, Np.mul, List.zipWith_cons_cons, Np.sum, List.foldr_cons, central, binMasses, List.sum_cons, sub_zero] at *
      rw [hab]
      linear_combination i0

/-- the integrals of powers against the step function, from the masses of the bins -/
theorem raw_masses (w : ℝ) : ∀ (e : List ℝ) (a : ℝ) (p : List ℝ), p.length = e.length → Spaced (a :: e) w →
    totalMass (a :: e) p = central (binMasses (a :: e) p) 0 0 ∧ rawMoment 1 (a :: e) p = central (binMasses (a :: e) p) 0 1 ∧
    rawMoment 2 (a :: e) p = central (binMasses (a :: e) p) 0 2 + w ^ 2 / 12 * central (binMasses (a :: e) p) 0 0 ∧
    rawMoment 3 (a :: e) p = central (binMasses (a :: e) p) 0 3 + w ^ 2 / 4 * central (binMasses (a :: e) p) 0 1 ∧
    rawMoment 4 (a :: e) p = central (binMasses (a :: e) p) 0 4 + w ^ 2 / 2 * central (binMasses (a :: e) p) 0 2 +
      w ^ 4 / 80 * central (binMasses (a :: e) p) 0 0 := by
  intro e
  induction e with
  | nil => intro a p hl _; simp at hl; subst hl; simp [central, binMasses, rawMoment, totalMass]
  | cons b e ih =>
    intro a p hl hw
    cases p with
    | nil => simp at hl
    | cons q p =>
      have hab : b - a = w := hw 0 a b rfl rfl
      obtain ⟨i0, i1, i2, i3, i4⟩ := ih b p (by simpa using hl) hw.tail
      obtain rfl : b = a + w := by linear_combination hab
      simp only [central, binMasses, List.map_cons, List.sum_cons, rawMoment, totalMass, sub_zero] at *
      push_cast
      exact ⟨by linear_combination i0, by linear_combination i1, by linear_combination i2, by linear_combination i3, by linear_combination i4⟩

/-- **C105 for histograms**: on uniform bins of width `w`, with mean `μ`, variance `v`, third and fourth central moments `κ₃`, `κ₄` of the density, `stats`
returns the mean, `v - w²/12`, `κ₃ / (v - w²/12)^(3/2)` and `(κ₄ - w²/2 (v - w²/12) - w⁴/80) / (v - w²/12)² - 3`, as long as the probability is not in one
bin. So the third central moment is exact, and skewness and kurtosis are those of the probabilities at the centres of the bins. -/
theorem C105_histogram (edges p : List ℝ) (hg : Grid edges p.length) (w : ℝ) (hw : Spaced edges w) (h1 : totalMass edges p = 1)
    (f : ℝ → ℝ) (hf : ∀ x, histPdf edges p x = .ok (f x)) :
    ∃ μ v κ₃ κ₄, IsMeanVar f μ v ∧ (∫ t, (t - μ) ^ 3 * f t) = κ₃ ∧ (∫ t, (t - μ) ^ 4 * f t) = κ₄ ∧
      (w ^ 2 / 12 < v → ∀ s, statsOut (histMoment edges p) s = .ok (asked s (some μ) (some (v - w ^ 2 / 12))
          (some (κ₃ / Real.sqrt (v - w ^ 2 / 12) ^ 3))
          (some ((κ₄ - w ^ 2 / 2 * (v - w ^ 2 / 12) - w ^ 4 / 80) / (v - w ^ 2 / 12) ^ 2 - 3)))) ∧
      (w ^ 2 / 12 < v → statsStd (histMoment edges p) = .ok (some (Real.sqrt (v - w ^ 2 / 12)))) := by
  have hst := hist_isStep edges p hg (.inl hw.uniform) h1 f hf
  obtain ⟨i0, e0, -⟩ := step_integral edges p hg.strict hg.size f hst
  obtain ⟨i1, e1⟩ := step_moment 1 edges p hg.strict hg.size f hst
  obtain ⟨i2, e2⟩ := step_moment 2 edges p hg.strict hg.size f hst
  obtain ⟨i3, e3⟩ := step_moment 3 edges p hg.strict hg.size f hst
  obtain ⟨i4, e4⟩ := step_moment 4 edges p hg.strict hg.size f hst
  simp only [pow_one] at i1 e1
  match edges, hg, hw with
  | [], hg, _ => exact absurd hg.size (by simp)
  | [a], hg, _ => have h1 := hg.size; have h2 := hg.pos; simp at h1; simp [h1] at h2
  | a :: b :: e, hg, hw =>
    have hl : p.length = (b :: e).length := by have := hg.size; simp at this ⊢; omega
    have hab : b - a = w := hw 0 a b rfl rfl
    have hmunp : ∀ n, histMoment (a :: b :: e) p n = .ok (central (binMasses (a :: b :: e) p) 0 n) := by
      intro n
      simp only [histMoment, hab]
      rw [moment_masses w (b :: e) a p hl hw n]
    set d := binMasses (a :: b :: e) p with hd
    obtain ⟨r0, r1, r2, r3, r4⟩ := raw_masses w (b :: e) a p hl hw
    rw [← hd] at r0 r1 r2 r3 r4
    have c0 : central d 0 0 = 1 := by rw [← r0]; exact h1
    set μ := central d 0 1 with hμ
    obtain ⟨k2, k3, k4⟩ := central_expand d μ c0 rfl
    rw [c0, mul_one] at r2 r4
    have hv : rawMoment 2 (a :: b :: e) p - μ * μ = central d μ 2 + w ^ 2 / 12 := by rw [r2, k2]; ring
    have hmv := meanVar_of f _ _ i0 i1 i2 (e0.trans h1) (e1.trans r1) e2
    rw [hv] at hmv
    have h3 : (∫ t, (t - μ) ^ 3 * f t) = central d μ 3 := by
      have : (fun t => (t - μ) ^ 3 * f t) = fun t => (t ^ 3 * f t - 3 * μ * (t ^ 2 * f t)) + (3 * μ ^ 2 * (t * f t) - μ ^ 3 * f t) := by funext t; ring
      have j1 : Integrable fun t => t ^ 3 * f t - 3 * μ * (t ^ 2 * f t) := i3.sub (i2.const_mul _)
      have j2 : Integrable fun t => 3 * μ ^ 2 * (t * f t) - μ ^ 3 * f t := (i1.const_mul _).sub (i0.const_mul _)
      rw [this, integral_add j1 j2, integral_sub i3 (i2.const_mul _),
        integral_sub (i1.const_mul _) (i0.const_mul _)]
      simp only [integral_const_mul]
      rw [e0.trans h1, e1, e2, e3, r1, r2, r3, k3]
      ring
    have h4 : (∫ t, (t - μ) ^ 4 * f t) = central d μ 4 + w ^ 2 / 2 * central d μ 2 + w ^ 4 / 80 := by
      have : (fun t => (t - μ) ^ 4 * f t) = fun t => (t ^ 4 * f t - 4 * μ * (t ^ 3 * f t)) + (6 * μ ^ 2 * (t ^ 2 * f t) + (μ ^ 4 * f t - 4 * μ ^ 3 * (t * f t))) := by
        funext t; ring
      have j1 : Integrable fun t => μ ^ 4 * f t - 4 * μ ^ 3 * (t * f t) := (i0.const_mul _).sub (i1.const_mul _)
      have j2 : Integrable fun t => t ^ 4 * f t - 4 * μ * (t ^ 3 * f t) := i4.sub (i3.const_mul _)
      have j3 : Integrable fun t => 6 * μ ^ 2 * (t ^ 2 * f t) + (μ ^ 4 * f t - 4 * μ ^ 3 * (t * f t)) := (i2.const_mul _).add j1
      rw [this, integral_add j2 j3, integral_sub i4 (i3.const_mul _), integral_add (i2.const_mul _) j1,
        integral_sub (i0.const_mul _) (i1.const_mul _)]
      simp only [integral_const_mul]
      rw [e0.trans h1, e1, e2, e3, e4, r1, r2, r3, r4, k4, k2]
      ring
    refine ⟨μ, _, _, _, hmv, h3, h4, fun hpos s => ?_, fun hpos => ?_⟩
    · have := (C105_stats_partial _ d hmunp c0 μ rfl (by linarith) s).1
      rw [this]
      have q1 : central d μ 2 + w ^ 2 / 12 - w ^ 2 / 12 = central d μ 2 := by ring
      have q2 : central d μ 4 + w ^ 2 / 2 * central d μ 2 + w ^ 4 / 80 - w ^ 2 / 2 * central d μ 2 - w ^ 4 / 80 = central d μ 4 := by ring
      rw [q1, q2]
    · have := (C105_stats_partial _ d hmunp c0 μ rfl (by linarith) "").2
      rw [this]
      have q1 : central d μ 2 + w ^ 2 / 12 - w ^ 2 / 12 = central d μ 2 := by ring
      rw [q1]

/-! ## instances -/

/-- two bins with probabilities 1/4 and 3/4 -/
example (f : ℝ → ℝ) (hf : ∀ x, histPdf [0, 1, 2] [1/4, 3/4] x = .ok (f x)) :=
  C105_histogram [0, 1, 2] [1/4, 3/4] ⟨by norm_num, rfl, by decide⟩ 1
    (by intro i a b ha hb
        match i with
        | 0 => simp at ha hb; subst ha hb; norm_num
        | 1 => simp at ha hb; subst ha hb; norm_num
        | i + 2 => simp at hb) (by norm_num [totalMass]) f hf

/-- the probabilities at the centres: mean 5/4, variance 3/16, third central moment -3/32 -/
example : central (binMasses [0, 1, 2] [1/4, 3/4]) 0 1 = 5/4 ∧ central (binMasses [0, 1, 2] [1/4, 3/4]) (5/4) 2 = 3/16 ∧
    central (binMasses [0, 1, 2] [1/4, 3/4]) (5/4) 3 = -3/32 := by norm_num [central, binMasses]

/-- the uniform density on `[10, 11]` given by its end points -/
example := C105_negative_variance (interpMoment [10, 11] [1, 1]) (fun n => Np.sum (Np.mul ([10, 11].map (· ^ n)) [1, 1]) * (11 - 10)) (fun _ => rfl)
  (by norm_num [Np.sum, Np.mul])

example : asked "km" (some 1) (some 2) (some 3) (some 4) = [some 1, some 4] := by simp [asked, show "km".toList = ['k', 'm'] from rfl]

end Verif.Props.ShapeStats
