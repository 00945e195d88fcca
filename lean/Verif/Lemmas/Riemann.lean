import Verif.Np.Linspace
import Mathlib.MeasureTheory.Integral.DominatedConvergence
import Mathlib.MeasureTheory.Integral.IntervalIntegral.Basic
import Mathlib.MeasureTheory.Constructions.BorelSpace.Order
import Mathlib.MeasureTheory.Function.Floor
import Mathlib.MeasureTheory.Measure.Lebesgue.Basic
import Mathlib.Topology.MetricSpace.Bounded

/-!
# Sums over evenly spaced points and integrals
-/

set_option linter.unusedSectionVars false
set_option autoImplicit false

namespace Verif.Lemmas.Riemann

open Verif Verif.Np MeasureTheory Filter Set Topology

/-- bounded between `a` and `b` and continuous at almost all points there. Histograms, broken lines, splines and mixtures are of this kind. -/
structure Tame (a b : ℝ) (f : ℝ → ℝ) : Prop where
  bound : ∃ B, ∀ x ∈ Icc a b, |f x| ≤ B
  cont : ∀ᵐ x, x ∈ Ioo a b → ContinuousAt f x

theorem tame_of_continuous {a b : ℝ} {f : ℝ → ℝ} (h : Continuous f) : Tame a b f where
  bound := by
    obtain ⟨B, hB⟩ := isCompact_Icc.exists_bound_of_continuousOn (f := f) (s := Icc a b) h.continuousOn
    exact ⟨B, fun x hx => hB x hx⟩
  cont := Eventually.of_forall fun x _ => h.continuousAt

theorem Tame.map2 {a b : ℝ} {f h : ℝ → ℝ} (hf : Tame a b f) (hh : Tame a b h) (φ : ℝ × ℝ → ℝ) (hφ : Continuous φ) :
    Tame a b fun x => φ (f x, h x) where
  bound := by
    obtain ⟨B, hB⟩ := hf.bound
    obtain ⟨C, hC⟩ := hh.bound
    obtain ⟨D, hD⟩ := (isCompact_Icc.prod isCompact_Icc).exists_bound_of_continuousOn (f := φ) (s := Icc (-B) B ×ˢ Icc (-C) C) hφ.continuousOn
    exact ⟨D, fun x hx => hD _ ⟨abs_le.1 (hB x hx), abs_le.1 (hC x hx)⟩⟩
  cont := by
    filter_upwards [hf.cont, hh.cont] with x h1 h2 hx
    exact hφ.continuousAt.comp ((h1 hx).prodMk (h2 hx))

/-- the nearest point of the grid on the left -/
noncomputable def leftPoint (a r x : ℝ) : ℝ := a + r * ⌊(x - a) / r⌋

theorem leftPoint_le {a r x : ℝ} (hr : 0 < r) : leftPoint a r x ≤ x ∧ x < leftPoint a r x + r := by
  have h1 := Int.floor_le ((x - a) / r)
  have h2 := Int.lt_floor_add_one ((x - a) / r)
  rw [le_div_iff₀ hr] at h1
  rw [div_lt_iff₀ hr] at h2
  unfold leftPoint
  constructor <;> nlinarith

theorem leftPoint_mem {a b r x : ℝ} (hr : 0 < r) (hx : a < x ∧ x ≤ b) : leftPoint a r x ∈ Icc a b := by
  refine ⟨?_, (leftPoint_le hr).1.trans hx.2⟩
  have : 0 ≤ ⌊(x - a) / r⌋ := Int.floor_nonneg.2 (div_nonneg (by linarith [hx.1]) hr.le)
  have : (0 : ℝ) ≤ ⌊(x - a) / r⌋ := by exact_mod_cast this
  unfold leftPoint
  nlinarith

theorem leftPoint_measurable (a r : ℝ) (f : ℝ → ℝ) : Measurable fun x => f (leftPoint a r x) := by
  have h1 : Measurable fun k : ℤ => f (a + r * k) := measurable_from_top
  exact h1.comp (Int.measurable_floor.comp ((measurable_id.sub_const a).div_const r))

/-- the sum over the left points is the integral of the step function -/
theorem sum_left (a r : ℝ) (hr : 0 < r) (f : ℝ → ℝ) (m : ℕ) :
    r * ∑ j ∈ Finset.range m, f (a + j * r) = ∫ x in a..(a + m * r), f (leftPoint a r x) := by
  have hconst : ∀ j : ℕ, EqOn (fun x => f (leftPoint a r x)) (fun _ => f (a + j * r)) (Ioo (a + j * r) (a + (j + 1 : ℕ) * r)) := by
    intro j x hx
    have : ⌊(x - a) / r⌋ = (j : ℤ) := by
      rw [Int.floor_eq_iff]
      push_cast
      rw [le_div_iff₀ hr, div_lt_iff₀ hr]
      have h1 := hx.1
      have h2 := hx.2
      push_cast at h2
      constructor <;> linarith
    simp only [leftPoint, this]
    push_cast
    ring_nf
  have hle : ∀ j : ℕ, a + j * r ≤ a + (j + 1 : ℕ) * r := fun j => by push_cast; nlinarith
  have hsum := intervalIntegral.sum_integral_adjacent_intervals (f := fun x => f (leftPoint a r x)) (μ := volume) (a := fun j : ℕ => a + j * r) (n := m) fun k _ => by
    rw [intervalIntegrable_iff_integrableOn_Ioo_of_le (hle k)]
    exact (integrableOn_congr_fun (hconst k) measurableSet_Ioo).2 (integrableOn_const (by simp))
  simp only [Nat.cast_zero, zero_mul, add_zero] at hsum
  rw [← hsum, Finset.mul_sum]
  refine Finset.sum_congr rfl fun j _ => ?_
  rw [intervalIntegral.integral_congr_Ioo_of_le (hle j) (hconst j), intervalIntegral.integral_const, smul_eq_mul]
  push_cast
  ring

theorem range_sum (g : ℕ → ℝ) : ∀ n, ((List.range n).map g).sum = ∑ j ∈ Finset.range n, g j
  | 0 => rfl
  | n + 1 => by rw [List.range_succ, List.map_append, List.sum_append, range_sum g n, Finset.sum_range_succ]; simp

theorem linspace_sum (a b : ℝ) (f : ℝ → ℝ) (m : ℕ) (hm : 1 ≤ m) :
    ((linspace a b (m + 1)).map f).sum = ∑ j ∈ Finset.range m, f (a + j * ((b - a) / m)) + f b := by
  have hm0 : (m : ℝ) ≠ 0 := by exact_mod_cast (by omega : m ≠ 0)
  have e : (linspace a b (m + 1)).map f = (List.range (m + 1)).map fun j : ℕ => f (a + j * ((b - a) / m)) := by
    simp only [linspace, List.map_map]
    refine List.map_congr_left fun j _ => ?_
    simp only [Function.comp_apply]
    rw [if_neg (by omega)]
    push_cast
    ring_nf
  rw [e, range_sum, Finset.sum_range_succ]
  congr 2
  field_simp
  ring

/-- **Sums over evenly spaced points approach the integral**, for every tame function. -/
theorem riemann {a b : ℝ} (hab : a < b) {f : ℝ → ℝ} (hf : Tame a b f) :
    Tendsto (fun n : ℕ => (b - a) / ((n : ℝ) - 1) * ((linspace a b n).map f).sum) atTop (𝓝 (∫ x in a..b, f x)) := by
  obtain ⟨B, hB⟩ := hf.bound
  rw [← tendsto_add_atTop_iff_nat 1]
  have hr0 : Tendsto (fun m : ℕ => (b - a) / (m : ℝ)) atTop (𝓝 0) := tendsto_const_div_atTop_nhds_zero_nat _
  have hlim : Tendsto (fun m : ℕ => ∫ x in a..b, f (leftPoint a ((b - a) / m) x)) atTop (𝓝 (∫ x in a..b, f x)) := by
    refine intervalIntegral.tendsto_integral_filter_of_dominated_convergence (fun _ => B) ?_ ?_ (by simp) ?_
    · exact Eventually.of_forall fun m => (leftPoint_measurable _ _ f).aestronglyMeasurable
    · filter_upwards [eventually_ge_atTop 1] with m hm
      refine Eventually.of_forall fun x hx => ?_
      rw [uIoc_of_le hab.le] at hx
      have : (0 : ℝ) < m := by exact_mod_cast hm
      exact hB _ (leftPoint_mem (div_pos (by linarith) this) hx)
    · have hne : ∀ᵐ x : ℝ, x ≠ b := by simp [ae_iff, measure_singleton]
      filter_upwards [hf.cont, hne] with x hx hb hmem
      rw [uIoc_of_le hab.le] at hmem
      refine (hx ⟨hmem.1, lt_of_le_of_ne hmem.2 hb⟩).tendsto.comp ?_
      have hx0 : Tendsto (fun m : ℕ => x - (b - a) / (m : ℝ)) atTop (𝓝 x) := by simpa using tendsto_const_nhds.sub hr0
      refine tendsto_of_tendsto_of_tendsto_of_le_of_le' hx0 tendsto_const_nhds ?_ ?_
      all_goals
        filter_upwards [eventually_ge_atTop 1] with m hm
        have hm' : (0 : ℝ) < m := by exact_mod_cast hm
        have := leftPoint_le (a := a) (x := x) (div_pos (sub_pos.2 hab) hm')
        linarith
  have hend : Tendsto (fun m : ℕ => (b - a) / (m : ℝ) * f b) atTop (𝓝 0) := by simpa using hr0.mul_const (f b)
  have := hlim.add hend
  rw [add_zero] at this
  refine this.congr' ?_
  filter_upwards [eventually_ge_atTop 1] with m hm
  have hm' : (0 : ℝ) < m := by exact_mod_cast hm
  rw [linspace_sum a b f m hm]
  push_cast
  rw [add_sub_cancel_right, mul_add, sum_left a _ (div_pos (sub_pos.2 hab) hm')]
  congr 3
  field_simp
  ring

/-- **How far the sum is from the integral** for a function that changes by at most `L` per unit. -/
theorem riemann_error {a b : ℝ} (hab : a < b) {f : ℝ → ℝ} {L : ℝ} (hL : ∀ x ∈ Icc a b, ∀ y ∈ Icc a b, |f x - f y| ≤ L * |x - y|) (m : ℕ) (hm : 1 ≤ m) :
    |(b - a) / (m : ℝ) * ((linspace a b (m + 1)).map f).sum - ∫ x in a..b, f x| ≤ (b - a) / m * (L * (b - a) + |f b|) := by
  have hm' : (0 : ℝ) < m := by exact_mod_cast hm
  have hr : 0 < (b - a) / m := div_pos (sub_pos.2 hab) hm'
  have hL0 : 0 ≤ L := by
    have := (abs_nonneg _).trans (hL a ⟨le_rfl, hab.le⟩ b ⟨hab.le, le_rfl⟩)
    exact nonneg_of_mul_nonneg_left this (abs_pos.2 (sub_ne_zero.2 hab.ne))
  have hcont : ContinuousOn f (Icc a b) := by
    have hlip : LipschitzOnWith (Real.toNNReal L) f (Icc a b) := LipschitzOnWith.of_dist_le_mul fun x hx y hy => by
      rw [Real.dist_eq, Real.dist_eq, Real.coe_toNNReal L hL0]
      exact hL x hx y hy
    exact hlip.continuousOn
  have hint : IntervalIntegrable f volume a b := hcont.intervalIntegrable_of_Icc hab.le
  obtain ⟨B, hB⟩ := isCompact_Icc.exists_bound_of_continuousOn hcont
  have hleft : IntervalIntegrable (fun x => f (leftPoint a ((b - a) / m) x)) volume a b := by
    rw [intervalIntegrable_iff_integrableOn_Ioc_of_le hab.le]
    refine Measure.integrableOn_of_bounded (M := B) (by simp) (leftPoint_measurable _ _ f).aestronglyMeasurable ?_
    rw [ae_restrict_iff' measurableSet_Ioc]
    exact Eventually.of_forall fun x hx => hB _ (leftPoint_mem hr hx)
  have hend : a + (m : ℝ) * ((b - a) / m) = b := by
    rw [mul_div_cancel₀ _ hm'.ne']
    ring
  have hsum := sum_left a _ hr f m
  rw [hend] at hsum
  rw [linspace_sum a b f m hm, mul_add, hsum]
  have hd : |(∫ x in a..b, f (leftPoint a ((b - a) / m) x)) - ∫ x in a..b, f x| ≤ L * ((b - a) / m) * (b - a) := by
    rw [← intervalIntegral.integral_sub hleft hint]
    have := intervalIntegral.norm_integral_le_of_norm_le_const (a := a) (b := b) (C := L * ((b - a) / m)) (f := fun x => f (leftPoint a ((b - a) / m) x) - f x) fun x hx => by
      rw [uIoc_of_le hab.le] at hx
      refine (hL _ (leftPoint_mem hr hx) x ⟨hx.1.le, hx.2⟩).trans (mul_le_mul_of_nonneg_left ?_ hL0)
      have := leftPoint_le (a := a) (x := x) hr
      rw [abs_le]
      constructor <;> linarith
    rwa [Real.norm_eq_abs, abs_of_pos (sub_pos.2 hab)] at this
  have h3 : |(b - a) / (m : ℝ) * f b| = (b - a) / m * |f b| := by rw [abs_mul, abs_of_pos hr]
  have h4 := abs_add_le ((∫ x in a..b, f (leftPoint a ((b - a) / m) x)) - ∫ x in a..b, f x) ((b - a) / (m : ℝ) * f b)
  rw [h3] at h4
  refine le_trans (le_of_eq ?_) (h4.trans (le_trans (add_le_add_left hd _) (le_of_eq ?_)))
  · congr 1
    ring
  · ring

end Verif.Lemmas.Riemann
