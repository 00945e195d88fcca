import Mathlib.Probability.StrongLaw
import Mathlib.Probability.CDF

/-!
# Frequencies of independent draws

The strong law for the frequencies of a set and, from it, the theorem of Glivenko and Cantelli: the fraction of the first `n` draws that are at
most `t` approaches the probability of `(-∞, t]`, uniformly in `t`, for every distribution. Mathlib has the strong law and not the second theorem.
-/

set_option linter.unusedSectionVars false
set_option autoImplicit false

namespace Verif.Lemmas

open MeasureTheory ProbabilityTheory Filter Set
open scoped Topology

/-- draws from the distribution `ν`, pairwise independent -/
structure Draws {Ω : Type} [MeasurableSpace Ω] (μ : Measure Ω) (ν : Measure ℝ) (X : ℕ → Ω → ℝ) : Prop where
  meas : ∀ j, AEMeasurable (X j) μ
  indep : ∀ i j, i ≠ j → IndepFun (X i) (X j) μ
  law : ∀ j, μ.map (X j) = ν

/-- the first `n` draws -/
def firstOf {Ω : Type} (X : ℕ → Ω → ℝ) (n : ℕ) (ω : Ω) : List ℝ := (List.range n).map fun j => X j ω

section
variable {Ω : Type} [MeasurableSpace Ω] {μ : Measure Ω} [IsProbabilityMeasure μ] {ν : Measure ℝ} {X : ℕ → Ω → ℝ}

@[simp] theorem firstOf_length (n : ℕ) (ω : Ω) : (firstOf X n ω).length = n := by simp [firstOf]

theorem countP_sum (p : ℝ → Prop) [DecidablePred p] (n : ℕ) (ω : Ω) :
    (((firstOf X n ω).countP fun x => decide (p x) : ℕ) : ℝ) = ∑ i ∈ Finset.range n, indicator {x | p x} (fun _ => (1 : ℝ)) (X i ω) := by
  induction n with
  | zero => simp [firstOf]
  | succ n ih =>
    rw [Finset.sum_range_succ, ← ih]
    unfold firstOf
    rw [List.range_succ, List.map_append, List.countP_append]
    by_cases h : p (X n ω) <;> simp [h, indicator]

theorem Draws.prob (h : Draws μ ν X) : IsProbabilityMeasure ν := by
  rw [← h.law 0]; exact Measure.isProbabilityMeasure_map (h.meas 0)

theorem list_sum_range (f : ℕ → ℝ) (n : ℕ) : ((List.range n).map f).sum = ∑ i ∈ Finset.range n, f i := by
  induction n with
  | zero => simp
  | succ n ih => rw [Finset.sum_range_succ, List.range_succ, List.map_append, List.sum_append, ih]; simp

/-- the average of a bounded function over the draws approaches its integral -/
theorem average (h : Draws μ ν X) (g : ℝ → ℝ) (hg : Measurable g) (C : ℝ) (hC : ∀ x, |g x| ≤ C) :
    ∀ᵐ ω ∂μ, Tendsto (fun n : ℕ => ((firstOf X n ω).map g).sum / n) atTop (𝓝 (∫ x, g x ∂ν)) := by
  have := strong_law_ae_real (μ := μ) (fun i ω => g (X i ω)) ?_ ?_ ?_
  · have hE : ∫ ω, g (X 0 ω) ∂μ = ∫ x, g x ∂ν := by
      rw [← integral_map (h.meas 0) hg.aestronglyMeasurable, h.law 0]
    simp only [hE] at this
    simpa only [firstOf, List.map_map, Function.comp_def, list_sum_range] using this
  · exact Integrable.of_bound (C := C) (hg.comp_aemeasurable (h.meas 0)).aestronglyMeasurable (Eventually.of_forall fun ω => hC _)
  · intro i j hij
    exact (h.indep i j hij).comp hg hg
  · intro i
    refine IdentDistrib.comp (u := g) ⟨(h.meas i), (h.meas 0), ?_⟩ hg
    rw [h.law, h.law]

/-- the fraction of the draws that are in a set approaches the probability of the set -/
theorem frequency (h : Draws μ ν X) (p : ℝ → Prop) [DecidablePred p] (hp : MeasurableSet {x | p x}) :
    ∀ᵐ ω ∂μ, Tendsto (fun n : ℕ => (((firstOf X n ω).countP fun x => decide (p x) : ℕ) : ℝ) / n) atTop (𝓝 (ν.real {x | p x})) := by
  have hg : Measurable (indicator {x | p x} (fun _ => (1 : ℝ))) := measurable_const.indicator hp
  have hE : ∫ x, indicator {x | p x} (fun _ => (1 : ℝ)) x ∂ν = ν.real {x | p x} := by rw [integral_indicator hp]; simp
  rw [← hE]
  filter_upwards [average h _ hg 1 fun x => by by_cases hx : x ∈ {x | p x} <;> simp [indicator, hx]] with ω hω
  simp only [countP_sum]
  simpa only [firstOf, List.map_map, Function.comp_def, list_sum_range] using hω

/-- a function of the draws -/
theorem Draws.comp (h : Draws μ ν X) {ν' : Measure ℝ} (hν' : IsProbabilityMeasure ν') (g : ℝ → ℝ) (hg : ν.map g = ν') :
    Draws μ ν' fun j ω => g (X j ω) := by
  have hgm : AEMeasurable g ν := by
    by_contra hc
    rw [Measure.map_of_not_aemeasurable hc] at hg
    exact (IsProbabilityMeasure.ne_zero ν') hg.symm
  refine ⟨fun j => ?_, fun i j hij => ?_, fun j => ?_⟩
  · exact AEMeasurable.comp_aemeasurable (by rw [h.law]; exact hgm) (h.meas j)
  · exact (h.indep i j hij).comp₀ (h.meas i) (h.meas j) (by rw [h.law]; exact hgm) (by rw [h.law]; exact hgm)
  · rw [← hg, ← h.law j]
    exact (AEMeasurable.map_map_of_aemeasurable (by rw [h.law]; exact hgm) (h.meas j)).symm

/-- two distribution functions that are close at the right points are close everywhere; `E'` and `G'` are the values just below a point -/
theorem close_everywhere {E E' G G' : ℝ → ℝ} (hE : ∀ s t, s ≤ t → E s ≤ E t) (hE' : ∀ s t, s < t → E s ≤ E' t) (hE0 : ∀ t, 0 ≤ E t)
    (hG : ∀ s t, s ≤ t → G s ≤ G t) (hE1 : ∀ t, E t ≤ 1) (hG0 : ∀ t, 0 ≤ G t) (hG1 : ∀ t, G t ≤ 1) (m : ℕ) (hm : 0 < m) (x : ℕ → ℝ)
    (hx : ∀ (k : ℕ), 0 < k → k < m → (k : ℝ) / m ≤ G (x k) ∧ G' (x k) ≤ (k : ℝ) / m ∧ ∀ t, (k : ℝ) / m ≤ G t → x k ≤ t) (δ : ℝ) (hδ : 0 ≤ δ)
    (h : ∀ (k : ℕ), 0 < k → k < m → |E (x k) - G (x k)| ≤ δ ∧ |E' (x k) - G' (x k)| ≤ δ) (t : ℝ) : |E t - G t| ≤ δ + 1 / m := by
  have hm' : (0 : ℝ) < m := by exact_mod_cast hm
  have hfl := Nat.floor_le (mul_nonneg hm'.le (hG0 t))
  have hfl' := Nat.lt_floor_add_one ((m : ℝ) * G t)
  set k := ⌊(m : ℝ) * G t⌋₊ with hk
  have hkm : k ≤ m := by
    have : (k : ℝ) ≤ m := hfl.trans (by nlinarith [hG1 t])
    exact_mod_cast this
  have hup : G t < ((k + 1 : ℕ) : ℝ) / m := by rw [lt_div_iff₀ hm']; push_cast; linarith
  have hlo : (k : ℝ) / m ≤ G t := by rw [div_le_iff₀ hm']; linarith
  have hstep : ((k + 1 : ℕ) : ℝ) / m = (k : ℝ) / m + 1 / m := by push_cast; ring
  have h1m : (0 : ℝ) < 1 / m := by positivity
  rw [abs_le]
  constructor
  · -- from below
    rcases Nat.eq_zero_or_pos k with h0 | hpos
    · rw [h0] at hup; simp only [zero_add, Nat.cast_one] at hup
      linarith [hE0 t]
    · rcases hkm.lt_or_eq with hlt | heq
      · obtain ⟨a, -, c⟩ := hx k hpos hlt
        have := hE _ _ (c t hlo)
        have := (abs_le.1 (h k hpos hlt).1).1
        linarith
      · have e1 : (k : ℝ) / m = 1 := by rw [heq]; field_simp
        have hGt : G t = 1 := le_antisymm (hG1 t) (by rw [← e1]; exact hlo)
        rcases Nat.eq_zero_or_pos (m - 1) with hz | hz
        · have : m = 1 := by omega
          subst this
          have := hE0 t
          rw [hGt]; norm_num; linarith
        · have hcast : (((m - 1 : ℕ) : ℕ) : ℝ) / m = 1 - 1 / m := by
            rw [Nat.cast_sub hm]; field_simp; simp
          obtain ⟨a, -, c⟩ := hx (m - 1) hz (by omega)
          have := hE _ _ (c t (by rw [hcast, hGt]; linarith))
          have := (abs_le.1 (h (m - 1) hz (by omega)).1).1
          rw [hcast] at a
          linarith
  · -- from above
    rcases lt_or_ge (k + 1) m with hlt | hge
    · obtain ⟨a, b, -⟩ := hx (k + 1) (by omega) hlt
      rcases lt_or_ge t (x (k + 1)) with ht | ht
      · have := hE' _ _ ht
        have := (abs_le.1 (h (k + 1) (by omega) hlt).2).2
        linarith
      · exfalso
        linarith [hG _ _ ht]
    · have : (1 : ℝ) ≤ ((k + 1 : ℕ) : ℝ) / m := by rw [le_div_iff₀ hm', one_mul]; exact_mod_cast hge
      linarith [hE1 t]

/-- a point where the distribution function first reaches a probability strictly between 0 and 1 -/
theorem first_reach (ν : Measure ℝ) [IsProbabilityMeasure ν] (u : ℝ) (h0 : 0 < u) (h1 : u < 1) :
    ∃ x, u ≤ ν.real (Iic x) ∧ ν.real (Iio x) ≤ u ∧ ∀ t, u ≤ ν.real (Iic t) → x ≤ t := by
  simp only [← cdf_eq_real]
  set S := {t | u ≤ cdf ν t} with hS
  obtain ⟨a, ha⟩ := ((tendsto_cdf_atBot ν).eventually (gt_mem_nhds h0)).exists
  obtain ⟨b, hb⟩ := ((tendsto_cdf_atTop ν).eventually (lt_mem_nhds h1)).exists
  have hne : S.Nonempty := ⟨b, hb.le⟩
  have hbd : BddBelow S := ⟨a, fun t ht => by
    by_contra hc
    have := monotone_cdf ν (not_le.1 hc).le
    exact absurd (lt_of_le_of_lt (le_trans ht this) ha) (lt_irrefl _)⟩
  refine ⟨sInf S, ?_, ?_, fun t ht => csInf_le hbd ht⟩
  · have hrc := (cdf ν).right_continuous (sInf S)
    have hlim : Tendsto (cdf ν) (𝓝[>] (sInf S)) (𝓝 (cdf ν (sInf S))) := hrc.mono_left (nhdsWithin_mono _ Ioi_subset_Ici_self)
    refine ge_of_tendsto hlim ?_
    filter_upwards [self_mem_nhdsWithin] with t ht
    obtain ⟨s, hs, hst⟩ := exists_lt_of_csInf_lt hne ht
    exact le_trans hs (monotone_cdf ν hst.le)
  · have e : ν (Iio (sInf S)) = ENNReal.ofReal (Function.leftLim (cdf ν) (sInf S) - 0) := by
      conv_lhs => rw [← measure_cdf ν]
      exact (cdf ν).measure_Iio (tendsto_cdf_atBot ν) _
    rw [measureReal_def, e, sub_zero]
    refine ENNReal.toReal_le_of_le_ofReal h0.le (ENNReal.ofReal_le_ofReal ?_)
    have hlim := (monotone_cdf ν).tendsto_leftLim (sInf S)
    refine le_of_tendsto hlim ?_
    filter_upwards [self_mem_nhdsWithin] with t ht
    by_contra hc
    exact absurd (csInf_le hbd (show t ∈ S from (not_le.1 hc).le)) (not_le.2 ht)

/-- **Glivenko and Cantelli.** -/
theorem glivenko_cantelli (h : Draws μ ν X) :
    ∀ᵐ ω ∂μ, ∀ ε > 0, ∃ N : ℕ, ∀ n ≥ N, ∀ t, |(((firstOf X n ω).countP fun x => decide (x ≤ t) : ℕ) : ℝ) / n - ν.real (Iic t)| ≤ ε := by
  have hν := h.prob
  have hc : ∀ (m k : ℕ), ∃ x, 0 < k → k < m → (k : ℝ) / m ≤ ν.real (Iic x) ∧ ν.real (Iio x) ≤ (k : ℝ) / m ∧ ∀ t, (k : ℝ) / m ≤ ν.real (Iic t) → x ≤ t := by
    intro m k
    by_cases hk : 0 < k ∧ k < m
    · obtain ⟨x, hx⟩ := first_reach ν ((k : ℝ) / m) (div_pos (by exact_mod_cast hk.1) (by exact_mod_cast hk.1.trans hk.2))
        (by rw [div_lt_one (by exact_mod_cast hk.1.trans hk.2)]; exact_mod_cast hk.2)
      exact ⟨x, fun _ _ => hx⟩
    · exact ⟨0, fun a b => absurd ⟨a, b⟩ hk⟩
  choose x hx using hc
  have hfreq : ∀ᵐ ω ∂μ, ∀ m k : ℕ,
      Tendsto (fun n : ℕ => (((firstOf X n ω).countP fun y => decide (y ≤ x m k) : ℕ) : ℝ) / n) atTop (𝓝 (ν.real (Iic (x m k)))) ∧
      Tendsto (fun n : ℕ => (((firstOf X n ω).countP fun y => decide (y < x m k) : ℕ) : ℝ) / n) atTop (𝓝 (ν.real (Iio (x m k)))) := by
    rw [ae_all_iff]; intro m
    rw [ae_all_iff]; intro k
    filter_upwards [frequency h (fun y => y ≤ x m k) measurableSet_Iic, frequency h (fun y => y < x m k) measurableSet_Iio] with ω h1 h2
    exact ⟨h1, h2⟩
  filter_upwards [hfreq] with ω hω ε hε
  obtain ⟨m, hm⟩ := exists_nat_gt (2 / ε)
  have hm0 : 0 < m := by
    rcases Nat.eq_zero_or_pos m with h0 | h0
    · rw [h0] at hm; have : 0 < 2 / ε := by positivity
      simp at hm; linarith
    · exact h0
  have hm' : (0 : ℝ) < m := by exact_mod_cast hm0
  have hδ : ∀ k : ℕ, ∃ N : ℕ, ∀ n ≥ N,
      |(((firstOf X n ω).countP fun y => decide (y ≤ x m k) : ℕ) : ℝ) / n - ν.real (Iic (x m k))| ≤ ε / 2 ∧
      |(((firstOf X n ω).countP fun y => decide (y < x m k) : ℕ) : ℝ) / n - ν.real (Iio (x m k))| ≤ ε / 2 := by
    intro k
    obtain ⟨N1, h1⟩ := Metric.tendsto_atTop.1 (hω m k).1 (ε / 2) (by positivity)
    obtain ⟨N2, h2⟩ := Metric.tendsto_atTop.1 (hω m k).2 (ε / 2) (by positivity)
    refine ⟨max N1 N2, fun n hn => ⟨(h1 n (le_trans (le_max_left _ _) hn)).le, (h2 n (le_trans (le_max_right _ _) hn)).le⟩⟩
  choose N hN using hδ
  refine ⟨(Finset.range m).sup N, fun n hn t => ?_⟩
  have hle : ∀ p : ℝ → Prop, ∀ [DecidablePred p], (((firstOf X n ω).countP fun y => decide (p y) : ℕ) : ℝ) / n ≤ 1 := by
    intro p _
    refine div_le_one_of_le₀ ?_ (Nat.cast_nonneg _)
    exact_mod_cast (List.countP_le_length (l := firstOf X n ω)).trans (by simp)
  have hmn : ∀ (p q : ℝ → Prop) [DecidablePred p] [DecidablePred q], (∀ y, p y → q y) →
      (((firstOf X n ω).countP fun y => decide (p y) : ℕ) : ℝ) / n ≤ (((firstOf X n ω).countP fun y => decide (q y) : ℕ) : ℝ) / n := by
    intro p q _ _ hpq
    refine div_le_div_of_nonneg_right ?_ (Nat.cast_nonneg _)
    exact_mod_cast List.countP_mono_left fun y _ hy => by simpa using hpq y (by simpa using hy)
  have key := close_everywhere (E := fun t => (((firstOf X n ω).countP fun y => decide (y ≤ t) : ℕ) : ℝ) / n)
    (E' := fun t => (((firstOf X n ω).countP fun y => decide (y < t) : ℕ) : ℝ) / n) (G := fun t => ν.real (Iic t)) (G' := fun t => ν.real (Iio t))
    (fun s t hst => hmn _ _ fun y hy => hy.trans hst) (fun s t hst => hmn _ _ fun y hy => lt_of_le_of_lt hy hst) (fun t => by positivity)
    (fun s t hst => measureReal_mono (Iic_subset_Iic.2 hst)) (fun t => hle _) (fun t => measureReal_nonneg) (fun t => measureReal_le_one) m hm0
    (x m) (fun k h0 h1 => hx m k h0 h1) (ε / 2) (by positivity)
    (fun k _ hk => hN k n (le_trans (Finset.le_sup (f := N) (Finset.mem_range.2 hk)) hn)) t
  refine key.trans ?_
  have : 1 / (m : ℝ) ≤ ε / 2 := by
    rw [div_lt_iff₀ hε] at hm
    rw [div_le_div_iff₀ hm' two_pos]; linarith
  linarith

end

end Verif.Lemmas
