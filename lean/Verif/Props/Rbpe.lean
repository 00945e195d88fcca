import Verif.Model.Rbpe
import Mathlib.MeasureTheory.Integral.DominatedConvergence
import Mathlib.MeasureTheory.Measure.Lebesgue.Basic
import Mathlib.Topology.Order.LocalExtr
import Mathlib.Topology.Order.Compact

/-!
# C88: risk based point estimates
-/

set_option linter.unusedSectionVars false
set_option autoImplicit false

namespace Verif.Props.Rbpe

open Verif Verif.Model MeasureTheory Set

/-- the loss in another form -/
theorem loss_eq (x : ℝ) : rbpeLoss x = (x / 0.15) ^ 2 / (1 + (x / 0.15) ^ 2) := by
  unfold rbpeLoss
  have : (1 : ℝ) + (x / 0.15) ^ 2 ≠ 0 := by positivity
  field_simp
  ring

/-- **C88: the loss** is at least 0 and less than 1, vanishes exactly for a perfect estimate, does not depend on the sign of the error and
grows strictly with its size. -/
theorem C88_loss :
    (∀ x, 0 ≤ rbpeLoss x ∧ rbpeLoss x < 1) ∧ (∀ x, rbpeLoss x = 0 ↔ x = 0) ∧ (∀ x, rbpeLoss (-x) = rbpeLoss x) ∧
    ∀ x y, |x| < |y| → rbpeLoss x < rbpeLoss y := by
  refine ⟨fun x => ⟨?_, ?_⟩, fun x => ?_, fun x => ?_, fun x y h => ?_⟩
  · rw [loss_eq]; positivity
  · unfold rbpeLoss
    have : (0 : ℝ) < 1 / (1 + (x / 0.15) ^ 2) := by positivity
    linarith
  · rw [loss_eq, div_eq_zero_iff]
    have : (1 : ℝ) + (x / 0.15) ^ 2 ≠ 0 := by positivity
    constructor
    · rintro (h | h)
      · have := pow_eq_zero_iff (two_ne_zero) |>.1 h
        rw [div_eq_zero_iff] at this
        rcases this with h | h
        · exact h
        · norm_num at h
      · exact absurd h this
    · rintro rfl; left; simp
  · unfold rbpeLoss; rw [neg_div, neg_sq]
  · unfold rbpeLoss
    have h2 : x ^ 2 < y ^ 2 := sq_lt_sq.2 h
    have h3 : (x / 0.15) ^ 2 < (y / 0.15) ^ 2 := by
      rw [div_pow, div_pow]
      exact div_lt_div_of_pos_right h2 (by norm_num)
    have : 1 / (1 + (y / 0.15) ^ 2) < 1 / (1 + (x / 0.15) ^ 2) := by
      apply one_div_lt_one_div_of_lt <;> [positivity; linarith]
    linarith

theorem loss_mono {x y : ℝ} (h : |x| ≤ |y|) : rbpeLoss x ≤ rbpeLoss y := by
  rcases lt_or_eq_of_le h with h | h
  · exact (C88_loss.2.2.2 x y h).le
  · rcases abs_eq_abs.1 h with h | h
    · rw [h]
    · rw [h, C88_loss.2.2.1]

theorem loss_abs (x : ℝ) : ‖rbpeLoss x‖ ≤ 1 := by
  rw [Real.norm_eq_abs, abs_of_nonneg (C88_loss.1 x).1]; exact (C88_loss.1 x).2.le

theorem loss_continuous : Continuous rbpeLoss := by
  unfold rbpeLoss
  refine continuous_const.sub (continuous_const.div (by fun_prop) fun x => ?_)
  positivity

theorem loss_measurable (zp : ℝ) : Measurable fun z : ℝ => rbpeLoss ((zp - z) / (1 + z)) :=
  loss_continuous.measurable.comp (by fun_prop)

/-- the integrand of the risk is integrable -/
theorem risk_integrable {pdf : ℝ → ℝ} {lo hi : ℝ} (hi' : IntervalIntegrable pdf volume lo hi) (zp : ℝ) :
    IntervalIntegrable (fun z => pdf z * rbpeLoss ((zp - z) / (1 + z))) volume lo hi := by
  constructor
  · exact Integrable.mul_bdd (c := 1) hi'.1 (loss_measurable zp).aestronglyMeasurable (Filter.Eventually.of_forall fun z => loss_abs _)
  · exact Integrable.mul_bdd (c := 1) hi'.2 (loss_measurable zp).aestronglyMeasurable (Filter.Eventually.of_forall fun z => loss_abs _)

/-- **C88: bounds of the risk.** For a density without negative values the risk of every estimate lies between 0 and the probability
between the bounds. -/
theorem C88_risk_bounds (pdf : ℝ → ℝ) (lo hi : ℝ) (hlh : lo ≤ hi) (hpos : ∀ z, 0 ≤ pdf z) (hint : IntervalIntegrable pdf volume lo hi) (zp : ℝ) :
    0 ≤ rbpeRisk pdf lo hi zp ∧ rbpeRisk pdf lo hi zp ≤ ∫ z in lo..hi, pdf z := by
  constructor
  · exact intervalIntegral.integral_nonneg hlh fun z _ => mul_nonneg (hpos z) (C88_loss.1 _).1
  · refine intervalIntegral.integral_mono hlh (risk_integrable hint zp) hint fun z => ?_
    exact mul_le_of_le_one_right (hpos z) (C88_loss.1 _).2.le

/-- comparison of two estimates of which one is farther from every point between the bounds -/
theorem risk_lt (pdf : ℝ → ℝ) (lo hi : ℝ) (hpos : ∀ z, 0 ≤ pdf z) (hint : IntervalIntegrable pdf volume lo hi)
    (hmass : 0 < ∫ z in lo..hi, pdf z) (p q : ℝ) (hpq : ∀ z ∈ Ioc lo hi, |p - z| ≤ |q - z|)
    (hst : ∀ z ∈ Ioo lo hi, |p - z| < |q - z|) : rbpeRisk pdf lo hi p < rbpeRisk pdf lo hi q := by
  have hsup := (intervalIntegral.integral_pos_iff_support_of_nonneg_ae (Filter.Eventually.of_forall hpos) hint).1 hmass
  have habs : ∀ w z : ℝ, |(w - z) / (1 + z)| = |w - z| / |1 + z| := fun w z => abs_div _ _
  refine intervalIntegral.integral_lt_integral_of_ae_le_of_measure_setOfPred_lt_ne_zero hsup.1.le (risk_integrable hint p) (risk_integrable hint q) ?_ ?_
  · filter_upwards [ae_restrict_mem measurableSet_Ioc] with z hz
    refine mul_le_mul_of_nonneg_left (loss_mono ?_) (hpos z)
    rw [habs, habs]
    exact div_le_div_of_nonneg_right (hpq z hz) (abs_nonneg _)
  · intro h0
    have hsub : (Function.support pdf ∩ Ioc lo hi) \ {-1, hi} ⊆
        {z | pdf z * rbpeLoss ((p - z) / (1 + z)) < pdf z * rbpeLoss ((q - z) / (1 + z))} ∩ Ioc lo hi := by
      rintro z ⟨⟨hz, hm⟩, hne⟩
      simp only [mem_insert_iff, mem_singleton_iff, not_or] at hne
      refine ⟨?_, hm⟩
      have hp : 0 < pdf z := lt_of_le_of_ne (hpos z) (Ne.symm hz)
      have h1 : (1 : ℝ) + z ≠ 0 := fun h => hne.1 (by linarith)
      refine mul_lt_mul_of_pos_left (C88_loss.2.2.2 _ _ ?_) hp
      rw [habs, habs]
      exact div_lt_div_of_pos_right (hst z ⟨hm.1, lt_of_le_of_ne hm.2 hne.2⟩) (abs_pos.2 h1)
    have hfin : volume ({-1, hi} : Set ℝ) = 0 := (Set.toFinite _).measure_zero _
    have hge : 0 < volume ((Function.support pdf ∩ Ioc lo hi) \ {-1, hi}) := by
      rw [measure_sdiff_null hfin]; exact hsup.2
    rw [Measure.restrict_apply' measurableSet_Ioc] at h0
    exact absurd (measure_mono_null hsub h0) hge.ne'

/-- **C88: below the bounds the risk strictly falls, above them it strictly grows**, for every density without negative values and with
some mass between the bounds. -/
theorem C88_monotone (pdf : ℝ → ℝ) (lo hi : ℝ) (hpos : ∀ z, 0 ≤ pdf z) (hint : IntervalIntegrable pdf volume lo hi)
    (hmass : 0 < ∫ z in lo..hi, pdf z) :
    StrictAntiOn (rbpeRisk pdf lo hi) (Iic lo) ∧ StrictMonoOn (rbpeRisk pdf lo hi) (Ici hi) := by
  constructor
  · intro p hp q hq hpq
    simp only [mem_Iic] at hp hq
    refine risk_lt pdf lo hi hpos hint hmass q p (fun z hz => ?_) fun z hz => ?_
    · rw [abs_of_nonpos (by have := hz.1; linarith), abs_of_nonpos (by have := hz.1; linarith)]; linarith
    · rw [abs_of_nonpos (by have := hz.1; linarith), abs_of_nonpos (by have := hz.1; linarith)]; linarith
  · intro p hp q hq hpq
    simp only [mem_Ici] at hp hq
    refine risk_lt pdf lo hi hpos hint hmass p q (fun z hz => ?_) fun z hz => ?_
    · rw [abs_of_nonneg (by have := hz.2; linarith), abs_of_nonneg (by have := hz.2; linarith)]; linarith
    · rw [abs_of_nonneg (by have := hz.2; linarith), abs_of_nonneg (by have := hz.2; linarith)]; linarith

/-- **C88: every local minimum of the risk lies between the bounds**, whatever the optimiser does to find it. -/
theorem C88_local_min (pdf : ℝ → ℝ) (lo hi : ℝ) (hpos : ∀ z, 0 ≤ pdf z) (hint : IntervalIntegrable pdf volume lo hi)
    (hmass : 0 < ∫ z in lo..hi, pdf z) (z : ℝ) (hz : IsLocalMin (rbpeRisk pdf lo hi) z) : lo ≤ z ∧ z ≤ hi := by
  obtain ⟨hl, hr⟩ := C88_monotone pdf lo hi hpos hint hmass
  obtain ⟨ε, hε, hb⟩ := Metric.eventually_nhds_iff.1 hz
  constructor
  · by_contra h
    have h := not_le.1 h
    set d := min (ε / 2) (lo - z) with hd
    have hd0 : 0 < d := lt_min (by linarith) (by linarith)
    have h1 := hb (y := z + d) (by rw [Real.dist_eq, add_sub_cancel_left, abs_of_pos hd0]; have := min_le_left (ε / 2) (lo - z); linarith)
    have h2 := hl (a := z) (b := z + d) h.le (by have := min_le_right (ε / 2) (lo - z); simp only [mem_Iic]; linarith) (by linarith)
    exact absurd h1 (not_le.2 h2)
  · by_contra h
    have h := not_le.1 h
    set d := min (ε / 2) (z - hi) with hd
    have hd0 : 0 < d := lt_min (by linarith) (by linarith)
    have h1 := hb (y := z - d) (by rw [Real.dist_eq, sub_sub_cancel_left, abs_neg, abs_of_pos hd0]; have := min_le_left (ε / 2) (z - hi); linarith)
    have h2 := hr (a := z - d) (b := z) (by have := min_le_right (ε / 2) (z - hi); simp only [mem_Ici]; linarith) h.le (by linarith)
    exact absurd h1 (not_le.2 h2)

/-- **C88: the risk is continuous** -/
theorem C88_continuous (pdf : ℝ → ℝ) (lo hi : ℝ) (hint : IntervalIntegrable pdf volume lo hi) : Continuous (rbpeRisk pdf lo hi) := by
  unfold rbpeRisk
  refine intervalIntegral.continuous_of_dominated_interval (bound := fun z => ‖pdf z‖) (fun zp => ?_) (fun zp => ?_) hint.norm ?_
  · exact (risk_integrable hint zp).def'.aestronglyMeasurable
  · refine Filter.Eventually.of_forall fun z _ => ?_
    rw [norm_mul]
    exact mul_le_of_le_one_right (norm_nonneg _) (loss_abs _)
  · refine Filter.Eventually.of_forall fun z _ => ?_
    exact continuous_const.mul (loss_continuous.comp (by fun_prop))

/-- **C88: a best estimate exists**, between the bounds, and it is best among all numbers. -/
theorem C88_best_exists (pdf : ℝ → ℝ) (lo hi : ℝ) (hpos : ∀ z, 0 ≤ pdf z) (hint : IntervalIntegrable pdf volume lo hi)
    (hmass : 0 < ∫ z in lo..hi, pdf z) : ∃ z, lo ≤ z ∧ z ≤ hi ∧ ∀ w, rbpeRisk pdf lo hi z ≤ rbpeRisk pdf lo hi w := by
  have hsup := (intervalIntegral.integral_pos_iff_support_of_nonneg_ae (Filter.Eventually.of_forall hpos) hint).1 hmass
  obtain ⟨hl, hr⟩ := C88_monotone pdf lo hi hpos hint hmass
  obtain ⟨z, hz, hm⟩ := isCompact_Icc.exists_isMinOn (nonempty_Icc.2 hsup.1.le) (C88_continuous pdf lo hi hint).continuousOn
  refine ⟨z, hz.1, hz.2, fun w => ?_⟩
  rcases lt_trichotomy w lo with h | h | h
  · exact (hm (left_mem_Icc.2 hsup.1.le)).trans (hl (a := w) (b := lo) h.le (by simp) h).le
  · subst h; exact hm (left_mem_Icc.2 hsup.1.le)
  · rcases le_or_gt w hi with h' | h'
    · exact hm ⟨h.le, h'⟩
    · exact (hm (right_mem_Icc.2 hsup.1.le)).trans (hr (a := hi) (b := w) (by simp) h'.le h').le

/-- **C88: the scale of the density does not matter** -/
theorem C88_scale (pdf : ℝ → ℝ) (lo hi c zp : ℝ) : rbpeRisk (fun z => c * pdf z) lo hi zp = c * rbpeRisk pdf lo hi zp := by
  unfold rbpeRisk
  rw [← intervalIntegral.integral_const_mul]
  congr 1
  funext z
  ring

/-- **C88: the metric.** There is one estimate per PDF, computed from that PDF alone. Without limits, if the optimiser returns a local
minimum of the function it was given, the estimate lies between the 1% and the 99% quantile of the PDF. With limits, if the optimiser
keeps to its bounds, the estimate lies within the limits. -/
theorem C88_estimates (minimise : (ℝ → ℝ) → Option (ℝ × ℝ) → ℝ) (limits : Option (ℝ × ℝ)) (ps : List ((ℝ → ℝ) × (ℝ → ℝ))) :
    (calcRbpe minimise limits ps).length = ps.length ∧
    ∀ (i : ℕ) p, ps[i]? = some p → ∃ z, (calcRbpe minimise limits ps)[i]? = some z ∧ calcRbpe minimise limits [p] = [z] ∧
      (limits = none → (∀ x, 0 ≤ p.1 x) → IntervalIntegrable p.1 volume (p.2 0.01) (p.2 0.99) → 0 < ∫ x in (p.2 0.01)..(p.2 0.99), p.1 x →
        (∀ f, f = rbpeRisk p.1 (p.2 0.01) (p.2 0.99) → IsLocalMin f (minimise f none)) → p.2 0.01 ≤ z ∧ z ≤ p.2 0.99) ∧
      (∀ l u, limits = some (l, u) → (∀ f, l ≤ minimise f (some (l, u)) ∧ minimise f (some (l, u)) ≤ u) → l ≤ z ∧ z ≤ u) := by
  have hmap : ∀ qs : List ((ℝ → ℝ) × (ℝ → ℝ)), calcRbpe minimise limits qs =
      qs.map fun p => quickRbpe minimise p.1 (p.2 0.01, p.2 0.99) limits := by
    intro qs
    unfold calcRbpe
    induction qs using List.reverseRecOn with
    | nil => rfl
    | append_singleton qs q ih =>
      rw [List.length_append, List.length_singleton, List.range_succ, List.filterMap_append, List.map_append, ← ih]
      congr 1
      · apply List.filterMap_congr
        intro n hn
        rw [List.getElem?_append_left (List.mem_range.1 hn)]
      · simp
  refine ⟨by rw [hmap, List.length_map], fun i p hp => ?_⟩
  refine ⟨quickRbpe minimise p.1 (p.2 0.01, p.2 0.99) limits, by rw [hmap, List.getElem?_map, hp]; rfl, by rw [hmap]; rfl, ?_, ?_⟩
  · rintro rfl hpos hint hmass hmin
    exact C88_local_min p.1 _ _ hpos hint hmass _ (hmin _ rfl)
  · rintro l u rfl hb
    exact hb _

/-! ## instances -/

private theorem uni_int : IntervalIntegrable (fun _ : ℝ => (1 : ℝ)) volume 0 1 := by simp
private theorem uni_mass : 0 < ∫ _z in (0 : ℝ)..1, (1 : ℝ) := by simp

example := C88_risk_bounds (fun _ => 1) 0 1 zero_le_one (fun _ => zero_le_one) uni_int 3
example := C88_monotone (fun _ => 1) 0 1 (fun _ => zero_le_one) uni_int uni_mass
example : ∃ z, IsLocalMin (rbpeRisk (fun _ => 1) 0 1) z := by
  obtain ⟨z, -, -, h⟩ := C88_best_exists (fun _ => 1) 0 1 (fun _ => zero_le_one) uni_int uni_mass
  exact ⟨z, Filter.Eventually.of_forall h⟩
/-- an optimiser that satisfies the two requirements, for the uniform distribution -/
example := (C88_estimates (fun _ b => match b with
  | none => (C88_best_exists (fun _ => 1) 0 1 (fun _ => zero_le_one) uni_int uni_mass).choose
  | some l => l.1) none [(fun _ => 1, fun q => if q < 1 / 2 then 0 else 1)]).2 0 _ rfl |>.choose_spec.2.2.1 rfl (fun _ => zero_le_one)
    (by norm_num) (by norm_num) fun f hf => by
      have h := (C88_best_exists (fun _ => 1) 0 1 (fun _ => zero_le_one) uni_int uni_mass).choose_spec.2.2
      have e : f = rbpeRisk (fun _ => 1) 0 1 := by rw [hf]; norm_num
      rw [e]
      exact Filter.Eventually.of_forall h
example := ((C88_estimates (fun _ b => match b with
  | none => 0
  | some l => l.1) (some (0, 3)) [(fun _ => 1, fun q => q)]).2 0 _ rfl).choose_spec.2.2.2 0 3 rfl fun _ => ⟨le_rfl, by norm_num⟩
example : rbpeLoss 0.15 = 1 / 2 := by unfold rbpeLoss; norm_num

end Verif.Props.Rbpe
