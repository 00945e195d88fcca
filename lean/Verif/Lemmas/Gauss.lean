import Verif.Model.MixReal
import Mathlib.Probability.Moments.Variance

/-! Facts on the normal distribution in the form used by the model. -/

set_option autoImplicit false

namespace Verif.Lemmas.Gauss

open Verif Verif.Model MeasureTheory ProbabilityTheory Set
open scoped NNReal ENNReal

/-- the variance -/
noncomputable def gvar (σ : ℝ) : ℝ≥0 := ⟨σ ^ 2, sq_nonneg σ⟩

theorem gvar_ne {σ : ℝ} (h : 0 < σ) : gvar σ ≠ 0 := by
  intro hc
  have : σ ^ 2 = 0 := congrArg NNReal.toReal hc
  exact h.ne' (by simpa using this)

theorem normPdf_eq {σ : ℝ} (h : 0 < σ) (μ : ℝ) : normPdf μ σ = gaussianPDFReal μ (gvar σ) := by
  funext x
  have hv : ((gvar σ : ℝ≥0) : ℝ) = σ ^ 2 := rfl
  have hs : Real.sqrt (2 * Real.pi * σ ^ 2) = Real.sqrt (2 * Real.pi) * σ := by
    rw [Real.sqrt_mul (by positivity), Real.sqrt_sq h.le]
  unfold normPdf gaussianPDFReal
  rw [hv, hs, div_div, div_eq_inv_mul]
  congr 2
  field_simp

theorem normPdf_pos {σ : ℝ} (h : 0 < σ) (μ x : ℝ) : 0 < normPdf μ σ x := by unfold normPdf; positivity

theorem normPdf_le {σ : ℝ} (h : 0 < σ) (μ x : ℝ) : normPdf μ σ x ≤ 1 / (Real.sqrt (2 * Real.pi) * σ) := by
  unfold normPdf
  rw [div_div]
  apply div_le_div_of_nonneg_right _ (by positivity)
  rw [Real.exp_le_one_iff]
  have := sq_nonneg ((x - μ) / σ)
  linarith

theorem integrable_normPdf {σ : ℝ} (h : 0 < σ) (μ : ℝ) : Integrable (normPdf μ σ) := by
  rw [normPdf_eq h]; exact integrable_gaussianPDFReal _ _

theorem integral_normPdf {σ : ℝ} (h : 0 < σ) (μ : ℝ) : (∫ x, normPdf μ σ x) = 1 := by
  rw [normPdf_eq h]; exact integral_gaussianPDFReal_eq_one _ (gvar_ne h)

theorem integral_against {σ : ℝ} (h : 0 < σ) (μ : ℝ) (g : ℝ → ℝ) (hg : Integrable g (gaussianReal μ (gvar σ))) :
    Integrable (fun x => g x * normPdf μ σ x) ∧ (∫ x, g x * normPdf μ σ x) = ∫ x, g x ∂(gaussianReal μ (gvar σ)) := by
  constructor
  · rw [gaussianReal_of_var_ne_zero _ (gvar_ne h), integrable_withDensity_iff_integrable_smul' (measurable_gaussianPDF _ _)
      (ae_of_all _ fun _ => gaussianPDF_lt_top)] at hg
    refine hg.congr (ae_of_all _ fun x => ?_)
    simp only [toReal_gaussianPDF, smul_eq_mul]
    rw [normPdf_eq h, mul_comm]
  · rw [integral_gaussianReal_eq_integral_smul (gvar_ne h), normPdf_eq h]
    simp only [smul_eq_mul, mul_comm]

theorem mean_normPdf {σ : ℝ} (h : 0 < σ) (μ : ℝ) :
    (Integrable fun x => x * normPdf μ σ x) ∧ (∫ x, x * normPdf μ σ x) = μ := by
  have hm : MemLp id 1 (gaussianReal μ (gvar σ)) := memLp_id_gaussianReal 1
  have := integral_against h μ (fun x => x) (memLp_one_iff_integrable.1 hm)
  exact ⟨this.1, this.2.trans integral_id_gaussianReal⟩

theorem square_normPdf {σ : ℝ} (h : 0 < σ) (μ : ℝ) :
    (Integrable fun x => x ^ 2 * normPdf μ σ x) ∧ (∫ x, x ^ 2 * normPdf μ σ x) = σ ^ 2 + μ ^ 2 := by
  have hm : MemLp (fun x : ℝ => x) 2 (gaussianReal μ (gvar σ)) := memLp_id_gaussianReal 2
  have := integral_against h μ (fun x => x ^ 2) hm.integrable_sq
  refine ⟨this.1, this.2.trans ?_⟩
  have hv := variance_eq_sub hm
  rw [variance_fun_id_gaussianReal, integral_id_gaussianReal] at hv
  have he : (∫ x, ((fun x : ℝ => x) ^ 2) x ∂gaussianReal μ (gvar σ)) = ∫ x, x ^ 2 ∂gaussianReal μ (gvar σ) := rfl
  have hg : ((gvar σ : ℝ≥0) : ℝ) = σ ^ 2 := rfl
  rw [he, hg] at hv
  linarith

theorem gauss_map {σ : ℝ} (μ : ℝ) : (gaussianReal 0 1).map (fun z => σ * z + μ) = gaussianReal μ (gvar σ) := by
  have h1 : (fun z : ℝ => σ * z + μ) = (fun y => y + μ) ∘ (fun z => σ * z) := rfl
  rw [h1, ← Measure.map_map (by fun_prop) (by fun_prop), gaussianReal_map_const_mul, gaussianReal_map_add_const]
  congr 1
  · ring
  · ext; simp [gvar]; rfl

theorem normCdf_eq_measure {σ : ℝ} (h : 0 < σ) (μ x : ℝ) : normCdf μ σ x = (gaussianReal μ (gvar σ)).real (Iic x) := by
  rw [← gauss_map, map_measureReal_apply (by fun_prop) measurableSet_Iic]
  unfold normCdf
  congr 1
  ext z
  simp only [mem_Iic, mem_preimage]
  rw [le_div_iff₀ h]
  constructor <;> intro hz <;> linarith

theorem normCdf_eq {σ : ℝ} (h : 0 < σ) (μ x : ℝ) : normCdf μ σ x = ∫ t in Iic x, normPdf μ σ t := by
  rw [normCdf_eq_measure h, measureReal_def, gaussianReal_apply_eq_integral _ (gvar_ne h), ENNReal.toReal_ofReal, normPdf_eq h]
  exact integral_nonneg fun t => gaussianPDFReal_nonneg _ _ _

theorem normCdf_diff {σ : ℝ} (h : 0 < σ) (μ x y : ℝ) : normCdf μ σ y - normCdf μ σ x = ∫ t in x..y, normPdf μ σ t := by
  rw [normCdf_eq h, normCdf_eq h, intervalIntegral.integral_Iic_sub_Iic (integrable_normPdf h μ).integrableOn (integrable_normPdf h μ).integrableOn]

theorem normCdf_lt {σ : ℝ} (h : 0 < σ) (μ x y : ℝ) (hxy : x < y) : normCdf μ σ x < normCdf μ σ y := by
  have := normCdf_diff h μ x y
  have hp := intervalIntegral.intervalIntegral_pos_of_pos ((integrable_normPdf h μ).intervalIntegrable (a := x) (b := y)) (fun t => normPdf_pos h μ t) hxy
  linarith

theorem normCdf_lipschitz {σ : ℝ} (h : 0 < σ) (μ x y : ℝ) (hxy : x ≤ y) :
    normCdf μ σ y - normCdf μ σ x ≤ (y - x) / (Real.sqrt (2 * Real.pi) * σ) := by
  rw [normCdf_diff h μ x y]
  have := intervalIntegral.integral_mono_on hxy ((integrable_normPdf h μ).intervalIntegrable (a := x) (b := y))
    (intervalIntegrable_const (c := 1 / (Real.sqrt (2 * Real.pi) * σ)) (μ := volume)) (fun t _ => normPdf_le h μ t)
  rw [intervalIntegral.integral_const, smul_eq_mul] at this
  calc _ ≤ _ := this
    _ = _ := by ring

theorem normCdf_bounds (μ σ x : ℝ) : 0 ≤ normCdf μ σ x ∧ normCdf μ σ x ≤ 1 := by
  unfold normCdf
  exact ⟨measureReal_nonneg, measureReal_le_one⟩

/-- the lower tail -/
theorem normCdf_tail {σ : ℝ} (h : 0 < σ) (μ x : ℝ) (k : ℝ) (hk : 0 ≤ k) (hx : x ≤ μ - k * σ) : normCdf μ σ x ≤ Real.exp (-k ^ 2 / 2) := by
  have hz : (x - μ) / σ ≤ -k := by rw [div_le_iff₀ h]; linarith
  unfold normCdf
  have h1 := measure_le_le_exp_mul_mgf (μ := gaussianReal 0 1) (X := id) (t := -k) (-k) (by linarith) (integrable_exp_mul_gaussianReal _)
  rw [mgf_id_gaussianReal] at h1
  calc (gaussianReal 0 1).real (Iic ((x - μ) / σ)) ≤ (gaussianReal 0 1).real {ω | id ω ≤ -k} :=
        measureReal_mono (fun t ht => by simp only [mem_Iic, mem_ofPred_eq, id] at *; linarith)
    _ ≤ _ := h1
    _ = _ := by rw [← Real.exp_add]; congr 1; push_cast; ring

/-- the upper tail -/
theorem normCdf_tail_up {σ : ℝ} (h : 0 < σ) (μ x : ℝ) (k : ℝ) (hk : 0 ≤ k) (hx : μ + k * σ ≤ x) : 1 - Real.exp (-k ^ 2 / 2) ≤ normCdf μ σ x := by
  have hz : k ≤ (x - μ) / σ := by rw [le_div_iff₀ h]; linarith
  unfold normCdf
  have h1 := measure_ge_le_exp_mul_mgf (μ := gaussianReal 0 1) (X := id) (t := k) k hk (integrable_exp_mul_gaussianReal _)
  rw [mgf_id_gaussianReal] at h1
  have h2 : (gaussianReal 0 1).real (Iic ((x - μ) / σ))ᶜ ≤ Real.exp (-k ^ 2 / 2) := by
    calc (gaussianReal 0 1).real (Iic ((x - μ) / σ))ᶜ ≤ (gaussianReal 0 1).real {ω | k ≤ id ω} :=
          measureReal_mono (fun t ht => by simp only [mem_compl_iff, mem_Iic, not_le, mem_ofPred_eq, id] at *; linarith)
      _ ≤ _ := h1
      _ = _ := by rw [← Real.exp_add]; congr 1; push_cast; ring
  rw [probReal_compl_eq_one_sub measurableSet_Iic] at h2
  linarith

end Verif.Lemmas.Gauss
