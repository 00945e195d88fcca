import Verif.Model.Mixmod
import Mathlib.Probability.Distributions.Gaussian.Real
import Mathlib.Probability.CDF

/-!
# C23 over the reals: a mixture of normal distributions is a probability distribution

The component densities are those of `sps.norm(means, stds)`, written with Mathlib's `gaussianPDFReal mean variance`.
-/

set_option linter.unusedSectionVars false
set_option autoImplicit false

namespace Verif.Props.MixmodGauss

open Verif Verif.Np Verif.Model MeasureTheory ProbabilityTheory
open scoped NNReal

/-- PDF of the mixture with weights `w` and (mean, variance) pairs `ps`, at `x` -/
noncomputable def gaussMixPdf (w : List ℝ) (ps : List (ℝ × ℝ≥0)) (x : ℝ) : ℝ :=
  mixEval w (ps.map fun p => gaussianPDFReal p.1 p.2) x

/-- CDF of the same mixture -/
noncomputable def gaussMixCdf (w : List ℝ) (ps : List (ℝ × ℝ≥0)) (x : ℝ) : ℝ :=
  mixEval w (ps.map fun p => fun y => cdf (gaussianReal p.1 p.2) y) x

private theorem pdf_cons (a : ℝ) (t : List ℝ) (p : ℝ × ℝ≥0) (ps : List (ℝ × ℝ≥0)) (x : ℝ) :
    gaussMixPdf (a :: t) (p :: ps) x = a * gaussianPDFReal p.1 p.2 x + gaussMixPdf t ps x := rfl

private theorem cdf_cons (a : ℝ) (t : List ℝ) (p : ℝ × ℝ≥0) (ps : List (ℝ × ℝ≥0)) (x : ℝ) :
    gaussMixCdf (a :: t) (p :: ps) x = a * cdf (gaussianReal p.1 p.2) x + gaussMixCdf t ps x := rfl

private theorem integrable_mix : ∀ (w : List ℝ) (ps : List (ℝ × ℝ≥0)), Integrable (gaussMixPdf w ps) := by
  intro w
  induction w with
  | nil => intro ps; exact (integrable_zero ℝ ℝ volume)
  | cons a t ih =>
    intro ps
    cases ps with
    | nil => exact (integrable_zero ℝ ℝ volume)
    | cons p ps => exact ((integrable_gaussianPDFReal p.1 p.2).const_mul a).add (ih ps)

/-- **C23 over ℝ.** For any number of components with non-zero widths and any weights that sum to one, the mixture density is
integrable with total integral one, and the mixture CDF at `x` is the integral of the mixture density up to `x`. -/
theorem C23_gaussian (w : List ℝ) (ps : List (ℝ × ℝ≥0)) (hl : w.length = ps.length) (h1 : w.sum = 1)
    (hv : ∀ p ∈ ps, p.2 ≠ 0) :
    Integrable (gaussMixPdf w ps) ∧ ∫ x, gaussMixPdf w ps x = 1 ∧
    ∀ x, gaussMixCdf w ps x = ∫ y in Set.Iic x, gaussMixPdf w ps y := by
  refine ⟨integrable_mix w ps, ?_, ?_⟩
  · rw [← h1]
    clear h1
    induction w generalizing ps with
    | nil => simp [gaussMixPdf, mixEval, Np.sum]
    | cons a t ih =>
      cases ps with
      | nil => simp at hl
      | cons p ps =>
        simp only [pdf_cons]
        rw [integral_add ((integrable_gaussianPDFReal p.1 p.2).const_mul a) (integrable_mix t ps), integral_const_mul,
          integral_gaussianPDFReal_eq_one _ (hv p (by simp)), ih ps (by simpa using hl) (fun q hq => hv q (by simp [hq])),
          mul_one, List.sum_cons]
  · intro x
    clear h1
    induction w generalizing ps with
    | nil => simp [gaussMixPdf, gaussMixCdf, mixEval, Np.sum]
    | cons a t ih =>
      cases ps with
      | nil => simp at hl
      | cons p ps =>
        simp only [pdf_cons]
        rw [cdf_cons, integral_add ((integrable_gaussianPDFReal p.1 p.2).const_mul a).integrableOn
          (integrable_mix t ps).integrableOn, integral_const_mul, ih ps (by simpa using hl) (fun q hq => hv q (by simp [hq]))]
        congr 2
        rw [cdf_eq_real, Measure.real, gaussianReal_apply_eq_integral _ (hv p (by simp)), ENNReal.toReal_ofReal]
        exact integral_nonneg fun y => gaussianPDFReal_nonneg _ _ _

example : ∫ x, gaussMixPdf [1/4, 3/4] [(0, 1), (2, 1/2)] x = 1 :=
  (C23_gaussian [1/4, 3/4] [(0, 1), (2, 1/2)] rfl (by norm_num) (by simp)).2.1

end Verif.Props.MixmodGauss
