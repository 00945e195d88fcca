import Verif.Props.Evaluation
import Verif.Props.Paths
import Verif.Props.Hist
import Verif.Props.InterpPdf
import Verif.Props.Integrals
import Verif.Props.Quant
import Verif.Props.Mixmod
import Verif.Props.MixmodGauss
import Mathlib.Data.Rat.Floor

/-!
# Concrete instances of the theorems on evaluation, histograms, interpolated PDFs, quantiles and mixtures (C01-C24)

Each `example` applies a theorem to data: the kernel checks that the hypotheses hold there, so none of the theorems is vacuous.
-/

set_option linter.unusedSectionVars false
set_option autoImplicit false

namespace Verif.Ex.Rows

open Verif Verif.Np Verif.Model Verif.Spec Verif.Props

deriving instance DecidableEq for Hist

/-! ### C01-C04 -/

example := Evaluation.C01_shared_grid_partial (K := ℚ) (fun i x => (i : ℚ) + x) 3 [0, 1/2, 2] (Or.inl (by decide +kernel))
example := Evaluation.C01_shared_grid_partial (K := ℚ) (fun i x => (i : ℚ) + x) 3 [2, 1/2, 2] (Or.inr (Or.inl (by decide +kernel)))
example := Paths.C01_interp_ensemble_partial (K := ℚ) [0, 1, 3] [[1, 2, 0], [0, 5, 1]] (by decide +kernel) [-1, 1/2, 2] (by decide +kernel)
example := Evaluation.C04_flat_path_partial (K := ℚ) (fun i x => (i : ℚ) + x) [[0, 1], [1, 2]] (by decide +kernel)
example := Paths.C04_interp_routines_agree (K := ℚ) [0, 1, 3] [1, 2, 0] (by decide +kernel) 0 0 2
example := Paths.C04_paths_same_function (K := ℚ) [0, 1, 3] [1, 2, 0] [0, 1/2, 1] (by decide +kernel)

/-! ### C05-C11 -/

theorem even : Bins.Uniform ([0, 1, 2] : List ℚ) := ⟨1, fun i a b ha hb => by
  match i with
  | 0 | 1 => simp at ha hb; subst ha hb; norm_num
  | i + 2 => simp at hb⟩

theorem uneven : Bins.DetectablyNonUniform ([0, 1, 3] : List ℚ) := ⟨0, 1, 1, 1, 3, rfl, rfl, rfl, rfl, by norm_num⟩

theorem grid : Hist.Grid ([0, 1, 3] : List ℚ) 2 := ⟨by decide +kernel, rfl, by decide⟩

theorem evenGrid : Hist.Grid ([0, 1, 2] : List ℚ) 2 := ⟨by decide +kernel, rfl, by decide⟩

example := Bins.C05_uniform_iff (K := ℚ) [0, 1, 2] (by decide) (by decide +kernel) even (3/2) 1
example := Bins.C05_nonuniform_iff (K := ℚ) [0, 1, 3] (by decide) (by decide +kernel) uneven (3/2) 1
example := Bins.C05_uniform_left_closed (K := ℚ) [0, 1, 2] (by decide +kernel) even 1 1 1 2 rfl rfl (by norm_num) (by norm_num)
example := Bins.C05_nonuniform_right_closed (K := ℚ) [0, 1, 3] (by decide +kernel) uneven 1 0 0 1 rfl rfl (by norm_num) (by norm_num)
example := Bins.C05_bin_lookup_partial (K := ℚ) [0, 1, 3] (by decide) (by decide +kernel) (Or.inr uneven) (3/2)
example := Bins.C05_index_valid (K := ℚ) [0, 1, 3] (by decide) 7
example := Hist.C06_hist_pdf_partial (K := ℚ) [0, 1, 3] [1, 1] [1/3, 1/3] grid (Or.inr uneven) (by decide +kernel) (1/2)
example := Hist.C07_scale_invariant (K := ℚ) [0, 1, 3] [1, 2] (-2) (by norm_num)
example := Hist.C07_reconstruct (K := ℚ) [0, 1, 3] [[1, 1], [2, 0]] [[1/3, 1/3], [1, 0]] ⟨[0, 1, 3], [some [1/3, 1/3], some [1, 0]]⟩
  (by decide +kernel) rfl
example := Hist.C07_shape_check (K := ℚ) [0, 1, 3] (by simp) [[1, 1], [2]] true
example := Hist.C08_cdf_is_mass (K := ℚ) [0, 1, 3] [1/3, 1/3] grid (by decide +kernel) 2
example := Hist.C08_cdf_shape (K := ℚ) [0, 1, 3] [1/3, 1/3] grid (by decide +kernel) (by decide +kernel)
example := Hist.C08_cdf_slope (K := ℚ) [0, 1, 3] [1/3, 1/3] grid (by decide +kernel) 1 1 3 (1/3) (3/2) 2 rfl rfl rfl
  (by norm_num) (by norm_num) (by norm_num)
example := Hist.C09_ppf_range (K := ℚ) [0, 1, 3] [1/3, 1/3] grid (by decide +kernel) (by simp) (2/3)
example := Hist.C09_cdf_ppf (K := ℚ) [0, 1, 3] [0, 1/2] grid (by decide +kernel) (by decide +kernel) (2/3) (by norm_num) (by norm_num)
example := Hist.C09_ppf_mono (K := ℚ) [0, 1, 3] [1/3, 1/3] grid (by decide +kernel) (1/3) (2/3) (by norm_num) (by norm_num) (by norm_num)
example := Hist.C09_ppf_cdf (K := ℚ) [0, 1, 3] [1/3, 1/3] grid (by decide +kernel) (by decide +kernel) 2 ⟨0, by simp, by norm_num⟩
  ⟨3, by simp, by norm_num⟩
example := Hist.C10_inner_ppf_ends_partial (K := ℚ) [0, 1, 3] [1/3, 1/3] grid (by decide +kernel) (by decide +kernel) (by simp)
example := Hist.C11_moments_partial (K := ℚ) [0, 1, 2] [1/4, 3/4] evenGrid even (by decide +kernel)

example := Integrals.C08_integral_partial [0, 1, 3] [1, 1] [1/3, 1/3] ⟨by norm_num, rfl, by decide⟩
  (Or.inr ⟨0, 1, 1, 1, 3, rfl, rfl, rfl, rfl, by norm_num⟩)
  (by norm_num [histNormRow, histSum, Np.sum, Np.mul, binWidths, diff])

/-! ### C12-C17 -/

theorem xgrid : InterpPdf.XGrid ([0, 1, 3] : List ℚ) 3 := ⟨by decide +kernel, rfl, by decide⟩

theorem made : InterpPdf.Constructed ([0, 1, 3] : List ℚ) [0, 2/3, 0] [0, 1/3, 1] := ⟨[0, 2, 0], xgrid, by decide +kernel⟩

theorem evenMade : InterpPdf.Constructed ([0, 1, 2] : List ℚ) [0, 1, 0] [0, 1/2, 1] :=
  ⟨[0, 5, 0], ⟨by decide +kernel, rfl, by decide⟩, by decide +kernel⟩

theorem madeReal : InterpPdf.Constructed ([0, 1, 3] : List ℝ) [0, 2/3, 0] [0, 1/3, 1] :=
  ⟨[0, 2, 0], ⟨by norm_num, rfl, by decide⟩, by norm_num [interpNormRow, interpCumul, trapezoids, cumsum, cumsumFrom]⟩

theorem steps (i : ℕ) (p q : ℚ) (hp : ([0, 1, 2] : List ℚ)[i]? = some p) (hq : ([0, 1, 2] : List ℚ)[i + 1]? = some q) : q - p = 1 := by
  match i with
  | 0 | 1 => simp at hp hq; subst hp hq; norm_num
  | i + 2 => simp at hq

example := InterpPdf.C12_interp_normalises (K := ℚ) [0, 1, 3] [1, 2, 0] xgrid
example := InterpPdf.C12_scale_invariant (K := ℚ) [0, 1, 3] [1, 2, 0] xgrid 3 (by norm_num)
example := Integrals.C12_integral [0, 1, 3] [0, 2, 0] ⟨by norm_num, rfl, by decide⟩ [0, 2/3, 0] [0, 1/3, 1]
  (by norm_num [interpNormRow, interpCumul, trapezoids, cumsum, cumsumFrom])
example := InterpPdf.C13_cdf_shape (K := ℚ) _ _ _ made (by decide +kernel)
example := InterpPdf.C13_cdf_at_grid (K := ℚ) _ _ _ made
example := Integrals.C13_integral_partial _ _ _ madeReal
example := InterpPdf.C14_cdf_ppf_exact (K := ℚ) _ _ _ made (by decide +kernel) 0 1 0 rfl rfl rfl (1/2) (by norm_num) (by norm_num)
example := InterpPdf.C14_cdf_ppf_partial (K := ℚ) _ _ _ made (by decide +kernel) 0 1 0 rfl rfl rfl (1/2) (by norm_num) (by norm_num)
  (by norm_num)
example := InterpPdf.C14_ppf_mono (K := ℚ) _ _ _ made (1/3) (1/2) (by norm_num)
example := InterpPdf.C15_pdf_through_points (K := ℚ) [0, 1, 3] [1, 2, 0] xgrid
example := InterpPdf.C16_moment0_exact (K := ℚ) _ _ _ evenMade 1 steps 0 0 rfl rfl
example := InterpPdf.C16_moment0_partial (K := ℚ) _ _ _ evenMade 1 steps rfl rfl
example := InterpPdf.C17_cdf_partial (K := ℚ) [0, 1, 3] [0, 1, 2] [0, 1/5, 2/5] xgrid (by decide +kernel) (by decide +kernel)
example := InterpPdf.C77_irregular_ppf (K := ℚ) 0 3 [0, 1, 3] [0, 1, 2] [0, 1/5, 2/5] xgrid (by decide +kernel) (by decide +kernel)
  (1/2) (by norm_num) (by norm_num)

/-! ### C18-C22 -/

theorem quantData : Quant.QuantData ([1/4, 1/2, 3/4] : List ℚ) [[0, 1, 2], [0, 1, 5]] :=
  ⟨by decide +kernel, by decide, by decide +kernel, by decide +kernel⟩

example := Quant.C18_padding (K := ℚ) _ _ quantData
example := Quant.C18_padding_extrapolates (K := ℚ) _ _ quantData [0, 1/4, 1/2, 3/4, 1] [[-1, 0, 1, 2, 3], [-1, 0, 1, 5, 9]] (by decide +kernel)
  1 [0, 1, 5] [-1, 0, 1, 5, 9] rfl rfl 1 rfl (1/4) (1/2) (1/2) (3/4) 0 1 1 5 rfl rfl rfl rfl rfl rfl rfl rfl
example := Quant.C19_three_points_partial (K := ℚ) 0 (1/2) 1 0 1 3 (by norm_num) (by norm_num) rfl (by norm_num) (by norm_num) rfl
example := Quant.C20_linear_partial (K := ℚ) [0, 1/2, 1] [0, 1, 3] (by decide +kernel) (by decide +kernel) rfl (by decide) 2
example := Quant.C20_constant_partial (K := ℚ) [0, 1/2, 3/4, 1] [0, 1, 3, 4] (by decide +kernel) (by decide +kernel) rfl (by decide)
  (Or.inl ⟨3/2, fun i a b ha hb => by
    match i with
    | 0 | 1 => norm_num [adjustedLocs] at ha hb; subst ha hb; norm_num
    | i + 2 => simp [adjustedLocs] at hb⟩) 2
example := Quant.C20_dual_spline_nodes_partial (K := ℚ) [0, 1/2, 1] [0, 1, 3] rfl (by simp)
example := Quant.C21_spline_rows_wrong (K := ℚ) (fun x => x) (fun x => 2 * x) [] [1, 2] 1 (by simp) (by norm_num)
example := Quant.C22_assign ⟨"piecewise_linear", .piecewiseLinear, "piecewise_linear"⟩ ⟨by decide, rfl, rfl⟩ "piecewise_constant" false

/-! ### C23, C24 -/

example := Mixmod.C23_normalises (K := ℚ) [[1, 3], [0, 2]] [some [1/4, 3/4], some [0, 1]] (by decide +kernel) 0 [1, 3] rfl
example := Mixmod.C23_valid (K := ℚ) [1/4, 3/4] (by decide +kernel) (by norm_num) [fun _ => 1, fun x => |x|]
  [fun x => max 0 (min 1 x), fun x => max 0 (min 1 (x / 2))] rfl
  (by
    intro f hf x
    rcases List.mem_cons.1 hf with rfl | hf
    · norm_num
    · rw [List.mem_singleton.1 hf]; positivity)
  (by
    intro F hF
    rcases List.mem_cons.1 hF with rfl | hF
    · exact ⟨fun x y h => max_le_max le_rfl (min_le_min le_rfl h), fun x => ⟨le_max_left _ _, max_le zero_le_one (min_le_left _ _)⟩⟩
    · rw [List.mem_singleton.1 hF]
      exact ⟨fun x y h => max_le_max le_rfl (min_le_min le_rfl (by linarith)),
        fun x => ⟨le_max_left _ _, max_le zero_le_one (min_le_left _ _)⟩⟩)
example := MixmodGauss.C23_gaussian [1/4, 3/4] [(0, 1), (2, 3)] rfl (by norm_num) (by
  intro p hp
  rcases List.mem_cons.1 hp with rfl | hp
  · norm_num
  · rw [List.mem_singleton.1 hp]; norm_num)
example := Mixmod.C24_ppf_partial (K := ℚ) (fun i q => (i : ℚ) + q) 3 [1/4, 1/2] (Or.inl (by decide +kernel))

end Verif.Ex.Rows
