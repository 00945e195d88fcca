import Verif.Props.PitMeta
import Verif.Props.ConvertQuant
import Verif.Props.Registry
import Verif.Props.Convert
import Verif.Props.ConvertGrid
import Verif.Props.MetricGrid
import Verif.Props.Brier
import Verif.Props.BrierChunks
import Verif.Props.CdeLoss
import Verif.Props.GoodnessOfFit
import Verif.Props.Gof
import Verif.Props.Divergence
import Verif.Props.Moments
import Verif.Props.PointStats
import Verif.Props.Pit
import Verif.Props.MetricRegistry
import Verif.Props.Profile
import Verif.Props.AndersonDarling
import Verif.Props.Front
import Verif.Props.Spline
import Verif.Props.SparsePdf
import Mathlib.Data.Rat.Floor

/-!
# Concrete instances of the theorems on classes, conversion and metrics (C54-C57, C60-C83)

Each `example` applies a theorem to data: the kernel checks that the hypotheses hold there, so none of the theorems is vacuous.
-/

set_option linter.unusedSectionVars false
set_option autoImplicit false

namespace Verif.Ex.Metrics

open Verif Verif.Np Verif.Model Verif.Spec Verif.Props

/-- the value of a result known to be a value -/
theorem ok_getD {α : Type} {x : Except Err α} (h : x.isOk = true) (d : α) : x = .ok (x.toOption.getD d) := by
  cases x with
  | error e => simp [Except.isOk, Except.toBool] at h
  | ok v => rfl

/-! ### C60-C65 -/

/-- limits 0 and 3, spacing 1 -/
def grid : MGrid ℚ := ⟨[0, 3/2, 3], 3, 3/2, [-3/4, 3/4, 9/4, 15/4], (0, 3)⟩

theorem grid_ok : gridParams (0 : ℚ) 3 1 = .ok grid := by decide +kernel

/-- two densities on `[0, 3]` -/
def two : FnEns ℚ := ⟨[2], [fun _ => 1/3, fun x => x * 2 / 9]⟩

theorem inside : Metrics.InLimits (0 : ℚ) 3 [1, 5/2] := by
  intro t ht
  simp only [List.mem_cons, List.not_mem_nil, or_false] at ht
  rcases ht with rfl | rfl <;> norm_num

example := Metrics.C60_grid_partial (0 : ℚ) 3 1 grid (by norm_num) grid_ok
example := Metrics.C60_reversed (3 : ℚ) 0 (-1) _ (by norm_num) (ok_getD (by decide +kernel) grid)
example := Metrics.C61_one_hot (0 : ℚ) 3 1 grid (by norm_num) grid_ok (5/2) (by norm_num) (by norm_num)
example := Metrics.C61_rejects two [1] 0 3 1 (Or.inl (by decide))
example := Metrics.C61_encoding two [1, 5/2] 0 3 1 grid (by norm_num) grid_ok rfl inside (by simp)
example := Metrics.C62_zero_iff (K := ℚ) (n := 2) (m := 2) (by decide) (fun _ _ => 1) (fun i j => if i = j then 1 else 0)
example := Metrics.C62_range (K := ℚ) (n := 2) (m := 2) (by decide) (fun _ _ => 1/2) (fun i => Pi.single i 1) (by norm_num) (by simp)
  (fun i => ⟨i, rfl⟩)
example := Metrics.C62_shape (⟨[2], [1, 2]⟩ : Arr ℚ) ⟨[3], [1, 2, 3]⟩ (by decide)
example := Metrics.C63_chunks_partial [(two, [1, 5/2]), (two, [0, 1])] 0 3 1 (by simp) (by
  intro c hc
  simp only [List.mem_cons, List.not_mem_nil, or_false] at hc
  rcases hc with rfl | rfl
  · exact ⟨rfl, rfl, inside⟩
  · refine ⟨rfl, rfl, fun t ht => ?_⟩
    simp only [List.mem_cons, List.not_mem_nil, or_false] at ht
    rcases ht with rfl | rfl <;> norm_num) (by
  intro c hc
  simp only [List.mem_cons, List.not_mem_nil, or_false] at hc
  rcases hc with rfl | rfl <;> simp)
example := Metrics.C63_single_fails (K := ℚ) (fun _ => 1/3) 1 0 3 1 grid grid_ok (by norm_num) (by norm_num)
example := Metrics.C63_single_flat (K := ℚ) (fun _ => 1/3) 1 0 3 1 grid grid_ok (by norm_num) (by norm_num)
example := Metrics.C64_value (K := ℚ) [0, 1, 2] (two, [1, 5/2]) (by simp) ⟨rfl, rfl⟩ (by simp)
example := Metrics.C64_chunks (K := ℚ) [0, 1, 2] [(two, [1, 5/2]), (two, [0, 1])] [(two, [0, 1]), (two, [1, 5/2])] (by simp) (by simp)
  (by
    intro c hc
    simp only [List.mem_cons, List.not_mem_nil, or_false] at hc
    rcases hc with rfl | rfl <;> exact ⟨rfl, rfl⟩) (.swap _ _ _)
example := Metrics.C64_errors (K := ℚ) [0, 1, 2] two [1] rfl
example := Metrics.C65_last_only (γ := ℚ) (δ := ℚ) (fun l : List ℚ => .ok l.length) (fun l => .ok l.length) [[1], [2, 3]] [4] (fun _ _ => ⟨_, rfl⟩)

/-! ### C66-C72 -/

/-- the uniform distribution on `[0, 1]` -/
def uni : ℚ → ℚ := fun x => max 0 (min x 1)

theorem uni_cdf : Metrics.IsCdf uni where
  mono x y h := max_le_max le_rfl (min_le_min h le_rfl)
  nonneg x := le_max_left _ _
  le_one x := max_le (by norm_num) (min_le_right _ _)

theorem uni_cont (x : ℚ) : Metrics.NoJumpAt uni x := by
  intro ε hε
  refine ⟨x - ε / 2, by linarith, ?_⟩
  unfold uni
  rcases le_total x 1 with h | h <;> rcases le_total (x - ε / 2) 1 with h' | h' <;>
    rcases le_total 0 x with h2 | h2 <;> rcases le_total 0 (x - ε / 2) with h3 | h3 <;>
    simp only [min_eq_left h, min_eq_right h, min_eq_left h', min_eq_right h', max_eq_right h2, max_eq_left h2, max_eq_right h3,
      max_eq_left h3, max_eq_right (zero_le_one (α := ℚ))] <;> linarith

theorem ks_ok : ksStat uni [1/4, 1/8] = .ok (3/4) := by decide +kernel

example := Metrics.C66_bounds uni [1/4, 1/8] (3/4) ks_ok
example := Metrics.C66_order uni [1/4, 1/8] [1/8, 1/4] (.swap _ _ _)
example := Metrics.C66_upper uni uni_cdf [1/4, 1/8] (3/4) ks_ok (1/2)
example := Metrics.C66_largest_partial uni uni_cdf [1/4, 1/8] (fun x _ => uni_cont x) (3/4) ks_ok
example := Metrics.C66_exact uni uni_cdf [1/4, 1/8] (3/4) ks_ok
example := Metrics.C67_order uni [1/4, 1/8] [1/8, 1/4] (.swap _ _ _)

theorem cvm_ok : ∃ w, cvmStat uni [1/4, 1/8] = .ok w := ⟨_, rfl⟩

example := Metrics.C67_lower uni [1/4, 1/8] _ rfl
example := Metrics.C67_lower_iff uni [1/4, 1/8] _ rfl
example := Metrics.C67_upper uni (fun x => ⟨uni_cdf.nonneg x, uni_cdf.le_one x⟩) [1/4, 1/8] _ rfl

theorem moment_ok : (calculateMoment two 1 0 3 1).isOk = true := by decide +kernel
theorem momentPartial_ok : (momentPartial two 1 0 3 1).isOk = true := by decide +kernel

example := Metrics.C70_relation two 1 0 3 1 _ (ok_getD moment_ok [])
example := Metrics.C70_equal_iff two 1 0 3 1 _ (ok_getD moment_ok [])
example := Metrics.C70_linear_partial [2] two.fns two.fns (2 : ℚ) 3 1 0 3 1 _ _ _ _ (ok_getD moment_ok []) (ok_getD moment_ok [])
  (ok_getD momentPartial_ok []) (ok_getD momentPartial_ok [])
example := Metrics.C70_uniform_mass (0 : ℚ) 3 1 grid grid_ok (by norm_num)
example := Metrics.C71_rate uni uni_cdf (1/4) (1/2) (by norm_num)
example := Metrics.C71_mono uni uni_cdf (1/4) (1/2) 0 1 (by norm_num) (by norm_num)
example := Metrics.C71_point_mono ([0, 1/10, 1/2] : List ℚ) (1/20) (1/5) (by norm_num)
example := Metrics.C72_order (K := ℚ) (ez := [0, 1]) (ez' := [1, 0]) (.swap _ _ _)
example := Metrics.C72_objects (K := ℚ) (ps := [(0, 1), (1, 2)]) (ps' := [(1, 2), (0, 1)]) (.swap _ _ _)
example := Metrics.C72_exists (K := ℚ) [0, 1] (by simp)

example := Metrics.C71_point (K := ℚ) [0, 1/100, 1/50, 3/100, 5] (1/5) (by decide +kernel)
example := Metrics.C72_range (K := ℚ) [1/2, 0, 3/2, -1/2] (875/1349) (-1) 2 (by decide +kernel) (by decide +kernel)

/-! ### C68, C69 -/

/-- densities over the reals -/
noncomputable def realOne : FnEns ℝ := ⟨[2], [fun _ => 1/2, fun x => x / 2]⟩
noncomputable def realTwo : FnEns ℝ := ⟨[2], [fun x => x / 2, fun _ => 1/2]⟩

example := Metrics.C68_self realOne 0 2 1 _ Metrics.grid_0_2_1
example := Metrics.C68_shape realOne ⟨[1], [fun _ => 1]⟩ 0 2 1 (by simp [realOne])
example := Metrics.C68_rows_partial realOne realOne 0 2 1 _ Metrics.grid_0_2_1 rfl (by
  intro v hv
  simp only [realOne, List.zipWith_cons_cons, List.zipWith_nil_left, List.mem_cons, List.not_mem_nil, or_false] at hv
  rcases hv with rfl | rfl <;> simp [Metrics.kldOn])
example := Metrics.C68_nonneg realOne realOne 0 2 1 _ (Metrics.C68_self realOne 0 2 1 _ Metrics.grid_0_2_1)
example := Metrics.C68_gibbs [0, 1, 2] 1 zero_le_one (fun _ => 1/2) fun x => x / 2
example := Metrics.C69_metric [0, 1, 2] 3 (by decide) (fun _ => 1/2) (fun x => x / 2) fun _ => 1
example := Metrics.C69_ensembles realOne realTwo realOne 0 2 1 rfl rfl rfl rfl rfl ⟨_, Metrics.grid_0_2_1⟩

/-! ### C73-C76 -/

/-- CDFs of four objects -/
def pitCdfs : List (ℚ → Option ℚ) := [fun _ => none, fun z => some z, fun z => some z, fun z => some (z / 2)]

theorem pit_ok : pitInit pitCdfs [3, 1/2, 1/2, 1] [0, 1/2, 2/3, 1] = .ok ([0, 1/2, 1/2, 1/2], [1/2], [1/2]) := by decide +kernel

example := Metrics.C73_samples pitCdfs _ _ _ _ _ rfl pit_ok
example := Metrics.C73_few_objects [fun z : ℚ => some z] [1/2] [0, 1/2, 1] rfl
example := Metrics.C73_distribution_partial pitCdfs _ _ _ _ _ rfl (by decide +kernel) pit_ok
example := Metrics.C74_own_partial (K := ℚ) [[1/4, 3/4], [0, 1/2]] 2 [⟨id, id, id⟩, ⟨fun x => x / 2, id, id⟩] "ks" _ (by decide)
  (by decide +kernel) rfl (Or.inl rfl) (by decide)
example := Metrics.C74_by_name_partial (K := ℚ) [[1/4, 3/4], [0, 1/2]] 2 [⟨id, id, id⟩] (by decide) (by decide +kernel) (Or.inr rfl) (by decide)
example := Metrics.C74_accepted (K := ℚ) [[1/4, 3/4], [0, 1/2]] 2 [⟨id, id, id⟩] "ks" _ (by decide) (by decide +kernel) rfl (by decide)
example := Metrics.C74_scalar_fails (K := ℚ) (1/2) [⟨id, id, id⟩] "ks" (by simp [gofStat])
example := Profile.C76_entries [1/2, 0, 5] [3, 7, 1] [0, 1, 2] true (by simp) rfl
example := Profile.C76_one_bin [0, 1, 2] (by simp) (1/2)
example := Profile.C76_assign_partial [1/2, 0, 5] [3, 7, 1] [0, 1, 2] true (by simp) rfl (by norm_num)
example := Profile.C76_mean false [3, 7] _ _ 3 7 rfl (by norm_num)
example := Profile.C76_spread false [3, 7] _ _ rfl
example := Profile.C76_error_le [3, 7] _ _ _ _ rfl rfl

example := MetricRegistry.C75_listed MetricRegistry.qpTree false [] (Or.inl rfl)
example := MetricRegistry.C75_create MetricRegistry.qpTree "brier" true [("old", "Old")] (Or.inr rfl)
example := MetricRegistry.C75_last_wins [.mk "KLD" (some (some "kld")) [.mk "FastKLD" none []]] "kld" true [] (Or.inl rfl)
  [("KLD", some "kld")] [] "FastKLD" "kld" (by decide +kernel) (by decide) (by decide +kernel) (by simp)
example := MetricRegistry.C75_stale MetricRegistry.qpTree [("old", "Old")] (by simp) "old"

/-! ### C54-C57 -/

example := Registry.C54_failure_changes_nothing (addClasses Factory.empty Registry.exHist) ⟨5, some "b", [], none⟩ .KeyError (by
  rw [Registry.C54_outcome _ _ rfl]
  exact if_pos ⟨⟨4, some "b", [(.creation, some "xy", 9)], none⟩, by simp [Registry.exHist], rfl, rfl⟩)
example := Registry.C55_default [(none, 1), (some "xy", 3)] [(none, 2)] (some "typo") 1 rfl (by simp)

/-- a factory with one class -/
def evals : Evals ℚ := ⟨ensArr histCdfElem, ensArr histCdfElem, ensArr histCdfElem⟩
def reg1 : ClsReg ℚ := [("hist", histPy evals)]

example := Convert.C56_agree_partial reg1 (histPy evals) (ExEns.histEns none) "hist" none [] rfl ⟨_, List.mem_cons_self ..⟩
example := Convert.C56_agree_iff reg1 (histPy evals) (ExEns.histEns none) "hist" none [] rfl
example := Convert.C56_unknown_class reg1 (ExEns.histEns none) "histo" none [] (by simp [reg1])
example := Convert.C56_no_extraction ([("half", ⟨"half", rowCreate histCls, [], []⟩)] : ClsReg ℚ) _ (ExEns.histEns none) "half" none [] rfl rfl

theorem even : Bins.Uniform ([0, 1, 2] : List ℚ) := ⟨1, fun i a b ha hb => by
  match i with
  | 0 | 1 => simp at ha hb; subst ha hb; norm_num
  | i + 2 => simp at hb⟩

/-- two histograms on equal bins converted on their own bins: the distribution functions are kept -/
theorem kept : ∃ e', convertTo (histPy evals) ⟨rowCreate histCls, rowCreate histCls, Convert.eqFrozen, none⟩ none [("bins", .arr (vec [0, 1, 2]))] = .ok e' ∧
    ensArr histCdfElem e'.frozen (.arr (vec [0, 1, 2])) = ensArr histCdfElem Convert.eqFrozen (.arr (vec [0, 1, 2])) :=
  Convert.C57_ensemble_partial evals ⟨rowCreate histCls, rowCreate histCls, Convert.eqFrozen, none⟩ [0, 1, 2] (by decide) (by decide +kernel) even
    (fun i x => if i = 0 then max 0 (min 1 (x / 2)) else max 0 (min 1 x)) (by simp [Convert.eqFrozen, Lemmas.frozenOf])
    (by decide +kernel)
    (by rintro i a ⟨⟩; split <;> decide +kernel) (by rintro i a ⟨⟩; split <;> decide +kernel)

example : ∃ e', convertTo (histPy evals) ⟨rowCreate histCls, rowCreate histCls, Convert.eqFrozen, none⟩ none [("bins", .arr (vec [0, 1, 2]))] = .ok e' ∧
    e'.ancil = none := by
  obtain ⟨e', h, -⟩ := kept
  exact ⟨e', h, Convert.C56_no_ancil _ _ _ _ _ h⟩
example := Convert.C57_exact (K := ℚ) [0, 1, 3] [1/5, 2/5] (fun x => x / 3) (by decide) (by decide +kernel) (by decide +kernel)

/-! ### C78-C83 -/

example := AndersonDarling.C78_order Real.log (fun x => Real.log (1 - x)) [1/4, 1/8] [1/8, 1/4] (.swap _ _ _)
example := AndersonDarling.C78_lower id [1/4, 1/8] (by norm_num)
example := AndersonDarling.C78_positive id [1/4, 1/8] (by simp) (by norm_num)

theorem inv (i : ℕ) : Front.Inverse (histCdf [0, 1, (2 : ℚ)] (if i = 0 then [1/4, 3/4] else [1/2, 1/2]))
    (histPpf [0, 1, (2 : ℚ)] (if i = 0 then [1/4, 3/4] else [1/2, 1/2])) := by
  split
  · exact Front.inverse_hist _ _ ⟨by decide +kernel, rfl, by decide⟩ (by decide +kernel) (by decide +kernel)
  · exact Front.inverse_hist _ _ ⟨by decide +kernel, rfl, by decide⟩ (by decide +kernel) (by decide +kernel)

example := Front.C80_ppf_shared_partial (K := ℚ) (fun i q => some ((i : ℚ) + q)) 2 [1/10, 2/10] (Or.inl (by decide +kernel))
example := Front.C80_isf_shared_partial (K := ℚ) (fun i q => some ((i : ℚ) + q)) 2 [2/10, 1/10] (Or.inl (by decide +kernel))
example := Front.C80_isf_reversed (K := ℚ) (fun i q => some ((i : ℚ) + q)) 2 (by decide) [1/10, 2/10] (by decide +kernel) (by decide +kernel)
example := Front.C80_median _ _ 2 fun i _ => inv i
example := Front.C80_interval _ _ 2 fun i _ => inv i
example := Front.C80_sf_isf _ _ [1/4, 1/2] (fun i _ => inv i) (by decide +kernel)
example := Front.inverse_irregular (-1 : ℚ) 7 [0, 1, 3] [1, 1, 1] [1/3, 1/3, 1/3] ⟨by decide +kernel, rfl, by decide⟩ (by decide +kernel)
  (by decide +kernel)
example := Spline.C81_splint_integral (Spline.flat 2) (Spline.flat_ok 2 two_pos) 0 1 (by simp [Spline.flat, SplRow.lo, SplRow.knot])
example := Spline.C81_cdf_partial [Spline.flat 2] 0 _ rfl (Spline.flat_ok 2 two_pos) 1
example := Spline.C81_cdf_mono [Spline.flat 2] 0 _ rfl (Spline.flat_ok 2 two_pos) (by simp [Spline.flat]) 1 3 (by norm_num)
example := Spline.C81_pdf_points [Spline.flat 2, Spline.flat 1] [[0], [1]] rfl
example := Spline.C81_pdf_outside (Spline.flat 2) (Spline.flat_ok 2 two_pos) 5
example := Spline.C82_total_exact [Spline.flat 2, Spline.flat 1] 0 2 1 _ rfl (Spline.flat_ok 1 one_pos) 3 (by simp [Spline.flat, SplRow.hi, SplRow.knot, SplRow.last])
example := Spline.C82_wrong 3 (by norm_num)
example := SparsePdf.C83_normalised (K := ℚ) SparsePdf.basis3 [0, 1, 2] (by decide +kernel) (by decide) (by decide +kernel)
  [combineInt 32000 0, combineInt 16000 2] [8/17, 8/17, 10/17] (by decide +kernel)
example := SparsePdf.C83_padding (K := ℚ) SparsePdf.basis3 [0, 1, 2] _ rfl (by decide +kernel) (combineInt 32000 0) [combineInt 16000 2] 2
example := SparsePdf.C83_nonneg_partial (K := ℚ) SparsePdf.basis3 [0, 1, 2] (by decide +kernel) (by decide +kernel)
  [combineInt 32000 0, combineInt 16000 2] (by decide +kernel) [8/17, 8/17, 10/17] (by decide +kernel)

/-! ### C86 -/

example := Metrics.C86_outlier (K := ℚ) ConvertQuant.lookupSpl ConvertQuant.lookupSpl_knots [some, some, some] [1/2, 1/6, 5/6] [1/4, 1/2, 3/4]
  [1/2, 1/6, 5/6] [0, 1/4, 1/2, 3/4, 1] [1/6, 1/3, 1/2, 2/3, 5/6] rfl (by decide +kernel) (by decide +kernel) (by decide +kernel)

end Verif.Ex.Metrics
