import Verif.Props.StreamMetrics
import Verif.Props.ConvertGrid

/-!
# A case for the theorems on metrics of two files read in step (C119)

Two files of three histograms of real numbers.
-/

set_option linter.unusedSectionVars false
set_option autoImplicit false

namespace Verif.Props.StreamReal

open Verif Verif.Np Verif.Model Verif.Spec Verif.Lemmas Verif.Props.State Verif.Props.Chunks Verif.Props.Stream Verif.Props.StreamMetrics Verif.Props.Metrics Verif.Props.Convert

noncomputable def data : Dict ℝ := [("bins", .arr (vec [0, 1])), ("pdfs", .arr ⟨[3] ++ [[(0 : ℝ), 1].length - 1], nums ((List.range [3].prod).map fun _ => [(1 : ℝ)]).flatten⟩)]
noncomputable def ens : Ens ℝ := ⟨rowCreate histCls, rowCreate histCls, frozenOf histCls [("bins", vec [0, 1])] [1] ((List.range [3].prod).map fun _ => [nums [1]]) [3], none⟩

theorem reach : Reach .hist ens := by
  have h : rowCreate histCls data = .ok ens.frozen := hist_create [0, 1] (by simp) [3] (fun _ => [1]) (fun _ => [1]) (fun _ _ => rfl) fun _ _ => by
    simp [histNormRow, histSum, Np.sum, Np.mul, binWidths, Np.diff]
  refine .made (data := data) (ancil := none) ⟨?_, ?_, ?_⟩
  · show mkEns (rowCreate histCls) (rowCreate histCls) data none = _
    simp [mkEns, h, checkArrayShapes, Bind.bind, Except.bind]
    rfl
  · intro v hv
    rw [show Dict.get? data "bins" = some (.arr (vec [0, 1])) from rfl] at hv
    obtain rfl := Option.some.inj hv
    simp [vec, Val.toArr, nums]
  · intro p hp
    simp only [data, List.mem_cons, List.not_mem_nil, or_false] at hp
    rcases hp with rfl | rfl <;> simp [Val.toArr, vec, Arr.Wf, nums]

theorem log_two : 0 < Real.log 2 := Real.log_pos (by norm_num)

/-- constant densities 1 and 1/2: the divergence of each of the three PDFs is `4 log 2` -/
theorem kld_case : calculateKld (fnsOf (fun _ _ _ => 1) ens.frozen) (fnsOf (fun _ _ _ => 1 / 2) ens.frozen) 0 2 1 = .ok [4 * Real.log 2, 4 * Real.log 2, 4 * Real.log 2] := by
  have heps : machEps ≤ 1 / 2 := by unfold machEps; norm_num
  have m1 : max (1 : ℝ) machEps = 1 := max_eq_left (by linarith)
  have m2 : max (1 / 2 : ℝ) machEps = 1 / 2 := max_eq_left heps
  have l2 : Real.log (1 / 2) = - Real.log 2 := by rw [one_div, Real.log_inv]
  have k1 : kldOn [0, 2] 2 (fun _ => 1) (fun _ => 1 / 2) = 4 * Real.log 2 := by
    simp only [kldOn, m1, m2, l2, Real.log_one, List.map_cons, List.map_nil, List.sum_cons, List.sum_nil]; ring
  have hf : ∀ v : ℝ, (fnsOf (fun _ _ _ => v) ens.frozen).fns = [fun _ => v, fun _ => v, fun _ => v] := fun v => rfl
  rw [kld_unfold (p := fnsOf (fun _ _ _ => 1) ens.frozen) (q := fnsOf (fun _ _ _ => 1 / 2) ens.frozen) rfl grid_0_2_1, hf, hf]
  simp only [List.zipWith_cons_cons, List.zipWith_nil_left, k1]
  rw [if_neg]
  rintro ⟨v, hv, hn⟩
  simp only [List.mem_cons, List.not_mem_nil, or_false, or_self] at hv
  have := log_two
  rw [hv] at hn
  linarith

/-- the files read in chunks of two PDFs -/
example (rank size : ℕ) := C119_kld_partial (registered_std (K := ℝ)) reach reach (Tables.holds_buildTables ens) (Tables.holds_buildTables ens) (fun _ h => by cases h) (fun _ h => by cases h) rfl 2 size
  (by norm_num) _ _ 0 2 1 _ kld_case ⟨_, List.mem_cons_self, by
    have h2 := Real.one_sub_inv_le_log_of_pos (show (0 : ℝ) < 2 by norm_num)
    have heps : machEps ≤ 1 / 2 := by unfold machEps; norm_num
    intro h
    norm_num at h2
    linarith⟩ rank

end Verif.Props.StreamReal
