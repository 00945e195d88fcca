import Verif.Props.Packing
import Verif.Props.PackedPdf
import Verif.Props.Sparse
import Verif.Props.SparseSearch
import Mathlib.Data.Rat.Floor

/-! # Concrete instances of the theorems on packing and sparse encoding (C25-C31, C79) -/

set_option linter.unusedSectionVars false
set_option autoImplicit false

namespace Verif.Ex.Packs

open Verif Verif.Np Verif.Model Verif.Spec Verif.Props

example := Packing.C25_linear_packing (K := ℚ) [1, 0, 3] (by decide +kernel) ⟨3, by simp, by norm_num⟩
example := Packing.C26_log_error (lf := -3) (rm := 2) (v := 1) (by norm_num) (by norm_num) (by norm_num) (by norm_num)
example := Packing.C26_log_packing_partial (lf := -3) (by norm_num) [1, 0, 3] (by simp) ⟨3, by simp, by norm_num⟩
example := Packing.C26_small_rows_wrong (1/2) (by norm_num)
example := Packing.C27_unknown .other (by intro m; simp) [[1, 2]] [] none
example := Packing.C27_matching .linear_from_rowmax [[1, 0, 3], [0, 2]] (by
  intro r hr
  rcases List.mem_cons.1 hr with rfl | hr
  · exact ⟨by simp, 3, by simp, by norm_num⟩
  · rw [List.mem_singleton.1 hr]; exact ⟨by simp, 2, by simp, by norm_num⟩) none (by norm_num)
example := PackedPdf.C79_packed_error (K := ℚ) [0, 1, 3] [1, 0, 3] ⟨by decide +kernel, rfl, by decide⟩ (by decide +kernel) ⟨3, by simp, by norm_num⟩
example := Sparse.C28_injective 3 5 3 5 (by decide) (by decide) rfl
example := Sparse.C28_index_overflow (K := ℚ) (1/10) (by norm_num)
example := Sparse.C28_default_sizes (K := ℚ) 100 (1/10) (by norm_num)

theorem basis : sparseBasis SparseSearch.oneStep [[1, 0], [0, 1]] [1, 0] 1 (1/10000000000) = .ok ([0], [1], [[1, 0], [0, 1]]) := by decide +kernel

theorem first {p : List ℚ} {v : ℚ} (h2 : sparseBasis SparseSearch.oneStep [[1, 0], [0, 1]] p 1 (1/10000000000) = .ok ([0], [v], [[1, 0], [0, 1]])) :
    SparseSearch.SelectsPrefix SparseSearch.oneStep 1 (1/10000000000) [[1, 0], [0, 1]] p := by
  intro dind dval cols h p hp
  rw [h2] at h
  simp only [Except.ok.injEq, Prod.mk.injEq] at h
  obtain ⟨rfl, _, _⟩ := h
  simp at hp; simp [hp]

example := SparseSearch.C30_dictionary_after_row (K := ℚ) SparseSearch.oneStep 1 (1/10000000000) [[1, 0], [0, 1]] [0, 1] [1] [1]
  [[0, 1], [1, 0]] (by decide +kernel)
example := SparseSearch.C30_independent_partial (K := ℚ) SparseSearch.oneStep 1 (1/10000000000) [[1, 0], [0, 1]] [[1, 0], [1, 0]] (by
  intro p hp
  rcases List.mem_cons.1 hp with rfl | hp
  · exact first basis
  · rw [List.mem_singleton.1 hp]; exact first basis) [[combineInt 32000 0], [combineInt 32000 0]] (by decide +kernel)
example := SparseSearch.C30_first_row (K := ℚ) SparseSearch.oneStep 1 (1/10000000000) [[1, 0], [0, 1]] [0, 1] [[0, 1]]
  [[combineInt 32000 1], [combineInt 32000 0]] (by decide +kernel)
example := Sparse.C31_weights_exact (K := ℚ) [4, 7] 1 [2] rfl (by decide) 2 (by decide +kernel) (by norm_num)
example := Sparse.C31_weights_partial (K := ℚ) [4, 7] 2 [1] rfl (by decide) (by decide +kernel) (by norm_num)

end Verif.Ex.Packs
