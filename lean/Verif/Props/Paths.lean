import Verif.Props.InterpPdf
import Verif.Props.Evaluation

/-!
# C04 (second part): the interpolation routines used on the different evaluation paths agree

On the flat path qp interpolates each row on its own (scipy then uses `np.interp`); on the product and 2-D paths it
passes a two-dimensional `y` and scipy uses its own cell formula.
-/

set_option linter.unusedSectionVars false

namespace Verif.Props.Paths

open Verif Verif.Np Verif.Model Verif.Lemmas.InterpPdf Verif.Lemmas.Hist

variable {K : Type*} [Field K] [LinearOrder K] [IsStrictOrderedRing K]

/-- **C04: same number on every path.** For strictly increasing abscissas the two interpolation routines give the same
value (or the same fill value) at every point, in range or not. -/
theorem C04_interp_routines_agree (xs ys : List K) (hs : xs.Pairwise (· < ·)) (lo hi x : K) :
    interpLin lo hi (xs.zip ys) x = interp lo hi (xs.zip ys) x := by
  have hX := strictX_zip (ys := ys) hs
  match h : xs.zip ys with
  | [] => rfl
  | (x0, y0) :: t =>
    rw [h] at hX
    unfold interpLin interp
    simp only
    split
    · rfl
    · next h0 =>
      split
      · rfl
      · next h1 => rw [linGo_eq_npInterpGo hX (not_lt.1 h0) (not_lt.1 h1)]

/-- **C04: histogram CDFs and interpolated PDFs are the same function on the flat and on the product path**, so the
dispatcher may be taken with a single evaluation function as in `C01`-`C03`. -/
theorem C04_paths_same_function (xs ys p : List K) (hs : xs.Pairwise (· < ·)) :
    histCdfLin xs p = histCdf xs p ∧ interpPdfLin xs ys = interpPdf xs ys := by
  constructor
  · funext x; exact C04_interp_routines_agree xs _ hs 0 1 x
  · funext x; exact C04_interp_routines_agree xs ys hs 0 0 x

/-- **C01 and C04 for an interpolated ensemble, end to end**: with the routines the code really uses on each path (`np.interp`
when nothing is factored, the scipy cell formula otherwise), `ens.pdf(x)` for increasing points returns in row `i`,
column `j` the density of PDF `i` at `x[j]`. -/
theorem C01_interp_ensemble_partial (xs : List K) (rows : List (List K)) (hs : xs.Pairwise (· < ·)) (x : List K)
    (hx : x.Pairwise (· < ·)) :
    evalShared (dispatch (fun r v => interpPdf xs (rows.getD r []) v) (fun r v => interpPdfLin xs (rows.getD r []) v)
        (fun r v => interpPdfLin xs (rows.getD r []) v)) rows.length x =
      .ok (rows.map fun ys => x.map fun v => interpPdf xs ys v) := by
  have h : (fun r v => interpPdfLin xs (rows.getD r []) v) = fun (r : ℕ) v => interpPdf xs (rows.getD r []) v := by
    funext r; exact (C04_paths_same_function xs (rows.getD r []) [] hs).2
  rw [h, Evaluation.C01_shared_grid_partial _ _ _ (Or.inl hx)]
  congr 1
  unfold Evaluation.SharedSpec
  apply List.ext_getElem
  · simp
  · intro i h1 h2
    simp at h1
    simp [h1]

example : ([0, 1, 3] : List ℚ).Pairwise (· < ·) := by decide +kernel
example : interpLin 0 0 (([0, 1, 3] : List ℚ).zip [0, 1/2, 1/4]) 2 = some (3/8) := by decide +kernel

end Verif.Props.Paths
