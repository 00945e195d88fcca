import Verif.Np.Interp
import Verif.Model.EvalCase
import Verif.Model.Bins

/-!
# Histogram distributions

Source: `/repo/src/qp/hist_pdf.py`.
A row whose normalisation divides by zero is represented by `none` (numpy produces `nan`/`inf` entries).
-/

namespace Verif.Model

open Verif Verif.Np

variable {K : Type*} [Field K] [LinearOrder K]

/-- `np.sum(pdfs_2d * self._hbin_widths, axis=1)` for one row, `hist_pdf.py` 79. -/
def histSum (bins row : List K) : K := Np.sum (Np.mul row (binWidths bins))

/-- `(pdfs_2d.T / sums).T` for one row, `hist_pdf.py` 80. -/
def histNormRow (bins row : List K) : Option (List K) :=
  if histSum bins row = 0 then none else some (row.map (· / histSum bins row))

/-- the state of a `hist_gen` object that matters for evaluation -/
structure Hist (K : Type*) where
  bins : List K
  /-- `_hpdfs`, one entry per PDF; `none` = non-finite row -/
  pdfs : List (Option (List K))

/-- `hist_gen.__init__`, `hist_pdf.py` 53-88. `pdfs` has one list per PDF (`reshape_to_pdf_size`, see C44).
`bins[0]` of an empty array raises `IndexError`; the array `pdfs` is rectangular, so "the last axis of `pdfs`" is the
length of each row. Without PDFs the check is on the (empty) list of rows. -/
def histInit (bins : List K) (pdfs : List (List K)) (checkInput : Bool) : Except Err (Hist K) :=
  if bins = [] then .error .IndexError
  else if pdfs.any (fun r => r.length ≠ bins.length - 1) then .error .ValueError
  else .ok ⟨bins, if checkInput then pdfs.map (histNormRow bins) else pdfs.map some⟩

/-- `_compute_cdfs` for one row, `hist_pdf.py` 90-95. -/
def histCumul (bins row : List K) : List K := 0 :: cumsum (Np.mul row (binWidths bins))

/-- `_pdf` of one row, `hist_pdf.py` 107-109 -/
def histPdf [FloorRing K] (bins row : List K) (x : K) : Except Err K := evalHist bins row x

/-- `_cdf` of one row, `hist_pdf.py` 111-117 (flat path) -/
def histCdf (bins row : List K) (x : K) : Option K := interp 0 1 (bins.zip (histCumul bins row)) x

/-- `_cdf` of one row on the product/2-D paths, where `interp1d` gets a two-dimensional `y` -/
def histCdfLin (bins row : List K) (x : K) : Option K := interpLin 0 1 (bins.zip (histCumul bins row)) x

/-- `_ppf` of one row, `hist_pdf.py` 119-130: `fill_value=(bins[0], bins[-1])` -/
def histPpf (bins row : List K) (q : K) : Option K :=
  match bins with
  | [] => none
  | b0 :: t => interp b0 ((b0 :: t).getLast (by simp)) ((histCumul bins row).zip bins) q

/-- `custom_generic_moment` of one row, `hist_pdf.py` 140-145: bin centres to the power `m` times contents, summed,
times the width of the *first* bin. -/
def histMoment (bins row : List K) (m : ℕ) : Except Err K :=
  match bins with
  | b0 :: b1 :: _ =>
    .ok (Np.sum (Np.mul ((edgeToCenter bins).map (· ^ m)) row) * (b1 - b0))
  | _ => .error .IndexError

end Verif.Model
