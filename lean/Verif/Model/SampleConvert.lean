import Verif.Model.Sampling
import Verif.Model.Convert
import Verif.Model.Mixmod
import Verif.Model.Kde

/-!
# Conversions that draw samples

Source: `/repo/src/qp/conversion_funcs.py` 68-88 (`extract_samples`), 116-149 (`extract_hist_samples`), 202-242 (`extract_mixmod_fit_samples`),
followed by the creation methods of the target class: `hist_pdf.py` 53-88, `mixmod_pdf.py` 42-68, `spline_pdf.py` 209-229. The PDFs of the
result are lists here (row `i` of the tables); keyword arguments are optional arguments. `core` is the `_ppf` of the source class, `U` the
random numbers (`Sampling.lean`).
-/

set_option linter.unusedSectionVars false
set_option autoImplicit false

namespace Verif.Model

open Verif Verif.Np

/-- `kwargs.pop("size", 1000)` -/
def sizeArg (size : Option ℕ) : ℕ := size.getD 1000

section
variable {K : Type} [Field K] [LinearOrder K]

/-- `convert(ens, "hist", method="samples", bins=bins, size=size)`: `extract_hist_samples`, then `hist_gen`, which normalises the counts. The bins are checked
before anything is drawn. A row without counts becomes `nan` (`none`). -/
def histFromSamples (core : Pts K → Pts ℕ → Except Err (List K)) (shape : List ℕ) (U : ℕ → ℕ → K) (bins : Option (List K)) (size : Option ℕ) :
    Except Err (List (Option (List K))) :=
  match bins with
  | none => .error .ValueError
  | some b => do
    let samples ← ensRvs core shape (some (sizeArg size)) U
    let counts ← histVectorize b samples (sizeArg size)
    .ok (counts.map fun c => histNormRow b (c.map fun (n : ℕ) => (n : K)))

/-- one call of `mixmod_helper`, `conversion_funcs.py` 227-235: weights, means and widths. `fit i n s` stands for the mixture that scikit-learn fits to the
samples `s` with `n` components in call number `i` (its starting point is random); it refuses fewer samples than components (`ValueError`). -/
def mixHelper {γ : Type} (fit : ℕ → ℕ → List K → γ) (ncomps : ℕ) (i : ℕ) (s : List K) : Except Err γ :=
  if s.length < ncomps then .error .ValueError else .ok (fit i ncomps s)

/-- `convert(ens, "mixmod", ncomps=ncomps, nsamples=nsamples)`: `extract_mixmod_fit_samples`, then `mixmod_gen`. One fit for every row of samples; the names
in the signature of `np.vectorize` are the sizes of the dimensions, which are always consistent. -/
def mixFromSamples (core : Pts K → Pts ℕ → Except Err (List K)) (shape : List ℕ) (U : ℕ → ℕ → K) (fit : ℕ → ℕ → List K → List K × List K × List K)
    (ncomps nsamples : Option ℕ) : Except Err (List (Option (List K) × List K × List K)) := do
  let samples ← ensRvs core shape (some (sizeArg nsamples)) U
  let fits ← samples.zipIdx.mapM fun p => mixHelper fit (ncomps.getD 3) p.2 p.1
  let ws ← mixInit (fits.map fun f => f.1)
  .ok (ws.zip (fits.map fun f => (f.2.1, f.2.2)))

end

/-- `convert(ens, "spline", method="samples", xvals=xvals, size=size)`: `extract_samples` (the abscissae are popped after the samples have been drawn,
`KeyError` without them), then `create_from_samples`. -/
noncomputable def splConvertSamples (core : Pts ℝ → Pts ℕ → Except Err (List ℝ)) (shape : List ℕ) (U : ℕ → ℕ → ℝ) (splrep : List ℝ → List ℝ → SplRow ℝ)
    (xvals : Option (List ℝ)) (size : Option ℕ) : Except Err (List (SplRow ℝ)) := do
  let samples ← ensRvs core shape (some (sizeArg size)) U
  match xvals with
  | none => .error .KeyError
  | some xs => splFromSamples splrep xs samples

end Verif.Model
