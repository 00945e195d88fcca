import Verif.Model.SampleConvert
import Verif.Model.Gof

/-!
# Where random numbers come from

Sources: `/repo/src/qp/ensemble.py` 475-489 (`rvs`), `/repo/src/qp/pdf_gen.py` 312-318 (`_rvs`), `/repo/src/qp/conversion_funcs.py` 86
(`extract_samples`), 140 (`extract_hist_samples`), 222-237 (`extract_mixmod_fit_samples`), `/repo/src/qp/metrics/metrics.py` 455-462
(`calculate_goodness_of_fit`). What `random_state` means is from the source of scipy (`rv_generic.rvs`, `check_random_state`) and what
`uniform(size=(n, m))` does is from numpy: the array is filled row after row. A generator is an arbitrary infinite sequence with a position.
Classes with their own `_rvs` (those of scipy itself) are not followed, nor are seeds that numpy refuses.
-/

set_option linter.unusedSectionVars false
set_option autoImplicit false

namespace Verif.Model

open Verif Verif.Np

/-- a generator of random numbers: what it would produce from its beginning, and how much it has produced -/
structure Gen (K : Type) where
  stream : ℕ → K
  pos : ℕ

/-- the state that random functions read and change: generator number 0 is the global one of numpy (`np.random`), the others are objects that the
user has made; `seeded s` is what a new generator with seed `s` produces -/
structure World (K : Type) where
  seeded : ℕ → ℕ → K
  gens : ℕ → Gen K

/-- the values of the argument `random_state`: `None`, an integer, a generator object -/
inductive RandArg where
  | none
  | seed (s : ℕ)
  | obj (r : ℕ)
  deriving DecidableEq

section
variable {K β : Type}

/-- `check_random_state`: the generator that is used -/
def genOf (w : World K) : RandArg → Gen K
  | .none => w.gens 0
  | .seed s => ⟨w.seeded s, 0⟩
  | .obj r => w.gens r

/-- generator `r` has produced `k` more numbers -/
def World.step (w : World K) (r k : ℕ) : World K :=
  { w with gens := fun q => if q = r then ⟨(w.gens q).stream, (w.gens q).pos + k⟩ else w.gens q }

/-- `k` numbers have been drawn: a generator made from a seed is forgotten -/
def advance (w : World K) : RandArg → ℕ → World K
  | .none, k => w.step 0 k
  | .seed _, _ => w
  | .obj r, k => w.step r k

/-- `generator.uniform(size=(n, m))`: entry `(i, j)` -/
def drawsOf (g : Gen K) (m : ℕ) : ℕ → ℕ → K := fun i j => g.stream (g.pos + (i * m + j))

/-- `np.random.seed(s)` -/
def seedGlobal (s : ℕ) (w : World K) : World K :=
  { w with gens := fun q => if q = 0 then ⟨w.seeded s, 0⟩ else w.gens q }

/-- how many numbers `rvs` draws: none if it raises before (`ensRvs`) -/
def rvsCount (shape : List ℕ) (size : Option ℕ) : ℕ :=
  if !rvsSizeOk (shape ++ [1]) [shape.prod, size.getD 0] then 0 else shape.prod * size.getD 0

/-- `ens.rvs(size, random_state=arg)`, `ensemble.py` 475-489 and `pdf_gen.py` 312-318 -/
def rvsR (core : Pts K → Pts ℕ → Except Err (List β)) (shape : List ℕ) (size : Option ℕ) (arg : RandArg) (w : World K) :
    Except Err (List (List β)) × World K :=
  (ensRvs core shape size (drawsOf (genOf w arg) (size.getD 0)), advance w arg (rvsCount shape size))

variable [Field K] [LinearOrder K]

/-- `convert(ens, "hist", method="samples", bins=bins, size=size, random_state=arg)`, `conversion_funcs.py` 116-149: `rvs` is called without
`random_state`; nothing is drawn without bins -/
def histR (core : Pts K → Pts ℕ → Except Err (List K)) (shape : List ℕ) (bins : Option (List K)) (size : Option ℕ) (_arg : RandArg) (w : World K) :
    Except Err (List (Option (List K))) × World K :=
  (histFromSamples core shape (drawsOf (genOf w .none) (sizeArg size)) bins size,
    if bins.isNone then w else advance w .none (rvsCount shape (some (sizeArg size))))

/-- `calculate_goodness_of_fit(estimate, reference, name, m, arg)`, `metrics.py` 383-462: an unknown name is refused before anything is drawn -/
def gofR (core : Pts K → Pts ℕ → Except Err (List K)) (shape : List ℕ) (refs : List (RefPdf K)) (name : String) (m : ℕ) (arg : RandArg)
    (w : World K) : Except Err (List K) × World K :=
  match gofStat (K := K) name with
  | none => (.error .KeyError, w)
  | some _ => ((rvsR core shape (some m) arg w).1.bind fun s => goodnessOfFit s m refs name, (rvsR core shape (some m) arg w).2)

/-- the loop of `np.vectorize` over `mixmod_helper`, `conversion_funcs.py` 227-237. `fit g n s` is the mixture of `n` components that scikit-learn fits
to the samples `s` and how many numbers it takes from `g`, the global generator: `GaussianMixture(n_components=n_comps)` is made without a
`random_state`. It refuses fewer samples than components. -/
def mixLoop {γ : Type} (fit : Gen K → ℕ → List K → γ × ℕ) (n : ℕ) : List (List K) → World K → Except Err (List γ) × World K
  | [], w => (.ok [], w)
  | s :: rest, w =>
    if s.length < n then (.error .ValueError, w)
    else
      let r := fit (w.gens 0) n s
      let t := mixLoop fit n rest (w.step 0 r.2)
      (t.1.map (r.1 :: ·), t.2)

/-- `convert(ens, "mixmod", ncomps=ncomps, nsamples=nsamples, random_state=arg)`, `conversion_funcs.py` 222-241, up to the fitted mixtures -/
def mixR {γ : Type} (core : Pts K → Pts ℕ → Except Err (List K)) (shape : List ℕ) (fit : Gen K → ℕ → List K → γ × ℕ) (ncomps nsamples : Option ℕ)
    (arg : RandArg) (w : World K) : Except Err (List γ) × World K :=
  match rvsR core shape (some (sizeArg nsamples)) arg w with
  | (.error e, w') => (.error e, w')
  | (.ok s, w') => mixLoop fit (ncomps.getD 3) s w'

end

/-- `convert(ens, "spline", method="samples", xvals=xvals, size=size, random_state=arg)`, `conversion_funcs.py` 68-88: `rvs` is called without
`random_state` -/
noncomputable def splR (core : Pts ℝ → Pts ℕ → Except Err (List ℝ)) (shape : List ℕ) (splrep : List ℝ → List ℝ → SplRow ℝ) (xvals : Option (List ℝ))
    (size : Option ℕ) (_arg : RandArg) (w : World ℝ) : Except Err (List (SplRow ℝ)) × World ℝ :=
  (splConvertSamples core shape (drawsOf (genOf w .none) (sizeArg size)) splrep xvals size, advance w .none (rvsCount shape (some (sizeArg size))))

end Verif.Model
