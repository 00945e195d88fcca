import Verif.Model.Random
import Verif.Props.Sampling

/-!
# C158: random results can be repeated

An integer `random_state` makes `rvs` and the goodness of fit the same in every state of the generators, and leaves that state alone. One
generator object may be used for the parts of an ensemble in turn. Two conversions ignore `random_state`, a third uses it only for the samples.
-/

set_option linter.unusedSectionVars false
set_option autoImplicit false

namespace Verif.Props.Random

open Verif Verif.Np Verif.Model Verif.Props.Sampling

variable {K β : Type} [Field K] [LinearOrder K]

/-! ### what `rvs` gives -/

/-- The samples of PDF `i` with an integer seed are the quantiles of the numbers `i m, …, i m + m - 1` of that seed: nothing else about the ensemble or
about the state of the generators matters, and that state stays as it was. -/
theorem C158_seed (f f' ppf : ℕ → K → β) (shape : List ℕ) (hs : (squeezeLeft shape).length ≤ 1) (hn : shape.prod ≠ 0) (m s : ℕ) (w : World K) :
    rvsR (dispatch f f' ppf) shape (some m) (.seed s) w =
      (.ok ((List.range shape.prod).map fun (i : ℕ) => (List.range m).map fun (j : ℕ) => ppf i (w.seeded s (i * m + j))), w) := by
  unfold rvsR
  rw [C97_samples f f' ppf shape hs hn]
  simp [drawsOf, genOf, advance]

/-- Whatever the ensemble and the size, also when `rvs` raises: with an integer seed the result depends on the seed only, and the generators stay as
they were. Calling twice gives the same samples twice. -/
theorem C158_seed_any (core : Pts K → Pts ℕ → Except Err (List β)) (shape : List ℕ) (size : Option ℕ) (s : ℕ) (w w' : World K)
    (h : w.seeded s = w'.seeded s) :
    (rvsR core shape size (.seed s) w).1 = (rvsR core shape size (.seed s) w').1 ∧ (rvsR core shape size (.seed s) w).2 = w := by
  simp [rvsR, genOf, advance, h]

/-- Without `random_state` the global generator is used, with a generator object that object: the next `npdf m` of its numbers, row after row, and
it has then moved on by as many. No other generator is touched. -/
theorem C158_object (f f' ppf : ℕ → K → β) (shape : List ℕ) (hs : (squeezeLeft shape).length ≤ 1) (hn : shape.prod ≠ 0) (m r : ℕ) (w : World K) :
    (rvsR (dispatch f f' ppf) shape (some m) (.obj r) w).1 =
      .ok ((List.range shape.prod).map fun (i : ℕ) => (List.range m).map fun (j : ℕ) => ppf i ((w.gens r).stream ((w.gens r).pos + (i * m + j)))) ∧
    ((rvsR (dispatch f f' ppf) shape (some m) (.obj r) w).2.gens r) = ⟨(w.gens r).stream, (w.gens r).pos + shape.prod * m⟩ ∧
    (∀ q, q ≠ r → (rvsR (dispatch f f' ppf) shape (some m) (.obj r) w).2.gens q = w.gens q) ∧
    rvsR (dispatch f f' ppf) shape (some m) .none w = rvsR (dispatch f f' ppf) shape (some m) (.obj 0) w := by
  have hok := (rvsSizeOk_iff shape m).2 hs
  refine ⟨?_, ?_, ?_, rfl⟩
  · unfold rvsR
    rw [C97_samples f f' ppf shape hs hn]
    simp [drawsOf, genOf]
  · simp [rvsR, advance, World.step, rvsCount, hok]
  · intro q hq
    simp [rvsR, advance, World.step, hq]

/-! ### parts of an ensemble -/

/-- the samples of an ensemble with the quantile functions `Fs` -/
def sample [Inhabited β] (Fs : List (K → β)) (m : ℕ) (arg : RandArg) (w : World K) : Except Err (List (List β)) × World K :=
  let ppf : ℕ → K → β := fun i => Fs.getD i fun _ => default
  rvsR (dispatch ppf ppf ppf) [Fs.length] (some m) arg w

/-- the samples of several ensembles one after another -/
def sampleParts [Inhabited β] (m : ℕ) (arg : RandArg) : List (List (K → β)) → World K → Except Err (List (List β)) × World K
  | [], w => (.ok [], w)
  | Fs :: rest, w =>
    let a := sample Fs m arg w
    let b := sampleParts m arg rest a.2
    (a.1.bind fun x => b.1.map (x ++ ·), b.2)

theorem squeezeLeft_single (n : ℕ) : (squeezeLeft [n]).length ≤ 1 := by
  by_cases h : n = 1
  · subst h; decide
  · have : squeezeLeft [n] = [n] := by
      unfold squeezeLeft
      split
      · rename_i t heq; simp at heq; exact absurd heq.1 h
      · rfl
    simp [this]

/-- the rows that the generator `g` gives -/
def rowsFrom (g : Gen K) (m : ℕ) (Fs : List (K → β)) : List (List β) :=
  Fs.zipIdx.map fun p => (List.range m).map fun (j : ℕ) => p.1 (g.stream (g.pos + (p.2 * m + j)))

theorem sample_eq [Inhabited β] (Fs : List (K → β)) (hF : Fs ≠ []) (m r : ℕ) (w : World K) :
    sample Fs m (.obj r) w = (.ok (rowsFrom (w.gens r) m Fs), w.step r (Fs.length * m)) := by
  have hn : [Fs.length].prod ≠ 0 := by simpa using hF
  have hok := (rvsSizeOk_iff [Fs.length] m).2 (squeezeLeft_single _)
  unfold sample rvsR
  dsimp only
  rw [C97_samples _ _ _ [Fs.length] (squeezeLeft_single _) hn]
  simp only [Prod.mk.injEq, Except.ok.injEq]
  constructor
  · unfold rowsFrom
    apply List.ext_getElem
    · simp
    · intro i h1 h2
      have hi : i < Fs.length := by simpa using h1
      simp [drawsOf, genOf, hi]
  · have hc : rvsCount [Fs.length] (some m) = Fs.length * m := by
      unfold rvsCount
      simp only [Option.getD_some, hok]
      simp
    simp only [advance, hc]

theorem rowsFrom_append (g : Gen K) (m : ℕ) (A B : List (K → β)) :
    rowsFrom g m (A ++ B) = rowsFrom g m A ++ rowsFrom ⟨g.stream, g.pos + A.length * m⟩ m B := by
  unfold rowsFrom
  rw [List.zipIdx_append, List.map_append]
  congr 1
  apply List.ext_getElem
  · simp
  · intro i h1 h2
    simp only [List.getElem_map, List.getElem_zipIdx]
    apply List.map_congr_left
    intro j _
    have hidx : g.pos + ((A.length + i) * m + j) = g.pos + A.length * m + (i * m + j) := by ring
    simp [hidx]

theorem step_step (w : World K) (r a b : ℕ) : (w.step r a).step r b = w.step r (a + b) := by
  unfold World.step
  congr 1
  funext q
  by_cases h : q = r
  · simp [h, Nat.add_assoc]
  · simp [h]

theorem step_zero (w : World K) (r : ℕ) : w.step r 0 = w := by
  unfold World.step
  congr 1
  funext q
  by_cases h : q = r <;> simp [h]

/-- Sampling the parts of an ensemble in turn with one generator object gives the samples of the whole ensemble, and leaves the generator where
sampling the whole would. -/
theorem C158_parts [Inhabited β] (m r : ℕ) (parts : List (List (K → β))) (h : ∀ Fs ∈ parts, Fs ≠ []) (hne : parts ≠ []) (w : World K) :
    sampleParts m (.obj r) parts w = sample parts.flatten m (.obj r) w := by
  have key : ∀ (parts : List (List (K → β))), (∀ Fs ∈ parts, Fs ≠ []) → ∀ w : World K,
      sampleParts m (.obj r) parts w = (.ok (rowsFrom (w.gens r) m parts.flatten), w.step r (parts.flatten.length * m)) := by
    intro parts
    induction parts with
    | nil => intro _ w; simp [sampleParts, rowsFrom, step_zero]
    | cons Fs rest ih =>
      intro h w
      have hF := h Fs (by simp)
      simp only [sampleParts, sample_eq Fs hF, ih (fun F hF => h F (by simp [hF]))]
      simp only [Prod.mk.injEq]
      constructor
      · have hg : (w.step r (Fs.length * m)).gens r = ⟨(w.gens r).stream, (w.gens r).pos + Fs.length * m⟩ := by simp [World.step]
        rw [List.flatten_cons, rowsFrom_append, hg]
        rfl
      · rw [step_step, List.flatten_cons, List.length_append]
        congr 1
        ring
  have hfl : parts.flatten ≠ [] := by
    obtain ⟨F, t, rfl⟩ := List.exists_cons_of_ne_nil hne
    have := h F (by simp)
    simp [this]
  rw [key parts h w, sample_eq _ hfl]

/-- the same with the global generator -/
theorem C158_parts_global [Inhabited β] (m : ℕ) (parts : List (List (K → β))) (h : ∀ Fs ∈ parts, Fs ≠ []) (hne : parts ≠ []) (w : World K) :
    sampleParts m .none parts w = sample parts.flatten m .none w := by
  have hs : ∀ (Fs : List (K → β)) (w : World K), sample Fs m .none w = sample Fs m (.obj 0) w := fun _ _ => rfl
  have hp : ∀ (parts : List (List (K → β))) (w : World K), sampleParts m .none parts w = sampleParts m (.obj 0) parts w := by
    intro parts
    induction parts with
    | nil => intro w; rfl
    | cons Fs rest ih => intro w; simp only [sampleParts, hs, ih]
  rw [hp, hs]
  exact C158_parts m 0 parts h hne w

/-- An integer seed does not do this: two parts with the same PDFs have the same samples, in every state. -/
theorem C158_parts_seed [Inhabited β] (m s : ℕ) (Fs : List (K → β)) (hF : Fs ≠ []) (w : World K) :
    sampleParts m (.seed s) [Fs, Fs] w = (.ok (rowsFrom ⟨w.seeded s, 0⟩ m Fs ++ rowsFrom ⟨w.seeded s, 0⟩ m Fs), w) := by
  have hn : [Fs.length].prod ≠ 0 := by simpa using hF
  have h1 : ∀ w : World K, sample Fs m (.seed s) w = (.ok (rowsFrom ⟨w.seeded s, 0⟩ m Fs), w) := by
    intro w
    unfold sample
    rw [C158_seed _ _ _ [Fs.length] (squeezeLeft_single _) hn]
    simp only [Prod.mk.injEq, Except.ok.injEq, and_true]
    unfold rowsFrom
    apply List.ext_getElem
    · simp
    · intro i h1 h2
      have hi : i < Fs.length := by simpa using h1
      simp [hi]
  simp [sampleParts, h1, Except.bind, Except.map]

/-- numbers that a generator might give -/
def w0 : World ℚ := ⟨fun s k => 1 / (s + k + 2), fun _ => ⟨fun k => 1 / (k + 3), 0⟩⟩

/-- another state of the generators: the global one has moved on -/
def w1 : World ℚ := w0.step 0 1

/-- two PDFs, their quantile functions -/
def two : List (ℚ → ℚ) := [fun u => u, fun u => 2 * u]

/-- the whole with a seed is not the parts with that seed; with a generator object it is (a concrete case of `C158_parts`) -/
theorem C158_parts_example :
    (sampleParts 2 (.seed 7) [[fun u => u], [fun u => 2 * u]] w0).1 ≠ (sample two 2 (.seed 7) w0).1 ∧
    (sampleParts 2 (.obj 3) [[fun u => u], [fun u => 2 * u]] w0).1 = .ok [[1/3, 1/4], [2/5, 1/3]] := by
  decide +kernel

/-! ### more samples -/

/-- The samples of the first PDF with `m` draws are the first `m` of those with more draws, from the same generator. -/
theorem C158_prefix [Inhabited β] (F : K → β) (m m' r : ℕ) (hm : m ≤ m') (w : World K) :
    ∃ a b, (sample [F] m (.obj r) w).1 = .ok [a] ∧ (sample [F] m' (.obj r) w).1 = .ok [b] ∧ a = b.take m := by
  refine ⟨_, _, by rw [sample_eq _ (by simp)]; rfl, by rw [sample_eq _ (by simp)]; rfl, ?_⟩
  rw [← List.map_take, List.take_range, min_eq_left hm]
  simp

/-- For one PDF, `m` samples and then `k` samples from one generator are the `m + k` samples of one call. -/
theorem C158_consecutive [Inhabited β] (F : K → β) (m k r : ℕ) (w : World K) :
    ∃ a b, (sample [F] m (.obj r) w).1 = .ok [a] ∧ (sample [F] k (.obj r) (sample [F] m (.obj r) w).2).1 = .ok [b] ∧
      sample [F] (m + k) (.obj r) w = (.ok [a ++ b], (sample [F] k (.obj r) (sample [F] m (.obj r) w).2).2) := by
  rw [sample_eq _ (by simp), sample_eq _ (by simp), sample_eq _ (by simp)]
  refine ⟨_, _, rfl, rfl, ?_⟩
  simp only [Prod.mk.injEq, Except.ok.injEq]
  constructor
  · simp only [rowsFrom, List.zipIdx_cons, List.zipIdx_nil, List.map_cons, List.map_nil, List.cons.injEq, and_true]
    rw [List.range_add, List.map_append, List.map_map]
    congr 1
    · simp
    · apply List.map_congr_left
      intro j _
      simp [World.step, Nat.add_assoc]
  · rw [step_step]; simp

/-- With several PDFs it is not so: the second PDF of a seed gets other samples when more are asked for. -/
theorem C158_more_samples : ((sample two 1 (.seed 7) w0).1.map fun l => l.map fun s => s.take 1) ≠
    ((sample two 2 (.seed 7) w0).1.map fun l => l.map fun s => s.take 1) := by
  decide +kernel

/-! ### goodness of fit -/

section

/-- With an integer seed the goodness of fit depends on the seed only, and leaves the generators as they were. -/
theorem C158_gof (core : Pts K → Pts ℕ → Except Err (List K)) (shape : List ℕ) (refs : List (RefPdf K)) (name : String) (m s : ℕ) (w w' : World K)
    (h : w.seeded s = w'.seeded s) :
    (gofR core shape refs name m (.seed s) w).1 = (gofR core shape refs name m (.seed s) w').1 ∧ (gofR core shape refs name m (.seed s) w).2 = w := by
  obtain ⟨h1, h2⟩ := C158_seed_any core shape (some m) s w w' h
  unfold gofR
  cases gofStat (K := K) name with
  | none => exact ⟨rfl, rfl⟩
  | some st => simp only [h1, h2, and_self]

/-- Its value is the goodness of fit of the samples that `rvs` gives with the same `random_state` in the same state. -/
theorem C158_gof_value (f f' ppf : ℕ → K → K) (shape : List ℕ) (hs : (squeezeLeft shape).length ≤ 1) (hn : shape.prod ≠ 0) (refs : List (RefPdf K))
    (name : String) (hname : name ∈ ["ad", "cvm", "ks"]) (m : ℕ) (arg : RandArg) (w : World K) :
    ∃ rows, rvsR (dispatch f f' ppf) shape (some m) arg w = (.ok rows, (gofR (dispatch f f' ppf) shape refs name m arg w).2) ∧
      (gofR (dispatch f f' ppf) shape refs name m arg w).1 = goodnessOfFit rows m refs name := by
  have hst : ∃ st, gofStat (K := K) name = some st := by
    simp only [List.mem_cons, List.not_mem_nil, or_false] at hname
    rcases hname with rfl | rfl | rfl <;> exact ⟨_, rfl⟩
  obtain ⟨st, hst⟩ := hst
  have h := C97_samples f f' ppf shape hs hn m (drawsOf (genOf w arg) m)
  refine ⟨(List.range shape.prod).map fun (i : ℕ) => (List.range m).map fun (j : ℕ) => ppf i (drawsOf (genOf w arg) m i j), ?_, ?_⟩
  · unfold gofR
    rw [hst]
    simp only [rvsR, Option.getD_some]
    rw [h]
  · unfold gofR
    rw [hst]
    simp only [rvsR, Option.getD_some]
    rw [h]
    rfl

/-- the goodness of fit of the ensemble with the quantile functions `Fs`, each PDF with its own reference -/
def fitOf (Fs : List (K → K)) (refs : List (RefPdf K)) (name : String) (m : ℕ) (arg : RandArg) (w : World K) : Except Err (List K) × World K :=
  let ppf : ℕ → K → K := fun i => Fs.getD i fun _ => 0
  gofR (dispatch ppf ppf ppf) [Fs.length] refs name m arg w

/-- the goodness of fit of several ensembles one after another -/
def fitParts (name : String) (m : ℕ) (arg : RandArg) : List (List (K → K) × List (RefPdf K)) → World K → Except Err (List K) × World K
  | [], w => (.ok [], w)
  | p :: rest, w =>
    let a := fitOf p.1 p.2 name m arg w
    let b := fitParts name m arg rest a.2
    (a.1.bind fun x => b.1.map (x ++ ·), b.2)

theorem gof_paired (name : String) (st : RefPdf K → List K → Except Err K) (hst : gofStat (K := K) name = some st) (m : ℕ) (hm : m ≠ 1)
    (rows : List (List K)) (refs : List (RefPdf K)) (hl : refs.length = rows.length) (hne : rows ≠ []) :
    goodnessOfFit rows m refs name = (refs.zip rows).mapM fun p => st p.1 p.2 := by
  have hg : goodnessOfFit rows m refs name = gofEval st refs (squeezeSamples m rows) := by
    unfold goodnessOfFit
    rw [hst]
    cases checkNumbers rows.length refs.length <;> rfl
  rw [hg]
  unfold squeezeSamples
  by_cases h1 : rows.length = 1
  · obtain ⟨x, rfl⟩ := List.length_eq_one_iff.1 h1
    obtain ⟨R, rfl⟩ := List.length_eq_one_iff.1 (hl.trans h1)
    simp [hm, gofEval]
  · simp [hm, h1, gofEval, hl]

theorem fitOf_eq (Fs : List (K → K)) (hF : Fs ≠ []) (refs : List (RefPdf K)) (hl : refs.length = Fs.length) (name : String)
    (st : RefPdf K → List K → Except Err K) (hst : gofStat (K := K) name = some st) (m : ℕ) (hm : m ≠ 1) (r : ℕ) (w : World K) :
    fitOf Fs refs name m (.obj r) w = ((refs.zip (rowsFrom (w.gens r) m Fs)).mapM fun p => st p.1 p.2, w.step r (Fs.length * m)) := by
  let _ : Inhabited K := ⟨0⟩
  have h := sample_eq Fs hF m r w
  unfold sample at h
  dsimp only at h
  unfold fitOf gofR
  rw [hst]
  dsimp only
  have hd : (fun i => Fs.getD i fun _ => (0 : K)) = fun i => Fs.getD i fun _ => (default : K) := rfl
  rw [hd, h]
  simp only [Prod.mk.injEq, and_true]
  have hr : (rowsFrom (w.gens r) m Fs).length = Fs.length := by simp [rowsFrom]
  have hrn : rowsFrom (w.gens r) m Fs ≠ [] := by
    intro hc
    rw [hc] at hr
    exact hF (List.length_eq_zero_iff.1 (by simpa using hr.symm))
  exact gof_paired name st hst m hm _ refs (hl.trans hr.symm) hrn

/-- The goodness of fit of the parts in turn with one generator object, each PDF with its own reference, is the goodness of fit of the whole (two samples
or more): also if one of them cannot be computed. With one sample, or one integer seed for all parts, this is not so (`C158_gof_parts_seed`). -/
theorem C158_gof_parts (name : String) (hname : name ∈ ["ad", "cvm", "ks"]) (m : ℕ) (hm : m ≠ 1) (r : ℕ)
    (parts : List (List (K → K) × List (RefPdf K))) (h : ∀ p ∈ parts, p.1 ≠ [] ∧ p.2.length = p.1.length) (hne : parts ≠ []) (w : World K) :
    fitParts name m (.obj r) parts w = fitOf (parts.map Prod.fst).flatten (parts.map Prod.snd).flatten name m (.obj r) w := by
  have hst : ∃ st, gofStat (K := K) name = some st := by
    simp only [List.mem_cons, List.not_mem_nil, or_false] at hname
    rcases hname with rfl | rfl | rfl <;> exact ⟨_, rfl⟩
  obtain ⟨st, hst⟩ := hst
  have hlen : ∀ (parts : List (List (K → K) × List (RefPdf K))), (∀ p ∈ parts, p.1 ≠ [] ∧ p.2.length = p.1.length) →
      (parts.map Prod.snd).flatten.length = (parts.map Prod.fst).flatten.length := by
    intro parts
    induction parts with
    | nil => intro _; rfl
    | cons p rest ih =>
      intro h
      simp only [List.map_cons, List.flatten_cons, List.length_append]
      rw [(h p (by simp)).2, ih (fun q hq => h q (by simp [hq]))]
  have key : ∀ (parts : List (List (K → K) × List (RefPdf K))), (∀ p ∈ parts, p.1 ≠ [] ∧ p.2.length = p.1.length) → ∀ w : World K,
      fitParts name m (.obj r) parts w =
        (((parts.map Prod.snd).flatten.zip (rowsFrom (w.gens r) m (parts.map Prod.fst).flatten)).mapM (fun p => st p.1 p.2),
          w.step r ((parts.map Prod.fst).flatten.length * m)) := by
    intro parts
    induction parts with
    | nil => intro _ w; simp [fitParts, step_zero]; rfl
    | cons p rest ih =>
      intro h w
      obtain ⟨hF, hl⟩ := h p (by simp)
      simp only [fitParts, fitOf_eq p.1 hF p.2 hl name st hst m hm, ih (fun q hq => h q (by simp [hq])), Prod.mk.injEq]
      constructor
      · have hg : (w.step r (p.1.length * m)).gens r = ⟨(w.gens r).stream, (w.gens r).pos + p.1.length * m⟩ := by simp [World.step]
        rw [List.map_cons, List.map_cons, List.flatten_cons, List.flatten_cons, rowsFrom_append, hg,
          List.zip_append (by simp [rowsFrom, hl]), List.mapM_append]
        rfl
      · rw [step_step, List.map_cons, List.flatten_cons, List.length_append]
        congr 1
        ring
  have hfl : (parts.map Prod.fst).flatten ≠ [] := by
    obtain ⟨p, t, rfl⟩ := List.exists_cons_of_ne_nil hne
    have := (h p (by simp)).1
    simp [this]
  rw [key parts h w, fitOf_eq _ hfl _ (hlen parts h) name st hst m hm]

/-- An unknown name is refused before anything is drawn. -/
theorem C158_gof_unknown (core : Pts K → Pts ℕ → Except Err (List K)) (shape : List ℕ) (refs : List (RefPdf K)) (name : String)
    (hname : name ∉ ["ad", "cvm", "ks"]) (m : ℕ) (arg : RandArg) (w : World K) :
    gofR core shape refs name m arg w = (.error .KeyError, w) := by
  have hst : gofStat (K := K) name = none := by
    simp only [List.mem_cons, List.not_mem_nil, or_false, not_or] at hname
    unfold gofStat
    simp [hname.1, hname.2.1, hname.2.2]
  unfold gofR
  rw [hst]

/-! ### conversions -/

/-- The conversion to a histogram by samples ignores `random_state`: it takes the next `npdf size` numbers of the global generator, whatever the
argument. -/
theorem C158_hist_ignores (core : Pts K → Pts ℕ → Except Err (List K)) (shape : List ℕ) (hs : (squeezeLeft shape).length ≤ 1) (b : List K)
    (size : Option ℕ) (arg : RandArg) (w : World K) :
    histR core shape (some b) size arg w = histR core shape (some b) size .none w ∧
    ((histR core shape (some b) size arg w).2.gens 0).pos = (w.gens 0).pos + shape.prod * size.getD 1000 := by
  refine ⟨rfl, ?_⟩
  have hok := (rvsSizeOk_iff shape (size.getD 1000)).2 hs
  simp [histR, advance, World.step, rvsCount, sizeArg, hok]

/-- After `np.random.seed(s)` the samples, the histograms and the goodness of fit without generator objects are the same from every state, and a
conversion with mixtures also. -/
theorem C158_global_seed {γ : Type} (core : Pts K → Pts ℕ → Except Err (List K)) (shape : List ℕ) (size : Option ℕ) (bins : Option (List K))
    (refs : List (RefPdf K)) (name : String) (m s : ℕ) (fit : Gen K → ℕ → List K → γ × ℕ) (nc ns : Option ℕ) (arg : RandArg) (harg : ∀ r, arg ≠ .obj r)
    (w w' : World K) (h : w.seeded = w'.seeded) :
    (rvsR core shape size arg (seedGlobal s w)).1 = (rvsR core shape size arg (seedGlobal s w')).1 ∧
    (histR core shape bins size arg (seedGlobal s w)).1 = (histR core shape bins size arg (seedGlobal s w')).1 ∧
    (gofR core shape refs name m arg (seedGlobal s w)).1 = (gofR core shape refs name m arg (seedGlobal s w')).1 ∧
    (mixR core shape fit nc ns arg (seedGlobal s w)).1 = (mixR core shape fit nc ns arg (seedGlobal s w')).1 := by
  have hg : genOf (seedGlobal s w) arg = genOf (seedGlobal s w') arg := by
    cases arg with
    | none => simp [genOf, seedGlobal, h]
    | seed t => simp [genOf, seedGlobal, h]
    | obj r => exact absurd rfl (harg r)
  have hr : ∀ (size : Option ℕ), (rvsR core shape size arg (seedGlobal s w)).1 = (rvsR core shape size arg (seedGlobal s w')).1 := by
    intro size
    simp only [rvsR, hg]
  have hloop : ∀ (n : ℕ) (rows : List (List K)) (v v' : World K), v.gens 0 = v'.gens 0 → (mixLoop fit n rows v).1 = (mixLoop fit n rows v').1 := by
    intro n rows
    induction rows with
    | nil => intro v v' _; rfl
    | cons a rest ih =>
      intro v v' hv
      unfold mixLoop
      split_ifs with hlen
      · rfl
      · simp only [hv]
        rw [ih (v.step 0 (fit (v'.gens 0) n a).2) (v'.step 0 (fit (v'.gens 0) n a).2) (by simp [World.step, hv])]
  have hadv : ∀ k, (advance (seedGlobal s w) arg k).gens 0 = (advance (seedGlobal s w') arg k).gens 0 := by
    intro k
    cases arg with
    | none => simp [advance, seedGlobal, World.step, h]
    | seed t => simp [advance, seedGlobal, h]
    | obj r => exact absurd rfl (harg r)
  refine ⟨hr size, ?_, ?_, ?_⟩
  · simp only [histR]
    have : genOf (seedGlobal s w) .none = genOf (seedGlobal s w') .none := by simp [genOf, seedGlobal, h]
    rw [this]
  · unfold gofR
    cases gofStat (K := K) name with
    | none => rfl
    | some st => simp only [hr]
  · unfold mixR
    simp only [rvsR, hg]
    cases hE : ensRvs core shape (some (sizeArg ns)) (drawsOf (genOf (seedGlobal s w') arg) ((some (sizeArg ns)).getD 0)) with
    | error e => rfl
    | ok rows => exact hloop _ _ _ _ (hadv _)

/-- Missing from "with an integer `random_state` the conversion to mixtures gives the same result": it is the same if the fit of scikit-learn
does not use the global generator. Without this the statement is false (`C158_mixture_start`). -/
theorem C158_mixture_partial {γ : Type} (core : Pts K → Pts ℕ → Except Err (List K)) (shape : List ℕ) (fit : Gen K → ℕ → List K → γ × ℕ)
    (nc ns : Option ℕ) (s : ℕ) (hfit : ∀ g g' n x, fit g n x = fit g' n x) (w w' : World K) (h : w.seeded s = w'.seeded s) :
    (mixR core shape fit nc ns (.seed s) w).1 = (mixR core shape fit nc ns (.seed s) w').1 := by
  have hloop : ∀ (n : ℕ) (rows : List (List K)) (v v' : World K), (mixLoop fit n rows v).1 = (mixLoop fit n rows v').1 := by
    intro n rows
    induction rows with
    | nil => intro v v'; rfl
    | cons a rest ih =>
      intro v v'
      unfold mixLoop
      split_ifs with hlen
      · rfl
      · simp only [hfit (v.gens 0) (v'.gens 0)]
        rw [ih]
  obtain ⟨h1, -⟩ := C158_seed_any core shape (some (sizeArg ns)) s w w' h
  unfold mixR
  simp only [rvsR] at h1 ⊢
  rw [h1]
  cases ensRvs core shape (some (sizeArg ns)) (drawsOf (genOf w' (.seed s)) ((some (sizeArg ns)).getD 0)) with
  | error e => rfl
  | ok rows => exact hloop _ _ _ _

end

/-- The conversion to splines by samples ignores `random_state` too. -/
theorem C158_spline_ignores (core : Pts ℝ → Pts ℕ → Except Err (List ℝ)) (shape : List ℕ) (hs : (squeezeLeft shape).length ≤ 1)
    (splrep : List ℝ → List ℝ → SplRow ℝ) (xvals : Option (List ℝ)) (size : Option ℕ) (arg : RandArg) (w : World ℝ) :
    splR core shape splrep xvals size arg w = splR core shape splrep xvals size .none w ∧
    ((splR core shape splrep xvals size arg w).2.gens 0).pos = (w.gens 0).pos + shape.prod * size.getD 1000 := by
  refine ⟨rfl, ?_⟩
  have hok := (rvsSizeOk_iff shape (size.getD 1000)).2 hs
  simp [splR, advance, World.step, rvsCount, sizeArg, hok]

/-- the uniform distribution on [0, 1] -/
def unif : Pts ℚ → Pts ℕ → Except Err (List ℚ) := dispatch (fun _ u => u) (fun _ u => u) (fun _ u => u)

/-- Two states that differ in the global generator only: the conversion to a histogram with the same integer `random_state` gives two different
histograms, although the samples of `rvs` with it are the same. -/
theorem C158_hist_not_repeated : w0.seeded = w1.seeded ∧
    (rvsR unif [1] (some 2) (.seed 7) w0).1 = (rvsR unif [1] (some 2) (.seed 7) w1).1 ∧
    (histR unif [1] (some [0, 3/10, 1]) (some 2) (.seed 7) w0).1 ≠ (histR unif [1] (some [0, 3/10, 1]) (some 2) (.seed 7) w1).1 := by
  refine ⟨rfl, ?_, ?_⟩ <;> decide +kernel

/-- a fit that takes its first mean from the generator, as a random start does -/
def startFit (g : Gen ℚ) (_n : ℕ) (_s : List ℚ) : ℚ × ℕ := (g.stream g.pos, 1)

/-- With a random start the fitted mixtures differ although the samples are the same. -/
theorem C158_mixture_start : w0.seeded = w1.seeded ∧
    (mixR unif [1] startFit (some 1) (some 2) (.seed 7) w0).1 ≠ (mixR unif [1] startFit (some 1) (some 2) (.seed 7) w1).1 := by
  refine ⟨rfl, ?_⟩
  decide +kernel

/-- a concrete case of `C158_gof` and `C158_gof_value`: the Kolmogorov-Smirnov distance of two samples from the uniform distribution -/
theorem C158_gof_example : (gofR unif [1] [⟨fun x => x, fun x => x, fun x => x⟩] "ks" 2 (.seed 7) w0).1 = .ok [8/9] ∧
    (gofR unif [1] [⟨fun x => x, fun x => x, fun x => x⟩] "ks" 2 (.seed 7) w1).1 = .ok [8/9] ∧
    (gofR unif [1] [⟨fun x => x, fun x => x, fun x => x⟩] "ks" 2 .none w0).1 ≠ (gofR unif [1] [⟨fun x => x, fun x => x, fun x => x⟩] "ks" 2 .none w1).1 := by
  decide +kernel

/-- a uniform reference -/
def ref0 : RefPdf ℚ := ⟨fun x => x, fun x => x, fun x => x⟩

/-- One integer seed for all parts gives another goodness of fit than the whole; a generator object gives the same (a case of `C158_gof_parts`); one
sample is refused for a part of one PDF but not for the whole. -/
theorem C158_gof_parts_seed :
    (fitParts "ks" 2 (.seed 7) [([fun u => u], [ref0]), ([fun u => 2 * u], [ref0])] w0).1 ≠ (fitOf two [ref0, ref0] "ks" 2 (.seed 7) w0).1 ∧
    (fitParts "ks" 2 (.obj 3) [([fun u => u], [ref0]), ([fun u => 2 * u], [ref0])] w0).1 = (fitOf two [ref0, ref0] "ks" 2 (.obj 3) w0).1 ∧
    (fitParts "ks" 1 (.obj 3) [([fun u => u], [ref0]), ([fun u => 2 * u], [ref0])] w0).1 = .error .ValueError ∧
    (fitOf two [ref0, ref0] "ks" 1 (.obj 3) w0).1.isOk = true := by
  decide +kernel

end Verif.Props.Random
