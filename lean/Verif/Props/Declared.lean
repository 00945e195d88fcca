import Verif.Model.Declared

/-!
# C159: a metric takes and gives what it declares

The declared input type settles what `evaluate` is to be called with, the declared output type what comes back: one number, one number per
PDF, or one distribution.
-/

set_option linter.unusedSectionVars false
set_option autoImplicit false

namespace Verif.Props.Metrics.Declared

open Verif Verif.Np Verif.Model

/-! ### what goes in -/

/-- Every input type other than `unknown` says about the estimate that it is either distributions or points, and about the reference the same, except that
a single ensemble goes without a reference; different types say different things. `unknown` says nothing. -/
theorem C159_input_types (t : InType) (ht : t ≠ .unknown) :
    t.distEstimate = !t.pointEstimate ∧ (t.distReference = true → t.pointReference = false) ∧
    (t.distReference = false ∧ t.pointReference = false ↔ t = .singleEnsemble) ∧
    (∀ t' : InType, t.distEstimate = t'.distEstimate → t.pointEstimate = t'.pointEstimate → t.distReference = t'.distReference →
      t.pointReference = t'.pointReference → t = t') := by
  cases t <;> first | exact absurd rfl ht | exact ⟨by decide, by decide, by decide, by intro t'; cases t' <;> decide⟩

/-- an argument is distributions -/
def isEns : MArg → Bool
  | .ens _ => true
  | .points _ => false

/-- the arguments are as the input type says -/
def AsDeclared (t : InType) : List MArg → Prop
  | [a] => t.distReference = false ∧ t.pointReference = false ∧ isEns a = t.distEstimate
  | [a, b] => isEns a = t.distEstimate ∧ isEns b = t.distReference ∧ (!isEns b) = t.pointReference
  | _ => False

/-- `evaluate` gives a result only if it is called as declared; another number of arguments is a `TypeError`. -/
theorem C159_called_as_declared (c : MetricCls) (s : MetricSettings) (args : List MArg) :
    ((∃ r, evaluateCls c s args = .ok r) → AsDeclared c.input args) ∧
    (args.length ≠ (if c.input.distReference || c.input.pointReference then 2 else 1) → evaluateCls c s args = .error .TypeError) := by
  constructor
  · rintro ⟨r, hr⟩
    unfold evaluateCls at hr
    split at hr <;> first
      | exact ⟨by decide, by decide, rfl⟩
      | exact ⟨rfl, rfl, rfl⟩
      | (split_ifs at hr)
  · intro hlen
    unfold evaluateCls
    split <;> first
      | exact absurd rfl hlen
      | (rw [if_neg]
         intro h
         apply hlen
         rw [h]
         cases c <;> rfl)

/-! ### what comes out -/

/-- a result of the declared kind, for `n` estimates -/
def Fits (o : OutType) (n : ℕ) : MRes → Prop
  | .value _ => o = .singleValue
  | .values l => o = .oneValuePerDistribution ∧ l.length = n
  | .dist _ => o = .singleDistribution

/-- an ensemble of `n` PDFs with one index -/
structure Has (e : MEns) (n : ℕ) : Prop where
  shape : e.dens.shape = [n]
  dens : e.dens.fns.length = n
  pdfs : e.pdfs.length = n
  ppfs : e.ppfs.length = n
  sample : ∀ m, (e.sample m).length = n

/-- an argument with `n` entries -/
def Count : MArg → ℕ → Prop
  | .ens e, n => Has e n
  | .points v, n => v.length = n

/-- the metrics that draw samples -/
def Sampled (c : MetricCls) : Prop := c = .ad ∨ c = .cvm ∨ c = .ks

theorem mapM_length {α β : Type} (f : α → Except Err β) : ∀ (l : List α) (r : List β), l.mapM f = .ok r → r.length = l.length := by
  intro l
  induction l with
  | nil => intro r h; simp only [List.mapM_nil] at h; cases h; rfl
  | cons a l ih =>
    intro r h
    rw [List.mapM_cons] at h
    cases hf : f a with
    | error e => rw [hf] at h; cases h
    | ok b =>
      rw [hf] at h
      cases hl : l.mapM f with
      | error e => rw [hl] at h; cases h
      | ok t => rw [hl] at h; cases h; simp [ih t hl]

/-- How many numbers the goodness of fit gives. -/
theorem gof_count {K : Type} [Field K] [LinearOrder K] (rows : List (List K)) (m : ℕ) (refs : List (RefPdf K)) (name : String) (l : List K)
    (h : goodnessOfFit rows m refs name = .ok l) : l.length = if rows.length = 1 ∨ m = 1 then refs.length else rows.length := by
  have hg : ∀ st, gofStat (K := K) name = some st → goodnessOfFit rows m refs name = gofEval st refs (squeezeSamples m rows) := by
    intro st hst
    unfold goodnessOfFit
    rw [hst]
    cases checkNumbers rows.length refs.length <;> rfl
  cases hst : gofStat (K := K) name with
  | none =>
    unfold goodnessOfFit at h
    rw [hst] at h
    cases hc : checkNumbers rows.length refs.length <;> rw [hc] at h <;> cases h
  | some st =>
    rw [hg st hst] at h
    unfold squeezeSamples at h
    split_ifs at h with h1 h2
    · cases h
    · rw [if_pos h2]
      exact mapM_length _ _ _ h
    · rw [if_neg h2]
      simp only [gofEval] at h
      split_ifs at h with h3
      · rw [mapM_length _ _ _ h]
        simp [h3]
      · split at h
        · exact mapM_length _ _ _ h
        · cases h

theorem ok_map {α β : Type} {x : Except Err α} {f : α → β} {r : β} (h : x.map f = .ok r) : ∃ a, x = .ok a ∧ r = f a := by
  cases x with
  | error e => cases h
  | ok a => cases h; exact ⟨a, rfl, rfl⟩

/-- **What is declared comes out**, for ensembles with one index and as many references as estimates, or one. Missing: the goodness of fit with one sample,
for which it is false (`C159_one_sample`). -/
theorem C159_output_partial (c : MetricCls) (s : MetricSettings) (est : MArg) (rest : List MArg) (n : ℕ) (hest : Count est n)
    (hrest : ∀ a ∈ rest, Count a n ∨ Count a 1) (hm : Sampled c → s.numSamples ≠ 1) (r : MRes) (h : evaluateCls c s (est :: rest) = .ok r) :
    Fits c.output n r := by
  have gof : ∀ (p q : MEns) (name : String) (l : List ℝ), est = .ens p → rest = [.ens q] → s.numSamples ≠ 1 →
      goodnessOfFit (p.sample s.numSamples) s.numSamples q.pdfs name = .ok l → l.length = n := by
    rintro p q name l rfl rfl hm h
    have hp : Has p n := hest
    have hq : q.pdfs.length = n ∨ q.pdfs.length = 1 := (hrest (.ens q) (by simp)).imp (fun h => Has.pdfs h) (fun h => Has.pdfs h)
    rw [gof_count _ _ _ _ _ h, hp.sample]
    split_ifs with h1
    · rcases h1 with h1 | h1
      · rcases hq with h | h <;> omega
      · exact absurd h1 hm
    · rfl
  have two : ∀ (p q : MEns), est = .ens p → rest = [.ens q] → p.dens.shape = q.dens.shape → q.dens.fns.length = n := by
    rintro p q rfl rfl hs
    have hp : Has p n := hest
    rcases hrest (.ens q) (by simp) with hq | hq
    · exact Has.dens hq
    · have hq : Has q 1 := hq
      rw [hp.shape, hq.shape] at hs
      rw [hq.dens]
      simpa using hs.symm
  have value : ∀ {α : Type} {x : Except Err α} {f : α → Option ℝ}, (x.map fun a => MRes.value (f a)) = .ok r → c.output = .singleValue → Fits c.output n r := by
    intro α x f hx hc
    obtain ⟨a, -, rfl⟩ := ok_map hx
    exact hc
  unfold evaluateCls at h
  split at h
  · -- moment
    rename_i e heq
    obtain ⟨rfl, rfl⟩ := List.cons_eq_cons.1 heq
    have hp : Has e n := hest
    obtain ⟨l, hl, rfl⟩ := ok_map h
    refine ⟨rfl, ?_⟩
    unfold calculateMoment at hl
    cases hg : gridParams s.l0 s.l1 s.dx with
    | error err => rw [hg] at hl; cases hl
    | ok g => rw [hg] at hl; cases hl; simp [hp.dens]
  · -- rbpe
    rename_i e heq
    obtain ⟨rfl, rfl⟩ := List.cons_eq_cons.1 heq
    have hp : Has e n := hest
    cases h
    refine ⟨rfl, ?_⟩
    unfold calcRbpe
    have hlen : ∀ (ps : List ((ℝ → ℝ) × (ℝ → ℝ))) (g : (ℝ → ℝ) × (ℝ → ℝ) → ℝ) (k : ℕ), k ≤ ps.length →
        ((List.range k).filterMap fun (i : ℕ) => (ps[i]?).map g).length = k := by
      intro ps g k
      induction k with
      | zero => intro _; rfl
      | succ k ih =>
        intro hk
        rw [List.range_succ, List.filterMap_append, List.length_append, ih (by omega)]
        simp [List.getElem?_eq_getElem (show k < ps.length by omega)]
    rw [hlen _ (fun p => quickRbpe s.minimise p.1 (p.2 0.01, p.2 0.99) s.rbpeLimits) _ le_rfl]
    simp [hp.dens, hp.ppfs]
  · -- outlier
    rename_i e heq
    obtain ⟨rfl, rfl⟩ := List.cons_eq_cons.1 heq
    have hp : Has e n := hest
    cases h
    exact ⟨rfl, by simp [hp.pdfs]⟩
  · -- kld
    rename_i p q heq
    obtain ⟨rfl, rfl⟩ := List.cons_eq_cons.1 heq
    have hp : Has p n := hest
    obtain ⟨l, hl, rfl⟩ := ok_map h
    refine ⟨rfl, ?_⟩
    unfold calculateKld at hl
    split_ifs at hl with hs
    have hq := two p q rfl rfl (not_not.1 hs)
    cases hg : gridParams s.l0 s.l1 s.dx with
    | error err => rw [hg] at hl; cases hl
    | ok g =>
      rw [hg] at hl
      cases hl
      split_ifs <;> simp [hp.dens, hq]
  · -- rmse
    rename_i p q heq
    obtain ⟨rfl, rfl⟩ := List.cons_eq_cons.1 heq
    have hp : Has p n := hest
    obtain ⟨l, hl, rfl⟩ := ok_map h
    refine ⟨rfl, ?_⟩
    unfold calculateRmse at hl
    split_ifs at hl with hs
    have hq := two p q rfl rfl (not_not.1 hs)
    cases hg : gridParams s.l0 s.l1 s.dx with
    | error err => rw [hg] at hl; cases hl
    | ok g =>
      rw [hg] at hl
      cases hl
      simp [hp.dens, hq]
  · rename_i p q heq
    obtain ⟨rfl, rfl⟩ := List.cons_eq_cons.1 heq
    obtain ⟨l, hl, rfl⟩ := ok_map h
    exact ⟨rfl, gof p q _ l rfl rfl (hm (Or.inl rfl)) hl⟩
  · rename_i p q heq
    obtain ⟨rfl, rfl⟩ := List.cons_eq_cons.1 heq
    obtain ⟨l, hl, rfl⟩ := ok_map h
    exact ⟨rfl, gof p q _ l rfl rfl (hm (Or.inr (Or.inl rfl))) hl⟩
  · rename_i p q heq
    obtain ⟨rfl, rfl⟩ := List.cons_eq_cons.1 heq
    obtain ⟨l, hl, rfl⟩ := ok_map h
    exact ⟨rfl, gof p q _ l rfl rfl (hm (Or.inr (Or.inr rfl))) hl⟩
  · exact value h rfl
  · exact value h rfl
  · obtain ⟨l, -, rfl⟩ := ok_map h
    rfl
  · -- residuals
    rename_i a b heq
    obtain ⟨rfl, rfl⟩ := List.cons_eq_cons.1 heq
    have ha : a.length = n := hest
    have hb : b.length = n ∨ b.length = 1 := hrest (.points b) (by simp)
    obtain ⟨l, hl, rfl⟩ := ok_map h
    refine ⟨rfl, ?_⟩
    unfold ezList at hl
    split_ifs at hl with h1 h2
    · cases hl
      simp [← h1, ha]
    · have hb1 : b.length = 1 := hb.resolve_left fun hb => h1 (ha.trans hb.symm)
      obtain ⟨v, rfl⟩ := List.length_eq_one_iff.1 hb1
      split at hl
      · simp at h1
      · rename_i heq
        split_ifs at hl
        cases hl
        simpa using ha
      · cases hl
  · exact value h rfl
  · exact value h rfl
  · exact value h rfl
  · exact value h rfl
  · split_ifs at h

/-- With one sample per PDF the Anderson-Darling statistic of several PDFs with one reference is a single number, that of all samples together. -/
theorem C159_one_sample (s : MetricSettings) (hs : s.numSamples = 1) (p q : MEns) (R : RefPdf ℝ) (hq : q.pdfs = [R]) (n : ℕ) (hn : n ≠ 1) (hp : Has p n) :
    evaluateCls .ad s [.ens p, .ens q] = .ok (.values [adStat R.logcdf R.logsf (p.sample 1).flatten]) := by
  have h1 : (p.sample 1).length ≠ 1 := by rw [hp.sample]; exact hn
  have hg : goodnessOfFit (p.sample 1) 1 [R] "ad" = .ok [adStat R.logcdf R.logsf (p.sample 1).flatten] := by
    unfold goodnessOfFit
    simp [gofStat, squeezeSamples, h1, gofEval]
    cases checkNumbers (p.sample 1).length 1 <;> rfl
  simp only [evaluateCls, hs, hq, hg]
  rfl

/-- two PDFs and their references -/
noncomputable def twoEns : MEns :=
  ⟨⟨[2], [fun _ => 1, fun x => x]⟩, [⟨id, id, id⟩, ⟨id, id, id⟩], [id, id], fun m => [List.replicate m 0, List.replicate m 1]⟩

/-- a case of `C159_output_partial`: two samples of each of two PDFs with one reference give two numbers -/
example (s : MetricSettings) (hs : s.numSamples = 2) : Has twoEns 2 ∧
    ∃ q : MEns, Has q 1 ∧ ∃ l, evaluateCls .ad s [.ens twoEns, .ens q] = .ok (.values l) ∧ l.length = 2 := by
  refine ⟨⟨rfl, rfl, rfl, rfl, fun _ => rfl⟩, ⟨⟨[1], [fun _ => 1]⟩, [⟨id, id, id⟩], [id], fun m => [List.replicate m 0]⟩, ⟨rfl, rfl, rfl, rfl, fun _ => rfl⟩, ?_⟩
  refine ⟨[adStat id id [0, 0], adStat id id [1, 1]], ?_, rfl⟩
  simp only [evaluateCls, hs]
  rfl

end Verif.Props.Metrics.Declared
