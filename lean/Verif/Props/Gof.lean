import Verif.Model.Gof
import Verif.Props.GoodnessOfFit
import Verif.Props.Pit

/-!
# C74: dispatch and sizes of the goodness of fit; C77: Anderson-Darling
-/

set_option linter.unusedSectionVars false
set_option autoImplicit false

namespace Verif.Props.Metrics

open Verif Verif.Np Verif.Model Verif.Lemmas

variable {K : Type} [Field K] [LinearOrder K] [IsStrictOrderedRing K]

/-- The statistics fail with `ValueError` or `ZeroDivisionError` and only without data. -/
theorem gofStat_total {name : String} {stat : RefPdf K → List K → Except Err K} (h : gofStat name = some stat) (R : RefPdf K) (data : List K) :
    (data ≠ [] → ∃ v, stat R data = .ok v) ∧ ∀ e, stat R data = .error e → e = .ValueError ∨ e = .ZeroDivisionError := by
  unfold gofStat at h
  split_ifs at h
  · cases h; exact ⟨fun _ => ⟨_, rfl⟩, fun e he => by simp at he⟩
  · cases h
    refine ⟨(C67_exists R.cdf data).2, fun e he => ?_⟩
    simp only at he
    by_cases hd : data = []
    · rw [(C67_exists R.cdf data).1 hd] at he; cases he; exact Or.inr rfl
    · obtain ⟨v, hv⟩ := (C67_exists R.cdf data).2 hd
      rw [hv] at he; cases he
  · cases h
    refine ⟨(C66_exists R.cdf data).1, fun e he => ?_⟩
    simp only at he
    by_cases hd : data = []
    · rw [(C66_exists R.cdf data).2 hd] at he; cases he; exact Or.inl rfl
    · obtain ⟨v, hv⟩ := (C66_exists R.cdf data).1 hd
      rw [hv] at he; cases he

theorem mapM_err {α β : Type} {f : α → Except Err β} {l : List α} {e : Err} (h : l.mapM f = .error e) : ∃ a ∈ l, f a = .error e := by
  induction l with
  | nil => rw [mapM_nil] at h; cases h
  | cons a t ih =>
    rw [mapM_cons] at h
    cases ha : f a with
    | error e' => rw [ha] at h; cases h; exact ⟨a, by simp, ha⟩
    | ok b =>
      rw [ha] at h
      cases ht : t.mapM f with
      | error e' =>
        rw [ht] at h; cases h
        obtain ⟨a', h1, h2⟩ := ih ht
        exact ⟨a', by simp [h1], h2⟩
      | ok l => rw [ht] at h; cases h

theorem goodnessOfFit_eq (samples : List (List K)) (m : ℕ) (refs : List (RefPdf K)) (name : String) :
    goodnessOfFit samples m refs name = match gofStat name with
      | none => .error .KeyError
      | some stat => gofEval stat refs (squeezeSamples m samples) := by
  unfold goodnessOfFit
  split <;> rfl

theorem gofEval_err {stat : RefPdf K → List K → Except Err K} {name : String} (h : gofStat name = some stat) (refs : List (RefPdf K)) (d : GofData K)
    {e : Err} (he : gofEval stat refs d = .error e) : e = .ValueError ∨ e = .ZeroDivisionError := by
  cases d with
  | scalar => simp [gofEval] at he; exact Or.inl he.symm
  | flat xs => obtain ⟨R, _, hR⟩ := mapM_err he; exact (gofStat_total h R xs).2 e hR
  | rows rs =>
    simp only [gofEval] at he
    split_ifs at he
    · obtain ⟨p, _, hp⟩ := mapM_err he; exact (gofStat_total h _ _).2 e hp
    · split at he
      · obtain ⟨p, _, hp⟩ := mapM_err he; exact (gofStat_total h _ _).2 e hp
      · cases he; exact Or.inl rfl

/-- **C74**, the names: the call raises `KeyError` exactly when the metric is not `ad`, `cvm` or `ks`, whatever the sizes. -/
theorem C74_unknown (samples : List (List K)) (m : ℕ) (refs : List (RefPdf K)) (name : String) :
    goodnessOfFit samples m refs name = .error .KeyError ↔ name ≠ "ad" ∧ name ≠ "cvm" ∧ name ≠ "ks" := by
  rw [goodnessOfFit_eq]
  constructor
  · intro h
    cases hs : gofStat (K := K) name with
    | none =>
      unfold gofStat at hs
      split_ifs at hs with h1 h2 h3
      exact ⟨h1, h2, h3⟩
    | some stat =>
      rw [hs] at h
      rcases gofEval_err hs refs _ h with h | h <;> cases h
  · rintro ⟨h1, h2, h3⟩
    simp [gofStat, h1, h2, h3]

/-- **C74**, the check of the sizes: accepted exactly when the estimate has as many PDFs as the reference or the reference has one. -/
theorem C74_check (nEst nRef : ℕ) : (checkNumbers nEst nRef = .ok () ↔ nEst = nRef ∨ nRef = 1) ∧
    (checkNumbers nEst nRef = .error .ValueError ↔ ¬ (nEst = nRef ∨ nRef = 1)) := by
  unfold checkNumbers
  split_ifs with h
  · simp; omega
  · simp; omega

/-- **C74**, the values: with at least two samples for every PDF and accepted sizes the call returns one value for every PDF of the estimate, the
statistic of its own samples against its own reference, or against the single reference. A single sample for every PDF is excluded: then the
samples of all PDFs are used for every value (`C74_one_sample_wrong`), and a single sample of a single PDF fails. -/
theorem C74_own_partial (samples : List (List K)) (m : ℕ) (refs : List (RefPdf K)) (name : String) (stat : RefPdf K → List K → Except Err K)
    (hm : 2 ≤ m) (hw : ∀ r ∈ samples, r.length = m) (hstat : gofStat name = some stat) (hsize : samples.length = refs.length ∨ refs.length = 1) (h1 : 1 ≤ samples.length) :
    ∃ r, goodnessOfFit samples m refs name = .ok r ∧ r.length = samples.length ∧
      ∀ (i : ℕ) row R, samples[i]? = some row → refs[if refs.length = 1 then 0 else i]? = some R →
        ∃ v, r[i]? = some v ∧ stat R row = .ok v := by
  have hne : ∀ r ∈ samples, r ≠ [] := fun r hr h => by have := hw r hr; rw [h] at this; simp at this; omega
  rw [goodnessOfFit_eq, hstat]
  simp only
  by_cases hs1 : samples.length = 1
  · obtain ⟨row, rfl⟩ := List.length_eq_one_iff.1 hs1
    have hr1 : refs.length = 1 := by rcases hsize with h | h <;> simp_all
    obtain ⟨R, rfl⟩ := List.length_eq_one_iff.1 hr1
    obtain ⟨v, hv⟩ := (gofStat_total hstat R row).1 (hne row (by simp))
    have e : squeezeSamples m [row] = .flat row := by simp [squeezeSamples, show m ≠ 1 by omega]
    refine ⟨[v], ?_, by simp, ?_⟩
    · rw [e]; simp [gofEval, hv, Bind.bind, Except.bind, Pure.pure, Except.pure]
    · intro i row' R' hi hR
      have : i = 0 := by have := (List.getElem?_eq_some_iff.1 hi).1; simpa using this
      subst this
      simp at hi hR
      subst hi hR
      exact ⟨v, by simp, hv⟩
  · have e : squeezeSamples m samples = .rows samples := by simp [squeezeSamples, hs1, show m ≠ 1 by omega]
    rw [e]
    simp only [gofEval]
    by_cases hl : refs.length = samples.length
    · rw [if_pos hl]
      have hr1 : refs.length ≠ 1 := by omega
      cases hz : (refs.zip samples).mapM (fun p => stat p.1 p.2) with
      | error er =>
        obtain ⟨p, hp, hp'⟩ := mapM_err hz
        obtain ⟨v, hv⟩ := (gofStat_total hstat p.1 p.2).1 (hne _ (List.of_mem_zip hp).2)
        rw [hv] at hp'; cases hp'
      | ok r =>
        refine ⟨r, rfl, by rw [mapM_length hz, List.length_zip]; omega, ?_⟩
        intro i row R hi hR
        rw [if_neg hr1] at hR
        obtain ⟨v, hv, hv'⟩ := mapM_get hz i (R, row) (by rw [List.getElem?_zip_eq_some]; exact ⟨hR, hi⟩)
        exact ⟨v, hv, hv'⟩
    · rw [if_neg hl]
      have hr1 : refs.length = 1 := by omega
      obtain ⟨R, rfl⟩ := List.length_eq_one_iff.1 hr1
      simp only
      cases hz : samples.mapM (stat R) with
      | error er =>
        obtain ⟨p, hp, hp'⟩ := mapM_err hz
        obtain ⟨v, hv⟩ := (gofStat_total hstat R p).1 (hne _ hp)
        rw [hv] at hp'; cases hp'
      | ok r =>
        refine ⟨r, rfl, mapM_length hz, ?_⟩
        intro i row R' hi hR
        simp at hR
        subst hR
        exact mapM_get hz i row hi

/-- the values by name -/
theorem C74_by_name_partial (samples : List (List K)) (m : ℕ) (refs : List (RefPdf K)) (hm : 2 ≤ m) (hw : ∀ r ∈ samples, r.length = m)
    (hsize : samples.length = refs.length ∨ refs.length = 1) (h1 : 1 ≤ samples.length) :
    (∃ r, goodnessOfFit samples m refs "ks" = .ok r ∧ r.length = samples.length ∧ ∀ (i : ℕ) row R, samples[i]? = some row →
      refs[if refs.length = 1 then 0 else i]? = some R → ∃ v, r[i]? = some v ∧ ksStat R.cdf row = .ok v) ∧
    (∃ r, goodnessOfFit samples m refs "cvm" = .ok r ∧ r.length = samples.length ∧ ∀ (i : ℕ) row R, samples[i]? = some row →
      refs[if refs.length = 1 then 0 else i]? = some R → ∃ v, r[i]? = some v ∧ cvmStat R.cdf row = .ok v) ∧
    (∃ r, goodnessOfFit samples m refs "ad" = .ok r ∧ r.length = samples.length ∧ ∀ (i : ℕ) row R, samples[i]? = some row →
      refs[if refs.length = 1 then 0 else i]? = some R → r[i]? = some (adStat R.logcdf R.logsf row)) := by
  refine ⟨?_, ?_, ?_⟩
  · exact C74_own_partial samples m refs "ks" (fun R data => ksStat R.cdf data) hm hw (by simp [gofStat]) hsize h1
  · exact C74_own_partial samples m refs "cvm" (fun R data => cvmStat R.cdf data) hm hw (by simp [gofStat]) hsize h1
  · obtain ⟨r, hr, hl, hv⟩ := C74_own_partial samples m refs "ad" (fun R data => .ok (adStat R.logcdf R.logsf data)) hm hw (by simp [gofStat]) hsize h1
    refine ⟨r, hr, hl, fun i row R hi hR => ?_⟩
    obtain ⟨v, hv1, hv2⟩ := hv i row R hi hR
    rw [hv1, ← Except.ok.inj hv2]

/-- The sizes the call itself accepts, with at least two samples: besides the documented ones every reference size for an estimate with one
PDF, because the failed check is only logged. -/
theorem C74_accepted (samples : List (List K)) (m : ℕ) (refs : List (RefPdf K)) (name : String) (stat : RefPdf K → List K → Except Err K)
    (hm : 2 ≤ m) (hw : ∀ r ∈ samples, r.length = m) (hstat : gofStat name = some stat) (h1 : 1 ≤ samples.length) :
    ((∃ r, goodnessOfFit samples m refs name = .ok r) ↔ samples.length = refs.length ∨ refs.length = 1 ∨ samples.length = 1) ∧
    (∀ row, samples = [row] → ∀ r, goodnessOfFit samples m refs name = .ok r → r.length = refs.length ∧
      ∀ (i : ℕ) R, refs[i]? = some R → ∃ v, r[i]? = some v ∧ stat R row = .ok v) := by
  have flat1 : ∀ row : List K, squeezeSamples m [row] = .flat row := fun row => by simp [squeezeSamples, show m ≠ 1 by omega]
  constructor
  · constructor
    · rintro ⟨r, hr⟩
      rw [goodnessOfFit_eq, hstat] at hr
      by_contra hc
      simp only [not_or] at hc
      have e : squeezeSamples m samples = .rows samples := by simp [squeezeSamples, hc.2.2, show m ≠ 1 by omega]
      rw [e] at hr
      simp only [gofEval] at hr
      rw [if_neg (fun h => hc.1 h.symm)] at hr
      split at hr
      · simp at hc
      · cases hr
    · intro h
      by_cases hs : samples.length = refs.length ∨ refs.length = 1
      · obtain ⟨r, hr, _⟩ := C74_own_partial samples m refs name stat hm hw hstat hs h1
        exact ⟨r, hr⟩
      · have hs1 : samples.length = 1 := by omega
        obtain ⟨row, rfl⟩ := List.length_eq_one_iff.1 hs1
        rw [goodnessOfFit_eq, hstat]
        simp only [flat1, gofEval]
        cases hz : refs.mapM (fun R => stat R row) with
        | ok r => exact ⟨r, rfl⟩
        | error er =>
          obtain ⟨R, hR, hR'⟩ := mapM_err hz
          have hne : row ≠ [] := fun h => by have := hw row (by simp); rw [h] at this; simp at this; omega
          obtain ⟨v, hv⟩ := (gofStat_total hstat R row).1 hne
          rw [hv] at hR'; cases hR'
  · rintro row rfl r hr
    rw [goodnessOfFit_eq, hstat] at hr
    simp only [flat1, gofEval] at hr
    exact ⟨mapM_length hr, fun i R hR => mapM_get hr i R hR⟩

/-- The two ends of the unit interval as references of the same two PDFs, one sample each: both values come from both samples. -/
theorem C74_one_sample_wrong : ∃ (R : RefPdf ℚ) (r : List ℚ), goodnessOfFit [[1/4], [3/4]] 1 [R, R] "ks" = .ok r ∧
    ksStat R.cdf [1/4] = .ok (3/4) ∧ r = [1/4, 1/4] :=
  ⟨⟨id, id, id⟩, [1/4, 1/4], by decide +kernel, by decide +kernel, rfl⟩

/-- One sample of one PDF: `ValueError`. -/
theorem C74_scalar_fails (x : K) (refs : List (RefPdf K)) (name : String) (h : gofStat (K := K) name ≠ none) :
    goodnessOfFit [[x]] 1 refs name = .error .ValueError := by
  rw [goodnessOfFit_eq]
  cases hs : gofStat (K := K) name with
  | none => exact absurd hs h
  | some stat => simp [squeezeSamples, gofEval]

/-- One estimate, two references: two values, although the check of the sizes fails. -/
theorem C74_mismatch_accepted : checkNumbers 1 2 = .error .ValueError ∧
    goodnessOfFit (K := ℚ) [[1/4, 3/4]] 2 [⟨id, id, id⟩, ⟨fun x => x / 2, id, id⟩] "ks" = .ok [1/4, 5/8] := by
  constructor <;> decide +kernel

/-- two estimates with two references, two estimates with one reference -/
example : goodnessOfFit (K := ℚ) [[1/4, 3/4], [0, 1/2]] 2 [⟨id, id, id⟩, ⟨fun x => x / 2, id, id⟩] "ks" = .ok [1/4, 3/4] ∧
    goodnessOfFit (K := ℚ) [[1/4, 3/4], [0, 1/2]] 2 [⟨id, id, id⟩] "ks" = .ok [1/4, 1/2] ∧
    goodnessOfFit (K := ℚ) [[1/4, 3/4], [0, 1/2], [0, 1]] 2 [⟨id, id, id⟩, ⟨id, id, id⟩] "ks" = .error .ValueError := by decide +kernel

end Verif.Props.Metrics
