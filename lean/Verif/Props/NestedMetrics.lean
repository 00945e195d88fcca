import Verif.Model.NestedPit
import Verif.Props.Pit
import Verif.Props.CdeLoss
import Verif.Props.Brier
import Verif.Props.TrueCounts

/-!
# C156: metrics of ensembles with several indices

An ensemble may have several indices (C44). Its metrics against true values should be those of the same PDFs in a row, or be refused. The Brier
score is always refused. The CDE loss is refused except for shape `(n, 1, ..., 1)` with all true values next to the first grid point, and then its
second term is the mean of all densities at all grid points. The PIT is right for shape `(1, n)`, refused for most other shapes, and for shape
`(n, 1)` mixes the PDFs and the true values: there are `n * n` samples, each PDF at each true value.
-/

set_option linter.unusedSectionVars false
set_option autoImplicit false

namespace Verif.Props.Metrics

open Verif Verif.Np Verif.Model Verif.Lemmas

section
variable {K : Type} [Field K] [LinearOrder K] [IsStrictOrderedRing K]

/-! ## CDE loss -/

/-- the true value is next to the first grid point -/
def AtFirst (xs : List K) (z : K) : Prop := nearest xs z = .ok 0

theorem zip_range_all (n a b : ℕ) (nns : List ℕ) (hn : n = nns.length) :
    (((List.range n).zip nns).all fun p => decide (p.1 < a) && decide (p.2 < b)) = true ↔ n ≤ a ∧ ∀ j ∈ nns, j < b := by
  rw [List.all_eq_true]
  constructor
  · intro h
    refine ⟨?_, fun j hj => ?_⟩
    · by_contra hc
      have hi : a < ((List.range n).zip nns).length := by simp [← hn]; omega
      have := h _ (List.getElem_mem hi)
      simp at this
    · obtain ⟨i, hi, rfl⟩ := List.mem_iff_getElem.1 hj
      have hi' : i < ((List.range n).zip nns).length := by simp [hn]; omega
      have := h _ (List.getElem_mem hi')
      simp at this
      exact this.2
  · rintro ⟨h1, h2⟩ ⟨i, j⟩ hp
    have := List.of_mem_zip hp
    simp only [List.mem_range] at this
    simp only [Bool.and_eq_true, decide_eq_true_eq]
    exact ⟨by omega, h2 j this.2⟩

theorem flat_blocks {α : Type} (l : List (List α)) : ((List.range l.length).flatMap fun i => ((l.drop i).take 1).flatten) = l.flatten := by
  induction l with
  | nil => rfl
  | cons r l ih =>
    rw [List.length_cons, List.range_succ_eq_map, List.flatMap_cons, List.flatMap_map]
    simp [ih]

theorem cdeTerms_nested (xs : List K) (e : FnEns K) (zs : List K) (a b : ℕ) (rest : List ℕ) (hs : e.shape = a :: b :: rest)
    (hf : e.fns.length = e.npdf) (hz : zs.length = e.npdf) (hne : zs ≠ []) (hx : xs ≠ []) :
    (2 ≤ b * rest.prod → cdeTerms xs e zs = .error .IndexError) ∧
    (b * rest.prod = 1 → (∃ z ∈ zs, ¬ AtFirst xs z) → cdeTerms xs e zs = .error .IndexError) ∧
    (b * rest.prod = 1 → (∀ z ∈ zs, AtFirst xs z) →
      cdeTerms xs e zs = .ok (e.fns.map fun f => trapz xs (xs.map fun x => f x ^ 2), e.fns.flatMap fun f => xs.map f)) := by
  have hp : e.npdf = a * (b * rest.prod) := by simp [FnEns.npdf, hs]
  have hpos : 0 < e.npdf := by rw [← hz]; exact List.length_pos_iff.2 hne
  have hl : e.npdf = (zs.map fun z => ((nearest xs z).toOption).getD 0).length := by simp [hz]
  simp only [cdeTerms, hs, near_mapM xs zs hx, Bind.bind, Except.bind, fancyBlocks, if_pos hl]
  refine ⟨fun h2 => ?_, fun h1 ⟨z, hzz, hzn⟩ => ?_, fun h1 hall => ?_⟩
  · rw [if_neg]
    rw [zip_range_all _ _ _ _ hl]
    rintro ⟨hle, -⟩
    have : 0 < a := by
      rcases Nat.eq_zero_or_pos a with h0 | h0
      · rw [hp, h0] at hpos; simp at hpos
      · exact h0
    rw [hp] at hle
    nlinarith
  · rw [if_neg]
    rw [zip_range_all _ _ _ _ hl]
    rintro ⟨-, hj⟩
    have hb : b = 1 := Nat.eq_one_of_mul_eq_one_right h1
    have := hj _ (List.mem_map_of_mem hzz)
    obtain ⟨i, hi, -⟩ := nearest_ok xs z hx
    simp only [hi, Except.toOption, Option.getD_some, hb, Nat.lt_one_iff] at this
    exact hzn (by rw [AtFirst, hi, this])
  · have hb : b = 1 := Nat.eq_one_of_mul_eq_one_right h1
    have hr : rest.prod = 1 := Nat.eq_one_of_mul_eq_one_left h1
    have hmap : (zs.map fun z => ((nearest xs z).toOption).getD 0) = List.replicate e.npdf 0 := by
      rw [List.eq_replicate_iff]
      refine ⟨by simp [hz], ?_⟩
      intro j hj
      obtain ⟨z, hz', rfl⟩ := List.mem_map.1 hj
      rw [hall z hz']
      rfl
    rw [if_pos]
    · simp only [Except.ok.injEq, Prod.mk.injEq]
      refine ⟨by simp [Function.comp_def], ?_⟩
      rw [hmap]
      have hzip : (List.range e.npdf).zip (List.replicate e.npdf 0) = (List.range e.npdf).map fun i => (i, 0) := by
        have := zip_rep_right (fun (i j : ℕ) => (i, j)) (List.range e.npdf) 0
        simpa [List.zip] using this
      rw [hzip, List.flatMap_map, hb, hr]
      simp only [mul_one, add_zero]
      have := flat_blocks (e.fns.map fun f => xs.map f)
      rw [List.length_map, hf] at this
      rw [this, List.flatMap_def]
    · rw [zip_range_all _ _ _ _ hl, hmap]
      refine ⟨by rw [hp, h1]; omega, ?_⟩
      intro j hj
      rw [List.eq_of_mem_replicate hj]
      omega

/-- **C156, CDE loss.** One true value per PDF, several indices. Refused when the indices after the first count more than one PDF, or when some true
value is not next to the first grid point. In the remaining case the second term is the mean of all densities at all grid points. What is missing for the full
statement: the last case is neither refused nor right (`C156_cde_wrong`). -/
theorem C156_cde_partial (xs : List K) (e : FnEns K) (zs : List K) (a b : ℕ) (rest : List ℕ) (hs : e.shape = a :: b :: rest)
    (hf : e.fns.length = e.npdf) (hz : zs.length = e.npdf) (hne : zs ≠ []) (hx : xs ≠ []) :
    (2 ≤ b * rest.prod ∨ (∃ z ∈ zs, ¬ AtFirst xs z) → cdeEvaluate xs e zs = .error .IndexError ∧ cdeAccumulate xs e zs = .error .IndexError) ∧
    (b * rest.prod = 1 → (∀ z ∈ zs, AtFirst xs z) →
      cdeEvaluate xs e zs = .ok (some ((e.fns.map fun f => trapz xs (xs.map fun x => f x ^ 2)).sum / e.npdf
        - 2 * ((e.fns.map fun f => (xs.map f).sum).sum / (e.npdf * xs.length))))) := by
  obtain ⟨h1, h2, h3⟩ := cdeTerms_nested xs e zs a b rest hs hf hz hne hx
  have hpos : 0 < e.npdf := by rw [← hz]; exact List.length_pos_iff.2 hne
  have hp : e.npdf = a * (b * rest.prod) := by simp [FnEns.npdf, hs]
  refine ⟨fun h => ?_, fun hb hall => ?_⟩
  · have : cdeTerms xs e zs = .error .IndexError := by
      by_cases hb : 2 ≤ b * rest.prod
      · exact h1 hb
      · refine h2 ?_ (h.resolve_left hb)
        have : b * rest.prod ≠ 0 := by rintro h0; rw [hp, h0] at hpos; simp at hpos
        omega
    simp [cdeEvaluate, cdeAccumulate, this, Bind.bind, Except.bind]
  · have hfn : e.fns ≠ [] := by rintro h0; rw [h0] at hf; simp at hf; omega
    obtain ⟨x, xs', hxx⟩ := List.exists_cons_of_ne_nil hx
    obtain ⟨f, fs, hff⟩ := List.exists_cons_of_ne_nil hfn
    simp only [cdeEvaluate, h3 hb hall, Bind.bind, Except.bind]
    rw [npMean, if_neg (by simpa using hfn), npMean, if_neg (by rw [hff, hxx]; simp)]
    have hl : (e.fns.flatMap fun f => xs.map f).length = e.npdf * xs.length := by
      rw [List.length_flatMap]
      simp [hf]
    have hsum : (e.fns.flatMap fun f => xs.map f).sum = (e.fns.map fun f => (xs.map f).sum).sum := by
      rw [List.flatMap_def, List.sum_flatten, List.map_map]
      rfl
    simp only [Option.bind_some, Option.map_some, sum_eq, hl, hsum, List.length_map, hf, Nat.cast_mul]

/-- Shape `(2, 1)`, both true values at the first grid point: the loss of the same two PDFs in a row is another number. -/
theorem C156_cde_wrong : ∃ (xs : List ℚ) (fns : List (ℚ → ℚ)) (zs : List ℚ) (v w : ℚ), zs.length = 2 ∧ fns.length = 2 ∧
    cdeEvaluate xs ⟨[2], fns⟩ zs = .ok (some v) ∧ cdeEvaluate xs ⟨[2, 1], fns⟩ zs = .ok (some w) ∧ v ≠ w :=
  ⟨[0, 1], [fun x => 2 * x, fun _ => 1], [0, 1/4], 3/2 - 1, 3/2 - 2, by decide +kernel, by decide +kernel, by decide +kernel,
    by decide +kernel, by decide +kernel⟩

/-- a two by two ensemble with one true value for each PDF is refused -/
example : cdeEvaluate [0, (1 : ℚ)] ⟨[2, 2], [fun _ => 1, fun _ => 1, fun _ => 1, fun _ => 1]⟩ [0, 0, 0, 0] = .error .IndexError :=
  ((C156_cde_partial [0, (1 : ℚ)] ⟨[2, 2], [fun _ => 1, fun _ => 1, fun _ => 1, fun _ => 1]⟩ [0, 0, 0, 0] 2 2 [] rfl (by decide) (by decide)
    (by decide) (by decide)).1 (.inl (by decide))).1

/-! ## Brier score -/

/-- **C156, Brier score.** An ensemble with several indices never gets a score, whatever the true values. -/
theorem C156_brier [FloorRing K] (e : FnEns K) (truth : List K) (l0 l1 dx : K) (a b : ℕ) (rest : List ℕ) (hs : e.shape = a :: b :: rest) :
    (∀ v, calculateBrier e truth l0 l1 dx ≠ .ok v) ∧ (∀ v, accumulateBrier e truth l0 l1 dx ≠ .ok v) := by
  have key : ∀ p t, prepareBrier e truth l0 l1 dx = .ok (p, t) → brierSums p t = .error .ValueError := by
    intro p t h
    unfold prepareBrier at h
    split_ifs at h
    cases hg : gridParams l0 l1 dx with
    | error er => rw [hg] at h; simp [Bind.bind, Except.bind] at h
    | ok g =>
      rw [hg] at h
      cases ht : truthArray g.edges truth with
      | error er => simp [ht, Bind.bind, Except.bind] at h
      | ok T =>
        simp only [ht, Bind.bind, Except.bind, Except.ok.injEq, Prod.mk.injEq] at h
        obtain ⟨rfl, rfl⟩ := h
        have hlen : T.shape.length ≤ 2 := by
          unfold truthArray at ht
          cases hm : truth.mapM fun t => npHistogram g.edges [t] with
          | error er => rw [hm] at ht; simp [Bind.bind, Except.bind] at ht
          | ok rows =>
            rw [hm] at ht
            simp only [Bind.bind, Except.bind] at ht
            split_ifs at ht
            · cases ht; simp
            · cases ht
              simp only [Arr.squeeze, Arr.ofRows]
              exact (List.length_filter_le _ _).trans (by simp)
        unfold brierSums
        rw [if_pos]
        intro hc
        rw [← hc] at hlen
        simp [FnEns.at, hs] at hlen
  constructor
  · intro v h
    cases hp : prepareBrier e truth l0 l1 dx with
    | error er => simp [calculateBrier, hp, Bind.bind, Except.bind] at h
    | ok q => obtain ⟨p, t⟩ := q; simp [calculateBrier, hp, Bind.bind, Except.bind, brierEvaluate, key p t hp, Except.map] at h
  · intro v h
    cases hp : prepareBrier e truth l0 l1 dx with
    | error er => simp [accumulateBrier, hp, Bind.bind, Except.bind] at h
    | ok q => obtain ⟨p, t⟩ := q; simp [accumulateBrier, hp, Bind.bind, Except.bind, brierAccumulate, key p t hp, Except.map] at h

/-- two PDFs in shape `(2, 1)` on a grid of four points, where the same PDFs in a row get a score -/
example : calculateBrier ⟨[2, 1], [fun _ => 1, fun x => 2 * x]⟩ [1/4, (1/2 : ℚ)] 0 1 (1/4) = .error .ValueError ∧
    calculateBrier ⟨[2], [fun _ => 1, fun x => 2 * x]⟩ [1/4, (1/2 : ℚ)] 0 1 (1/4) = .ok (some (34/9)) := by decide +kernel

/-! ## PIT -/

theorem zipIdx_mod (cdfs : List (K → Option K)) (zs : List K) (h : cdfs.length = zs.length) :
    (cdfs.zipIdx.map fun c => ((zs[c.2 % zs.length]?).bind c.1).getD 0) = List.zipWith (fun F z => (F z).getD 0) cdfs zs := by
  apply List.ext_getElem
  · simp [h]
  · intro i hi hi'
    have hz : i < zs.length := by simp [h] at hi; exact hi
    simp [Nat.mod_eq_of_lt hz, hz]

/-- the general definition with one index is the definition used so far -/
theorem pitNd_one (n : ℕ) (cdfs : List (K → Option K)) (zs : List K) (h : cdfs.length = n) :
    pitSamplesNd [] n cdfs zs = pitSamples cdfs zs := by
  subst h
  unfold pitSamplesNd
  by_cases h0 : zs = []
  · simp [pitSamples, h0]
  rw [if_neg h0]
  by_cases h1 : zs.length = cdfs.length
  · unfold pitSamples
    rw [if_pos h1, if_neg h0, if_neg (by simpa using h1.symm), ← h1, zipIdx_mod cdfs zs h1.symm]
    rfl
  rw [if_neg h1]
  by_cases h2 : cdfs.length = 1
  · obtain ⟨F, rfl⟩ := List.length_eq_one_iff.1 h2
    match zs, h0 with
    | [_], _ => simp at h1
    | _ :: _ :: _, _ => simp [pitSamples]
  rw [if_neg h2]
  match zs, cdfs, h0 with
  | [z], [], _ => simp [pitSamples]
  | [z], [_], _ => simp at h1
  | [z], _ :: _ :: _, _ => simp [pitSamples]
  | _ :: _ :: _, [], _ => simp [pitSamples]
  | _ :: _ :: _, [_], _ => simp at h2
  | a :: b :: l, F :: G :: m, _ =>
    simp only
    unfold pitSamples
    rw [if_neg (by simp), if_pos (by simpa using Ne.symm h1)]

/-- **C156, PIT.** `a` times `b` PDFs with two indices and one true value for each. (1) For `a = 1` the samples and the PIT distribution are those of the same
PDFs in a row. (2) When `a` and `b` are at least two, it is refused. (3) For `b = 1` there are `a * a` samples: each PDF at each true value. What is
missing for the full statement: the last case is accepted. -/
theorem C156_pit_partial [FloorRing K] (a b : ℕ) (cdfs : List (K → Option K)) (zs grid : List K) (hc : cdfs.length = a * b) (hz : zs.length = a * b)
    (h2 : 2 ≤ a * b) :
    (a = 1 → (pitInitNd [a] b cdfs zs grid).map (fun r => (r.1.data, r.2)) = pitInit cdfs zs grid) ∧
    (2 ≤ a → 2 ≤ b → pitInitNd [a] b cdfs zs grid = .error .ValueError) ∧
    (b = 1 → ∃ s, pitSamplesNd [a] b cdfs zs = .ok s ∧ s.shape = [a, a] ∧ s.data.Perm (cdfs.flatMap fun F => zs.map fun z => (F z).getD 0)) := by
  have h0 : zs ≠ [] := by
    rintro rfl
    rw [← hz] at h2
    simp at h2
  refine ⟨?_, ?_, ?_⟩
  · rintro rfl
    have hs : pitSamplesNd [1] b cdfs zs = pitSamples cdfs zs := by
      rw [← pitNd_one b cdfs zs (by simpa using hc)]
      unfold pitSamplesNd
      rw [if_neg h0, if_pos (by simpa using hz), if_neg h0, if_pos (by simpa using hz)]
      simp [Arr.squeeze]
    unfold pitInitNd pitInit
    rw [hs]
    cases pitSamples cdfs zs with
    | error e => rfl
    | ok s =>
      simp only [Bind.bind, Except.bind]
      cases arrLen s with
      | error e => rfl
      | ok n =>
        simp only
        cases (pitGrid n grid).mapM fun p => npQuantile p s.data <;> rfl
  · intro ha hb
    have hlt : b < a * b := by nlinarith
    have : pitSamplesNd [a] b cdfs zs = .error .ValueError := by
      unfold pitSamplesNd
      rw [if_neg h0, if_neg (by omega), if_neg (by omega)]
      match zs, h0 with
      | [z], _ => simp at hz; omega
      | _ :: _ :: _, _ => rfl
    simp [pitInitNd, this, Bind.bind, Except.bind]
  · rintro rfl
    rw [mul_one] at *
    refine ⟨_, by unfold pitSamplesNd; rw [if_neg h0, if_neg (by omega), if_pos rfl], ?_, ?_⟩
    · simp [Arr.squeeze, hz, show a ≠ 1 by omega]
    · simp only [Arr.squeeze]
      refine List.Perm.flatMap (List.Perm.refl _) fun F _ => List.Perm.map _ ?_
      split_ifs
      · exact List.perm_insertionSort _ _
      · exact List.Perm.refl _

/-- Two PDFs in shape `(2, 1)` with one true value each: four samples instead of two, and another PIT distribution. -/
theorem C156_pit_wrong : ∃ (cdfs : List (ℚ → Option ℚ)) (zs grid : List ℚ) (s s' : List ℚ) (q q' : List ℚ × List ℚ),
    cdfs.length = 2 ∧ zs.length = 2 ∧ pitInit cdfs zs grid = .ok (s, q) ∧
    (pitInitNd [2] 1 cdfs zs grid).map (fun r => (r.1.data, r.2)) = .ok (s', q') ∧ s.length = 2 ∧ s'.length = 4 ∧ q ≠ q' :=
  ⟨[fun z => some (z / 2), fun z => some (z / 8)], [1, 3/2], [0, 1], [1/2, 3/16], [1/2, 3/4, 1/8, 3/16], ([0, 1], [3/16, 1/2]), ([0, 1], [1/8, 3/4]),
    by decide +kernel, by decide +kernel, by decide +kernel, by decide +kernel, by decide +kernel, by decide +kernel, by decide +kernel⟩

end
end Verif.Props.Metrics
