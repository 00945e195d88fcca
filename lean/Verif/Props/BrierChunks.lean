import Verif.Props.Brier
import Verif.Lemmas.Classes

/-!
# C63: the Brier score from chunks
-/

set_option linter.unusedSectionVars false
set_option autoImplicit false

namespace Verif.Props.Metrics

open Verif Verif.Np Verif.Model Verif.Props.Convert

variable {K : Type} [Field K] [LinearOrder K] [IsStrictOrderedRing K] [FloorRing K]

/-- several ensembles (each with its truth values) put one after the other -/
def stackFns (cs : List (FnEns K × List K)) : FnEns K × List K :=
  (⟨[(cs.map fun c => c.1.npdf).sum], (cs.map fun c => c.1.fns).flatten⟩, (cs.map (·.2)).flatten)

/-- an ensemble with one index, one truth value per PDF, all of them between the limits -/
structure GoodChunk (l0 l1 : K) (c : FnEns K × List K) : Prop where
  shape : c.1.shape = [c.2.length]
  fns : c.1.fns.length = c.2.length
  limits : InLimits l0 l1 c.2

/-- the encoded row of one truth value -/
def histRow (edges : List K) (t : K) : List K := (((npHistogram edges [t]).toOption).getD []).map fun (c : ℕ) => (c : K)

/-- squared distances between the gridded PDFs and the encoded truths -/
def brierTerms (g : MGrid K) (c : FnEns K × List K) : List K :=
  List.zipWith (fun f t => sqDist (g.values.map f) (histRow g.edges t)) c.1.fns c.2

theorem histRow_length (l0 l1 dx : K) (g : MGrid K) (hl : l0 < l1) (h : gridParams l0 l1 dx = .ok g) (t : K) (h0 : l0 ≤ t) (h1 : t ≤ l1) :
    (histRow g.edges t).length = g.card := by
  obtain ⟨i, _, h2, _⟩ := C61_one_hot l0 l1 dx g hl h t h0 h1
  simp [histRow, h2, Except.toOption, length_oneHot]

theorem truthArray_eq (l0 l1 dx : K) (g : MGrid K) (hl : l0 < l1) (h : gridParams l0 l1 dx = .ok g) (truth : List K)
    (ht : InLimits l0 l1 truth) (hne : truth ≠ []) :
    truthArray g.edges truth = .ok ⟨if truth.length = 1 then [g.card] else [truth.length, g.card], (truth.map (histRow g.edges)).flatten⟩ := by
  have h1 : truth.mapM (fun t => npHistogram g.edges [t]) = .ok (truth.map fun t => ((npHistogram g.edges [t]).toOption).getD []) := by
    apply Lemmas.mapM_ok_map
    intro t htt
    obtain ⟨i, _, h2, _⟩ := C61_one_hot l0 l1 dx g hl h t (ht t htt).1 (ht t htt).2
    simp [h2, Except.toOption]
  obtain ⟨_, _, _, hcard, _, _, hedge, _⟩ := gridParams_ok h
  have hel : g.edges.length = g.card + 1 := by rw [hedge, length_linspace]
  simp only [truthArray, h1, Bind.bind, Except.bind]
  rw [if_neg (by simpa using hne)]
  congr 1
  have e1 : g.edges.length - 1 = g.card := by omega
  simp only [Arr.squeeze, Arr.ofRows, List.length_map, e1, List.map_map]
  congr 1
  by_cases h1' : truth.length = 1
  · simp [h1', show g.card ≠ 1 by omega]
  · simp [h1', show g.card ≠ 1 by omega]

theorem lt_of_grid {l0 l1 dx : K} {g : MGrid K} (h : gridParams l0 l1 dx = .ok g) {truth : List K} (ht : InLimits l0 l1 truth)
    (hne : truth ≠ []) : l0 < l1 := by
  obtain ⟨t, htt⟩ := List.exists_mem_of_ne_nil _ hne
  have hle := (ht t htt).1.trans (ht t htt).2
  refine lt_of_le_of_ne hle ?_
  rintro rfl
  have := (gridParams_ok h).2.1
  simp at this
  linarith

theorem prepare_eq (l0 l1 dx : K) (g : MGrid K) (h : gridParams l0 l1 dx = .ok g) (e : FnEns K) (truth : List K)
    (hn : e.npdf = truth.length) (ht : InLimits l0 l1 truth) (hne : truth ≠ []) :
    prepareBrier e truth l0 l1 dx = .ok (e.at g.values,
      ⟨if truth.length = 1 then [g.card] else [truth.length, g.card], (truth.map (histRow g.edges)).flatten⟩) := by
  unfold prepareBrier
  rw [if_neg (by simpa using hn), if_neg (by rw [(inLimits_iff l0 l1 truth).2 ht]; simp), h]
  simp only [Bind.bind, Except.bind]
  rw [truthArray_eq l0 l1 dx g (lt_of_grid h ht hne) h truth ht hne]

theorem brierSums_chunk (l0 l1 dx : K) (g : MGrid K) (h : gridParams l0 l1 dx = .ok g) (c : FnEns K × List K)
    (hc : GoodChunk l0 l1 c) (h2 : 2 ≤ c.2.length) :
    ∃ p t, prepareBrier c.1 c.2 l0 l1 dx = .ok (p, t) ∧ brierSums p t = .ok (brierTerms g c) := by
  have hne : c.2 ≠ [] := by intro h'; simp [h'] at h2
  have hl := lt_of_grid h hc.limits hne
  refine ⟨_, _, prepare_eq l0 l1 dx g h c.1 c.2 (by simp [FnEns.npdf, hc.shape]) hc.limits hne, ?_⟩
  have hv : g.values.length = g.card := (C60_grid_partial l0 l1 dx g hl h).1
  rw [if_neg (by omega)]
  have e1 : c.1.at g.values = .ofRows [g.card] (c.1.fns.map fun f => g.values.map f) := by
    simp [FnEns.at, Arr.ofRows, hc.shape, hc.fns, hv]
  have e2 : (⟨[c.2.length, g.card], (c.2.map (histRow g.edges)).flatten⟩ : Arr K) = .ofRows [g.card] (c.2.map (histRow g.edges)) := by
    simp [Arr.ofRows]
  rw [e1, e2]
  simp only [brierSums]
  rw [if_neg (by simp [Arr.ofRows, hc.fns])]
  simp only [Arr.ofRows]
  have r1 := Arr.rows_ofRows [g.card] (c.1.fns.map fun f => g.values.map f) (by
    intro r hr; simp only [List.mem_map] at hr; obtain ⟨f, _, rfl⟩ := hr; simp [hv])
  have r2 := Arr.rows_ofRows [g.card] (c.2.map (histRow g.edges)) (by
    intro r hr
    simp only [List.mem_map] at hr
    obtain ⟨t, ht, rfl⟩ := hr
    simpa using histRow_length l0 l1 dx g hl h t (hc.limits t ht).1 (hc.limits t ht).2)
  simp only [Arr.ofRows] at r1 r2
  rw [r1, r2]
  simp only [brierTerms, List.zipWith_map]

theorem stack_good (l0 l1 : K) (cs : List (FnEns K × List K)) (h : ∀ c ∈ cs, GoodChunk l0 l1 c) : GoodChunk l0 l1 (stackFns cs) := by
  have hlen : (cs.map fun c => c.1.npdf).sum = ((cs.map (·.2)).flatten).length := by
    rw [List.length_flatten, List.map_map]
    congr 1
    apply List.map_congr_left
    intro c hc
    simp [FnEns.npdf, (h c hc).shape]
  refine ⟨by simp only [stackFns, hlen], ?_, ?_⟩
  · simp only [stackFns, List.length_flatten, List.map_map]
    congr 1
    apply List.map_congr_left
    intro c hc
    simpa using (h c hc).fns
  · intro t ht
    simp only [stackFns, List.mem_flatten, List.mem_map] at ht
    obtain ⟨_, ⟨c, hc, rfl⟩, ht⟩ := ht
    exact (h c hc).limits t ht

theorem terms_stack (g : MGrid K) (cs : List (FnEns K × List K)) (h : ∀ c ∈ cs, c.1.fns.length = c.2.length) :
    brierTerms g (stackFns cs) = (cs.map (brierTerms g)).flatten := by
  induction cs with
  | nil => rfl
  | cons c cs ih =>
    simp only [brierTerms, stackFns, List.map_cons, List.flatten_cons] at ih ⊢
    rw [List.zipWith_append (h c (by simp)), ih fun c hc => h c (by simp [hc])]

omit [FloorRing K] in
theorem sum_append (a b : List K) : Np.sum (a ++ b) = Np.sum a + Np.sum b := by simp [sum_eq]

omit [FloorRing K] in
theorem sum_flatten (l : List (List K)) : Np.sum l.flatten = Np.sum (l.map Np.sum) := by
  induction l with
  | nil => rfl
  | cons a l ih => simp only [List.flatten_cons, sum_append, List.map_cons, ih]; simp [Np.sum]

omit [FloorRing K] in
theorem sum_cast (l : List ℕ) : Np.sum (l.map fun (n : ℕ) => (n : K)) = ((l.sum : ℕ) : K) := by
  rw [sum_eq]; push_cast; rfl

/-- **C63.** Chunks of two or more PDFs: accumulating them one by one and finalising gives the same as the score of everything at once -- also
the same exception when the grid cannot be made. (The statement lacks chunks of a single PDF, for which the code raises:
`C63_single_fails`.) -/
theorem C63_chunks_partial (cs : List (FnEns K × List K)) (l0 l1 dx : K) (hne : cs ≠ []) (h : ∀ c ∈ cs, GoodChunk l0 l1 c)
    (h2 : ∀ c ∈ cs, 2 ≤ c.2.length) :
    ((cs.mapM fun c => accumulateBrier c.1 c.2 l0 l1 dx) >>= finalizeBrier)
      = calculateBrier (stackFns cs).1 (stackFns cs).2 l0 l1 dx := by
  have hg := stack_good l0 l1 cs h
  have hlen2 : 2 ≤ (stackFns cs).2.length := by
    obtain ⟨c, hc⟩ := List.exists_mem_of_ne_nil _ hne
    simp only [stackFns, List.length_flatten, List.map_map]
    refine (h2 c hc).trans (List.single_le_sum (by simp) _ ?_)
    simp only [List.mem_map]
    exact ⟨c, hc, rfl⟩
  cases hgr : gridParams l0 l1 dx with
  | error er =>
    have he : ∀ c, GoodChunk l0 l1 c → prepareBrier c.1 c.2 l0 l1 dx = .error er := by
      intro c hc
      unfold prepareBrier
      rw [if_neg (by simp [FnEns.npdf, hc.shape]), if_neg (by rw [(inLimits_iff l0 l1 c.2).2 hc.limits]; simp), hgr]
      rfl
    obtain ⟨c, cs', rfl⟩ := List.exists_cons_of_ne_nil hne
    have : accumulateBrier c.1 c.2 l0 l1 dx = .error er := by
      simp [accumulateBrier, he c (h c (by simp)), Bind.bind, Except.bind]
    rw [List.mapM_cons]
    simp only [this, calculateBrier, he _ hg, Bind.bind, Except.bind]
  | ok g =>
    have hacc : cs.mapM (fun c => accumulateBrier c.1 c.2 l0 l1 dx) = .ok (cs.map fun c => (Np.sum (brierTerms g c), c.2.length)) := by
      apply Lemmas.mapM_ok_map
      intro c hc
      obtain ⟨p, t, hp, hs⟩ := brierSums_chunk l0 l1 dx g hgr c (h c hc) (h2 c hc)
      simp [accumulateBrier, hp, brierAccumulate, hs, Bind.bind, Except.bind, Except.map, FnEns.npdf, (h c hc).shape]
    obtain ⟨p, t, hp, hs⟩ := brierSums_chunk l0 l1 dx g hgr (stackFns cs) hg hlen2
    rw [hacc]
    simp only [calculateBrier, hp, Bind.bind, Except.bind, brierEvaluate, hs, Except.map, finalizeBrier]
    rw [if_neg (by simpa using hne)]
    congr 1
    rw [terms_stack g cs fun c hc => (h c hc).fns]
    have hl : ((cs.map (brierTerms g)).flatten).length = (cs.map fun c => c.2.length).sum := by
      rw [List.length_flatten, List.map_map]
      congr 1
      apply List.map_congr_left
      intro c hc
      simp [brierTerms, (h c hc).fns]
    have hsum : (cs.map fun c => c.2.length).sum = (stackFns cs).2.length := by
      simp only [stackFns, List.length_flatten, List.map_map]; rfl
    have hpos : 0 < (cs.map fun c => c.2.length).sum := by omega
    unfold npMean npDiv
    simp only [List.map_map, Function.comp_def]
    have hcast : Np.sum (cs.map fun c => (c.2.length : K)) = (((cs.map fun c => c.2.length).sum : ℕ) : K) := by
      rw [← sum_cast, List.map_map]; rfl
    rw [hcast, if_neg (by exact_mod_cast hpos.ne'), if_neg (by intro h'; rw [← List.length_eq_zero_iff] at h'; omega), sum_flatten, hl]
    simp only [List.map_map, Function.comp_def]

/-- **C63, the code.** An ensemble (or chunk) of one PDF raises `ValueError` although its truth value is in range and the grid is fine: the
encoded truth loses its first axis. -/
theorem C63_single_fails (f : K → K) (t l0 l1 dx : K) (g : MGrid K) (h : gridParams l0 l1 dx = .ok g) (h0 : l0 ≤ t) (h1 : t ≤ l1) :
    calculateBrier ⟨[1], [f]⟩ [t] l0 l1 dx = .error .ValueError ∧ accumulateBrier ⟨[1], [f]⟩ [t] l0 l1 dx = .error .ValueError := by
  have ht : InLimits l0 l1 [t] := by intro s hs; simp only [List.mem_singleton] at hs; subst hs; exact ⟨h0, h1⟩
  have hp := prepare_eq l0 l1 dx g h ⟨[1], [f]⟩ [t] (by simp [FnEns.npdf]) ht (by simp)
  simp only [calculateBrier, accumulateBrier, hp, Bind.bind, Except.bind, brierEvaluate, brierAccumulate, brierSums, FnEns.at]
  simp [Except.map]

/-- **C63.** A single PDF whose data were given as a 1-D array (an ensemble without index) does work. -/
theorem C63_single_flat (f : K → K) (t l0 l1 dx : K) (g : MGrid K) (h : gridParams l0 l1 dx = .ok g) (h0 : l0 ≤ t) (h1 : t ≤ l1) :
    ∃ i < g.card, NearestAt g.values g.resolution t i ∧
      calculateBrier ⟨[], [f]⟩ [t] l0 l1 dx = .ok (some (sqDist (g.values.map f) ((oneHot g.card i).map fun (c : ℕ) => (c : K)))) := by
  have ht : InLimits l0 l1 [t] := by intro s hs; simp only [List.mem_singleton] at hs; subst hs; exact ⟨h0, h1⟩
  have hl := lt_of_grid h ht (by simp)
  obtain ⟨i, hi, hh, hn⟩ := C61_one_hot l0 l1 dx g hl h t h0 h1
  refine ⟨i, hi, hn, ?_⟩
  have hp := prepare_eq l0 l1 dx g h ⟨[], [f]⟩ [t] (by simp [FnEns.npdf]) ht (by simp)
  have hv : g.values.length = g.card := (C60_grid_partial l0 l1 dx g hl h).1
  simp only [calculateBrier, hp, Bind.bind, Except.bind, brierEvaluate, brierSums, FnEns.at]
  simp [Except.map, hv, npMean, histRow, hh, Except.toOption, Np.sum]

/-- the PDFs used in the example -/
private def exPdf (a : ℚ) : ℚ → ℚ := fun x => a + (1 - 2 * a) * x

/-- not vacuous: five PDFs in chunks of two and three -/
example : ∃ b : ℚ,
    (([(⟨[2], [exPdf 0, exPdf 1]⟩, [0, 1 / 2]), (⟨[3], [exPdf (1 / 2), exPdf 0, exPdf 1]⟩, [1, 1 / 3, 1 / 4])] : List (FnEns ℚ × List ℚ)).mapM
        (fun c => accumulateBrier c.1 c.2 0 1 (1 / 4)) >>= finalizeBrier) = .ok (some b) ∧ b ≠ 0 ∧
    calculateBrier ⟨[5], [exPdf 0, exPdf 1, exPdf (1 / 2), exPdf 0, exPdf 1]⟩ [0, 1 / 2, 1, 1 / 3, 1 / 4] 0 1 (1 / 4) = .ok (some b) := by
  refine ⟨77 / 45, ?_, by norm_num, ?_⟩ <;> decide +kernel

end Verif.Props.Metrics
