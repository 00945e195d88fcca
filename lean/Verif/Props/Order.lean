import Verif.Model.PitMeta
import Verif.Model.Gof
import Verif.Props.PointStats
import Verif.Props.BrierChunks
import Verif.Props.CdeLoss
import Verif.Props.Divergence
import Verif.Lemmas.Sorted

/-!
# C129: the order of the objects does not matter

The objects are a list of pairs (estimate, truth). `objs.Perm objs'`: the same pairs in another order. The statements compare what the metrics return for the two
orders, exceptions included. Numbers are exact: sums of floating-point numbers may differ in the last digits.
-/

set_option linter.unusedSectionVars false
set_option autoImplicit false

namespace Verif.Props.Order

open Verif Verif.Np Verif.Model Verif.Lemmas Verif.Props.Metrics

variable {K : Type} [Field K] [LinearOrder K] [IsStrictOrderedRing K]

/-! ## lists -/

theorem zip_map {A B C : Type} (f : A → B → C) (l : List (A × B)) : List.zipWith f (l.map Prod.fst) (l.map Prod.snd) = l.map fun p => f p.1 p.2 := by
  induction l with
  | nil => rfl
  | cons a l ih => simp only [List.map_cons, List.zipWith_cons_cons, ih]

theorem median_perm {l l' : List K} (h : l.Perm l') : npMedian l = npMedian l' := by
  unfold npMedian
  rw [sort_eq_of_perm h, h.length_eq]

theorem quantile_perm [FloorRing K] (p : K) {l l' : List K} (h : l.Perm l') : npQuantile p l = npQuantile p l' := by
  unfold npQuantile
  rw [sort_eq_of_perm h, h.length_eq]

theorem sum_perm {l l' : List K} (h : l.Perm l') : Np.sum l = Np.sum l' := by
  rw [sum_eq, sum_eq]
  exact h.sum_eq

theorem mean_perm {l l' : List K} (h : l.Perm l') : npMean l = npMean l' := by
  unfold npMean
  rw [sum_perm h, h.length_eq]
  by_cases hl : l = []
  · subst hl
    rw [h.symm.eq_nil]
  · rw [if_neg hl, if_neg (fun h' => hl (by subst h'; exact h.eq_nil))]

/-! ## point estimates -/

theorem ez_perm {objs objs' : List (K × K)} (h : objs.Perm objs') :
    (∃ ez ez', ezList (objs.map Prod.fst) (objs.map Prod.snd) = .ok ez ∧ ezList (objs'.map Prod.fst) (objs'.map Prod.snd) = .ok ez' ∧ ez.Perm ez') ∨
    ∃ err, ezList (objs.map Prod.fst) (objs.map Prod.snd) = .error err ∧ ezList (objs'.map Prod.fst) (objs'.map Prod.snd) = .error err := by
  have hany : (objs.map Prod.snd).any (fun r => decide (1 + r = 0)) = (objs'.map Prod.snd).any (fun r => decide (1 + r = 0)) := by
    rw [Bool.eq_iff_iff, List.any_eq_true, List.any_eq_true]
    exact ⟨fun ⟨x, hx, hp⟩ => ⟨x, ((h.map _).mem_iff).1 hx, hp⟩, fun ⟨x, hx, hp⟩ => ⟨x, ((h.map _).mem_iff).2 hx, hp⟩⟩
  unfold ezList
  have l1 : ∀ l : List (K × K), (l.map Prod.fst).length = (l.map Prod.snd).length := fun l => by simp
  rw [if_pos (l1 objs), if_pos (l1 objs'), hany]
  split_ifs
  · exact Or.inr ⟨_, rfl, rfl⟩
  · refine Or.inl ⟨_, _, rfl, rfl, ?_⟩
    rw [zip_map, zip_map]
    exact h.map _

/-- **C129: point estimates.** Bias, scatter (from the quartiles and from the median deviation) and outlier rate of point estimates do not depend on the order of the
objects. -/
theorem C129_point [FloorRing K] {objs objs' : List (K × K)} (h : objs.Perm objs') :
    pointBias (objs.map Prod.fst) (objs.map Prod.snd) = pointBias (objs'.map Prod.fst) (objs'.map Prod.snd) ∧
    sigmaIqr (objs.map Prod.fst) (objs.map Prod.snd) = sigmaIqr (objs'.map Prod.fst) (objs'.map Prod.snd) ∧
    sigmaMad (objs.map Prod.fst) (objs.map Prod.snd) = sigmaMad (objs'.map Prod.fst) (objs'.map Prod.snd) ∧
    pointOutlier (objs.map Prod.fst) (objs.map Prod.snd) = pointOutlier (objs'.map Prod.fst) (objs'.map Prod.snd) := by
  have hiqr : ∀ {l l' : List K}, l.Perm l' → sigmaIqrOf l = sigmaIqrOf l' := by
    intro l l' hp
    simp only [sigmaIqrOf, quantile_perm _ hp]
  unfold pointBias sigmaIqr sigmaMad pointOutlier
  rcases ez_perm h with ⟨ez, ez', h1, h2, hp⟩ | ⟨err, h1, h2⟩
  · rw [h1, h2]
    refine ⟨?_, ?_, ?_, ?_⟩
    · simp only [Except.map, median_perm hp]
    · simp only [Bind.bind, Except.bind, hiqr hp]
    · simp only [Except.map, sigmaMadOf, median_perm hp]
      cases npMedian ez' with
      | none => rfl
      | some m => simp only [Option.bind_some, median_perm (hp.map fun e => |e - m|)]
    · simp only [Bind.bind, Except.bind, pointOutlierOf, hiqr hp, hp.length_eq, hp.countP_eq]
  · rw [h1, h2]
    exact ⟨rfl, rfl, rfl, rfl⟩

/-! ## goodness of fit -/

/-- **C129: goodness of fit.** The Kolmogorov-Smirnov, Cramer-von Mises and Anderson-Darling statistics do not depend on the order of the data. -/
theorem C129_gof (R : RefPdf K) (name : String) (stat : RefPdf K → List K → Except Err K) (hs : gofStat name = some stat) {data data' : List K}
    (h : data.Perm data') : stat R data = stat R data' := by
  have hsort := sort_eq_of_perm h
  have hlen := h.length_eq
  unfold gofStat at hs
  split_ifs at hs <;> cases hs
  · simp only [adStat, hsort, hlen]
  · simp only [cvmStat, hsort, hlen]
  · simp only [ksStat, hsort]

/-! ## PIT -/

section Pit

variable [FloorRing K]

/-- **C129: PIT.** With the objects in another order, the PIT distribution (its quantiles and locations) is the same, the PIT samples are the same numbers in another
order, and so the KS and CvM statistics, the samples handed to the AD statistic up to their order, and the outlier rate are the same. If one order raises, so does the other. -/
theorem C129_pit {objs objs' : List ((K → Option K) × K)} (h : objs.Perm objs') (grid : List K) :
    (∃ s s' dist, pitInit (objs.map Prod.fst) (objs.map Prod.snd) grid = .ok (s, dist) ∧ pitInit (objs'.map Prod.fst) (objs'.map Prod.snd) grid = .ok (s', dist) ∧
      s.Perm s' ∧ pitKs s = pitKs s' ∧ pitCvm s = pitCvm s' ∧
      ∀ lo hi, (pitAdInput lo hi s).1.Perm (pitAdInput lo hi s').1 ∧ (pitAdInput lo hi s).2 = (pitAdInput lo hi s').2) ∨
    ∃ err, pitInit (objs.map Prod.fst) (objs.map Prod.snd) grid = .error err ∧ pitInit (objs'.map Prod.fst) (objs'.map Prod.snd) grid = .error err := by
  have hlen := h.length_eq
  by_cases h0 : objs = []
  · subst h0
    have : objs' = [] := h.symm.eq_nil
    subst this
    exact Or.inr ⟨.ValueError, by simp [pitInit, pitSamples, Bind.bind, Except.bind], by simp [pitInit, pitSamples, Bind.bind, Except.bind]⟩
  have h0' : objs' ≠ [] := fun h' => h0 (by subst h'; exact h.eq_nil)
  have hs : ∀ l : List ((K → Option K) × K), l ≠ [] → pitSamples (l.map Prod.fst) (l.map Prod.snd) =
      .ok (Arr.squeeze ⟨[l.length, 1], l.map fun p => (p.1 p.2).getD 0⟩) := by
    intro l hl
    unfold pitSamples
    rw [if_neg (by simpa using hl), if_neg (by simp), zip_map]
    simp
  unfold pitInit
  rw [hs _ h0, hs _ h0']
  simp only [Bind.bind, Except.bind, Arr.squeeze, hlen]
  set a := objs.map fun p => (p.1 p.2).getD 0 with ha
  set a' := objs'.map fun p => (p.1 p.2).getD 0 with ha'
  have hp : a.Perm a' := h.map _
  have hq : (fun p => npQuantile p a) = fun p => npQuantile p a' := funext fun p => quantile_perm p hp
  cases hn : arrLen (⟨List.filter (fun n => decide (n ≠ 1)) [objs'.length, 1], a⟩ : Arr K) with
  | error e =>
    have hn' : arrLen (⟨List.filter (fun n => decide (n ≠ 1)) [objs'.length, 1], a'⟩ : Arr K) = .error e := hn
    exact Or.inr ⟨e, by simp only, by simp only [hn']⟩
  | ok n =>
    have hn' : arrLen (⟨List.filter (fun n => decide (n ≠ 1)) [objs'.length, 1], a'⟩ : Arr K) = .ok n := hn
    simp only [hn', hq]
    cases (pitGrid n grid).mapM fun p => npQuantile p a' with
    | error e => exact Or.inr ⟨e, rfl, rfl⟩
    | ok q =>
      refine Or.inl ⟨a, a', _, rfl, rfl, hp, ?_, ?_, fun lo hi => ⟨hp.filter _, ?_⟩⟩
      · simp only [pitKs, ksStat, sort_eq_of_perm hp]
      · simp only [pitCvm, cvmStat, sort_eq_of_perm hp, hp.length_eq]
      · simp only [pitAdInput, trimPit, (hp.filter _).length_eq]

/-- **C129: PIT outlier rate.** -/
theorem C129_pit_outlier {objs objs' : List ((K → Option K) × K)} (h : objs.Perm objs') (grid : List K) (spl : List (K × K) → K → K) (lo hi : K) :
    (pitFull (objs.map Prod.fst) (objs.map Prod.snd) grid).map (fun pit => pitOutlier spl pit lo hi) =
      (pitFull (objs'.map Prod.fst) (objs'.map Prod.snd) grid).map (fun pit => pitOutlier spl pit lo hi) := by
  unfold pitFull
  rcases C129_pit h grid with ⟨s, s', dist, h1, h2, -⟩ | ⟨err, h1, h2⟩
  · rw [h1, h2]
    simp only [Bind.bind, Except.bind]
    split_ifs
    · rfl
    · cases quantInit dist.1 [dist.2] true <;> rfl
  · rw [h1, h2]

/-! ## Brier score and CDE loss -/

/-- an ensemble with one index -/
def vecEns (fns : List (K → K)) : FnEns K := ⟨[fns.length], fns⟩

omit [FloorRing K] in
theorem inLimits_perm {l0 l1 : K} {t t' : List K} (h : t.Perm t') : (t.any (fun v => decide (v < l0)) || t.any (fun v => decide (l1 < v))) =
    (t'.any (fun v => decide (v < l0)) || t'.any (fun v => decide (l1 < v))) := by
  have : ∀ p : K → Bool, t.any p = t'.any p := by
    intro p
    rw [Bool.eq_iff_iff, List.any_eq_true, List.any_eq_true]
    exact ⟨fun ⟨x, hx, hp⟩ => ⟨x, h.mem_iff.1 hx, hp⟩, fun ⟨x, hx, hp⟩ => ⟨x, h.mem_iff.2 hx, hp⟩⟩
  rw [this, this]

/-- **C129: Brier score.** -/
theorem C129_brier {objs objs' : List ((K → K) × K)} (h : objs.Perm objs') (l0 l1 dx : K) :
    calculateBrier (vecEns (objs.map Prod.fst)) (objs.map Prod.snd) l0 l1 dx = calculateBrier (vecEns (objs'.map Prod.fst)) (objs'.map Prod.snd) l0 l1 dx := by
  by_cases h1 : objs.length ≤ 1
  · have : objs = objs' := by
      match objs, h1, h with
      | [], _, h => exact (h.symm.eq_nil).symm
      | [a], _, h => exact (List.singleton_perm.1 h)
    rw [this]
  have hlen := h.length_eq
  by_cases hin : InLimits l0 l1 (objs.map Prod.snd)
  · have hin' : InLimits l0 l1 (objs'.map Prod.snd) := fun t ht => hin t (((h.map _).mem_iff).2 ht)
    have g1 : GoodChunk l0 l1 (vecEns (objs.map Prod.fst), objs.map Prod.snd) := ⟨by simp [vecEns], by simp [vecEns], hin⟩
    have g2 : GoodChunk l0 l1 (vecEns (objs'.map Prod.fst), objs'.map Prod.snd) := ⟨by simp [vecEns], by simp [vecEns], hin'⟩
    cases hgr : gridParams l0 l1 dx with
    | error er =>
      have he : ∀ c, GoodChunk l0 l1 c → prepareBrier c.1 c.2 l0 l1 dx = .error er := by
        intro c hc
        unfold prepareBrier
        rw [if_neg (by simp [FnEns.npdf, hc.shape]), if_neg (by rw [(inLimits_iff l0 l1 c.2).2 hc.limits]; simp), hgr]
        rfl
      simp only [calculateBrier, he _ g1, he _ g2, Bind.bind, Except.bind]
    | ok g =>
      obtain ⟨p, t, hp, hs⟩ := brierSums_chunk l0 l1 dx g hgr _ g1 (by simp; omega)
      obtain ⟨p', t', hp', hs'⟩ := brierSums_chunk l0 l1 dx g hgr _ g2 (by simp; omega)
      simp only [calculateBrier, hp, hp', Bind.bind, Except.bind, brierEvaluate, hs, hs', Except.map]
      congr 1
      apply mean_perm
      simp only [brierTerms, vecEns, zip_map]
      exact h.map _
  · have hno : ((objs.map Prod.snd).any (fun v => decide (v < l0)) || (objs.map Prod.snd).any (fun v => decide (l1 < v))) = true := by
      by_contra hc
      exact hin ((inLimits_iff l0 l1 _).1 (by simpa using hc))
    have hno' := hno
    rw [inLimits_perm (h.map Prod.snd)] at hno'
    simp only [calculateBrier, prepareBrier, hno, hno', if_true]
    rw [if_neg (by simp [vecEns, FnEns.npdf]), if_neg (by simp [vecEns, FnEns.npdf])]

omit [FloorRing K] in
/-- **C129: CDE loss.** -/
theorem C129_cde {objs objs' : List ((K → K) × K)} (h : objs.Perm objs') (xs : List K) :
    cdeEvaluate xs (vecEns (objs.map Prod.fst)) (objs.map Prod.snd) = cdeEvaluate xs (vecEns (objs'.map Prod.fst)) (objs'.map Prod.snd) := by
  by_cases h1 : objs = []
  · subst h1
    rw [h.symm.eq_nil]
  have h1' : objs' ≠ [] := fun h' => h1 (by subst h'; exact h.eq_nil)
  by_cases hx : xs = []
  · subst hx
    have : ∀ l : List ((K → K) × K), l ≠ [] → cdeEvaluate [] (vecEns (l.map Prod.fst)) (l.map Prod.snd) = .error .ValueError := by
      intro l hl
      obtain ⟨a, l, rfl⟩ := List.exists_cons_of_ne_nil hl
      simp [cdeEvaluate, cdeTerms, vecEns, List.mapM_cons, nearest, argmin, Np.argmax, Bind.bind, Except.bind]
    rw [this _ h1, this _ h1']
  · have m1 : Matched (vecEns (objs.map Prod.fst), objs.map Prod.snd) := ⟨by simp [vecEns], by simp [vecEns]⟩
    have m2 : Matched (vecEns (objs'.map Prod.fst), objs'.map Prod.snd) := ⟨by simp [vecEns], by simp [vecEns]⟩
    have c1 := C64_value xs _ hx m1 (by simpa using h1)
    have c2 := C64_value xs _ hx m2 (by simpa using h1')
    simp only at c1 c2
    rw [c1, c2]
    simp only [vecEns, zip_map, List.map_map, List.length_map, h.length_eq]
    rw [(h.map _).sum_eq, (h.map fun p : (K → K) × K => p.1 (nearPoint xs p.2)).sum_eq]

end Pit

/-! ## metrics with one value per PDF -/

/-- **C129: Kullback-Leibler divergence and root mean square error.** Pairs (PDF, reference). The values move with the PDFs: there is a value for each pair, the same in
both orders. For the Kullback-Leibler divergence the value of a pair depends on which other pairs are there (C68) but not on their order. -/
theorem C129_values {objs objs' : List ((ℝ → ℝ) × (ℝ → ℝ))} (h : objs.Perm objs') (l0 l1 dx : ℝ) (metric : FnEns ℝ → FnEns ℝ → ℝ → ℝ → ℝ → Except Err (List ℝ))
    (hc : metric = calculateKld ∨ metric = calculateRmse) :
    (∃ val : (ℝ → ℝ) × (ℝ → ℝ) → ℝ, metric (vecEns (objs.map Prod.fst)) (vecEns (objs.map Prod.snd)) l0 l1 dx = .ok (objs.map val) ∧
      metric (vecEns (objs'.map Prod.fst)) (vecEns (objs'.map Prod.snd)) l0 l1 dx = .ok (objs'.map val)) ∨
    ∃ err, metric (vecEns (objs.map Prod.fst)) (vecEns (objs.map Prod.snd)) l0 l1 dx = .error err ∧
      metric (vecEns (objs'.map Prod.fst)) (vecEns (objs'.map Prod.snd)) l0 l1 dx = .error err := by
  have hsh : ∀ l : List ((ℝ → ℝ) × (ℝ → ℝ)), (vecEns (l.map Prod.fst)).shape = (vecEns (l.map Prod.snd)).shape := fun l => by simp [vecEns]
  rcases hc with rfl | rfl
  · unfold calculateKld
    rw [if_neg (not_not.2 (hsh objs)), if_neg (not_not.2 (hsh objs'))]
    cases hg : gridParams l0 l1 dx with
    | error e => exact Or.inr ⟨e, rfl, rfl⟩
    | ok g =>
      refine Or.inl ?_
      simp only [Bind.bind, Except.bind, vecEns, zip_map]
      set v : (ℝ → ℝ) × (ℝ → ℝ) → ℝ := fun p => quickKld (g.values.map p.1) (g.values.map p.2) g.resolution with hv
      have hany : (objs.map v).any (fun x => decide (x < 0)) = (objs'.map v).any (fun x => decide (x < 0)) := by
        rw [Bool.eq_iff_iff, List.any_eq_true, List.any_eq_true]
        exact ⟨fun ⟨x, hx, hp⟩ => ⟨x, ((h.map _).mem_iff).1 hx, hp⟩, fun ⟨x, hx, hp⟩ => ⟨x, ((h.map _).mem_iff).2 hx, hp⟩⟩
      rw [hany]
      split_ifs
      · exact ⟨fun _ => machEps, by rw [List.map_map]; rfl, by rw [List.map_map]; rfl⟩
      · exact ⟨v, rfl, rfl⟩
  · unfold calculateRmse
    rw [if_neg (not_not.2 (hsh objs)), if_neg (not_not.2 (hsh objs'))]
    cases hg : gridParams l0 l1 dx with
    | error e => exact Or.inr ⟨e, rfl, rfl⟩
    | ok g =>
      refine Or.inl ?_
      simp only [Bind.bind, Except.bind, vecEns, zip_map]
      exact ⟨_, rfl, rfl⟩

/-! ## examples -/

/-- three objects in two orders -/
example := C129_point (K := ℚ) (objs := [(1, 2), (3, 4), (5, 5)]) (objs' := [(5, 5), (1, 2), (3, 4)]) (by decide)

example : pointBias (K := ℚ) [1, 3, 5] [2, 4, 5] = .ok (some (-1/5)) ∧ pointBias (K := ℚ) [5, 1, 3] [5, 2, 4] = .ok (some (-1/5)) := by decide +kernel

example := C129_gof (K := ℚ) ⟨fun x => x, fun x => x, fun x => x⟩ "ks" _ rfl (data := [1/2, 1/4, 3/4]) (data' := [3/4, 1/2, 1/4]) (by decide +kernel)

example : pitKs (K := ℚ) [1/2, 1/4, 3/4] = .ok (1/4) ∧ pitKs (K := ℚ) [3/4, 1/2, 1/4] = .ok (1/4) := by decide +kernel

/-- two objects in the two orders -/
example := C129_pit (K := ℚ) (objs := [(fun x => some x, 1/4), (fun x => some (x * x), 1/2)]) (objs' := [(fun x => some (x * x), 1/2), (fun x => some x, 1/4)])
  (List.Perm.swap _ _ _) [0, 1/2, 1]

example := C129_brier (K := ℚ) (objs := [(fun _ => 1, 1/4), (fun x => 2 * x, 1/2)]) (objs' := [(fun x => 2 * x, 1/2), (fun _ => 1, 1/4)]) (List.Perm.swap _ _ _) 0 1 (1/4)

example := C129_cde (K := ℚ) (objs := [(fun _ => 1, 1/4), (fun x => 2 * x, 1/2)]) (objs' := [(fun x => 2 * x, 1/2), (fun _ => 1, 1/4)]) (List.Perm.swap _ _ _) [0, 1/2, 1]

example := C129_values (objs := [(fun _ => 1, fun x => 2 * x), (fun x => 2 * x, fun _ => 1)]) (objs' := [(fun x => 2 * x, fun _ => 1), (fun _ => 1, fun x => 2 * x)])
  (List.Perm.swap _ _ _) 0 1 (1/4) calculateKld (Or.inl rfl)

end Verif.Props.Order
