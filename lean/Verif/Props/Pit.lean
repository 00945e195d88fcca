import Verif.Model.Pit
import Verif.Props.PointStats
import Verif.Lemmas.EvalCase
import Verif.Lemmas.Classes
import Verif.Lemmas.Dict

/-!
# C73: PIT samples and PIT distribution
-/

set_option linter.unusedSectionVars false
set_option autoImplicit false

namespace Verif.Props.Metrics

open Verif Verif.Np Verif.Model Verif.Lemmas

variable {K : Type} [Field K] [LinearOrder K] [IsStrictOrderedRing K]

theorem pitSamples_two (cdfs : List (K → Option K)) (zs : List K) (h : cdfs.length = zs.length) (h2 : 2 ≤ zs.length) :
    pitSamples cdfs zs = .ok ⟨[zs.length], List.zipWith (fun F z => (F z).getD 0) cdfs zs⟩ := by
  unfold pitSamples
  rw [if_neg (by rintro rfl; simp at h2), if_neg (by simpa using h)]
  simp only [Arr.squeeze]
  congr 2
  simp [show zs.length ≠ 1 by omega]

section
variable [FloorRing K]

theorem pitInit_ok {cdfs : List (K → Option K)} {zs grid : List K} {samps qs ls : List K} (hn : cdfs.length = zs.length)
    (h : pitInit cdfs zs grid = .ok (samps, qs, ls)) :
    2 ≤ zs.length ∧ samps = List.zipWith (fun F z => (F z).getD 0) cdfs zs ∧
      ∃ q, (pitGrid zs.length grid).mapM (fun p => npQuantile p samps) = .ok q ∧ (qs, ls) = pitEnsemble q (pitGrid zs.length grid) := by
  by_cases h0 : zs = []
  · subst h0; simp [pitInit, pitSamples, Bind.bind, Except.bind] at h
  by_cases h1 : zs.length = 1
  · simp [pitInit, pitSamples, h0, hn, h1, Arr.squeeze, arrLen, Bind.bind, Except.bind] at h
  · have h2 : 2 ≤ zs.length := by
      have := List.length_pos_iff.2 h0
      omega
    refine ⟨h2, ?_⟩
    simp only [pitInit, pitSamples_two cdfs zs hn h2, arrLen, Bind.bind, Except.bind] at h
    cases hq : (pitGrid zs.length grid).mapM (fun p => npQuantile p (List.zipWith (fun F z => (F z).getD 0) cdfs zs)) with
    | error e => rw [hq] at h; simp at h
    | ok q =>
      rw [hq] at h
      simp only [Except.ok.injEq, Prod.mk.injEq] at h
      obtain ⟨rfl, hh⟩ := h
      exact ⟨rfl, q, hq, hh.symm⟩

/-- **C73**, the samples: one per object, the value of the object's own distribution function at the object's true value, 0 when that is not
finite; between 0 and 1 when the distribution functions have values between 0 and 1. -/
theorem C73_samples (cdfs : List (K → Option K)) (zs grid samps qs ls : List K) (hn : cdfs.length = zs.length)
    (h : pitInit cdfs zs grid = .ok (samps, qs, ls)) :
    samps.length = zs.length ∧
    (∀ (i : ℕ) F z, cdfs[i]? = some F → zs[i]? = some z → samps[i]? = some (match F z with | some v => v | none => 0)) ∧
    ((∀ F ∈ cdfs, ∀ z v, F z = some v → 0 ≤ v ∧ v ≤ 1) → ∀ s ∈ samps, 0 ≤ s ∧ s ≤ 1) := by
  obtain ⟨h2, rfl, _⟩ := pitInit_ok hn h
  refine ⟨by simp [hn], ?_, ?_⟩
  · intro i F z hF hz
    rw [List.getElem?_zipWith, hF, hz]
    cases hv : F z <;> simp [hv]
  · intro hF s hs
    obtain ⟨i, hi, rfl⟩ := List.mem_iff_getElem.1 hs
    rw [List.getElem_zipWith]
    rw [List.length_zipWith] at hi
    cases hv : (cdfs[i]'(by omega)) (zs[i]'(by omega)) with
    | none => simp
    | some v => exact hF _ (List.getElem_mem _) _ v hv

/-- Without objects the construction raises `ValueError`; a **single** object raises `TypeError`, because its sample is squeezed to an array
without a length. -/
theorem C73_few_objects (cdfs : List (K → Option K)) (zs grid : List K) (hn : cdfs.length = zs.length) :
    (zs.length = 0 → pitInit cdfs zs grid = .error .ValueError) ∧ (zs.length = 1 → pitInit cdfs zs grid = .error .TypeError) := by
  constructor
  · intro h
    have : zs = [] := by simpa using h
    subst this
    simp [pitInit, pitSamples, Bind.bind, Except.bind]
  · intro h
    have h0 : zs ≠ [] := by rintro rfl; simp at h
    simp [pitInit, pitSamples, h0, hn, h, Arr.squeeze, arrLen, Bind.bind, Except.bind]

end

theorem pitEnsemble_eq (q g : List K) (hl : q.length = g.length) :
    pitEnsemble q g = (((Np.unique q).filter fun v => decide (0 < v) && decide (v < 1)).map fun v => (g[q.idxOf v]?).getD 0,
      (Np.unique q).filter fun v => decide (0 < v) && decide (v < 1)) := by
  unfold pitEnsemble uniqueIndex
  simp only [List.filter_map, Function.comp_def, List.map_map, List.map_id', List.filterMap_map, Prod.mk.injEq]
  refine ⟨?_, by simp⟩
  rw [← List.filterMap_eq_map]
  apply List.filterMap_congr
  intro v hv
  have hm : v ∈ q := mem_unique.1 (List.mem_filter.1 hv).1
  have hi : q.idxOf v < g.length := by rw [← hl]; exact List.idxOf_lt_length_iff.2 hm
  simp [hi]

theorem strict_unique (q : List K) : (Np.unique q).Pairwise (· < ·) := by
  have h1 := pairwise_unique q
  have h2 := nodup_unique q
  exact (h1.and h2).imp fun ⟨h, h'⟩ => lt_of_le_of_ne h h'

theorem idxOf_lt {q : List K} (hq : q.Pairwise (· ≤ ·)) {v w : K} (hv : v ∈ q) (hw : w ∈ q) (h : v < w) : q.idxOf v < q.idxOf w := by
  by_contra hc
  have gv : q[q.idxOf v]? = some v := by
    rw [List.getElem?_eq_getElem (List.idxOf_lt_length_iff.2 hv), List.getElem_idxOf]
  have gw : q[q.idxOf w]? = some w := by
    rw [List.getElem?_eq_getElem (List.idxOf_lt_length_iff.2 hw), List.getElem_idxOf]
  exact absurd (pairwise_get hq (not_lt.1 hc) gw gv) (not_le.2 h)

variable [FloorRing K]

theorem mapM_length {α β : Type} {f : α → Except Err β} {l : List α} {r : List β} (h : l.mapM f = .ok r) : r.length = l.length :=
  ((mapM_ok_iff f l r).1 h).length_eq.symm

theorem mapM_get {α β : Type} {f : α → Except Err β} {l : List α} {r : List β} (h : l.mapM f = .ok r) (i : ℕ) (a : α) (ha : l[i]? = some a) :
    ∃ b, r[i]? = some b ∧ f a = .ok b := by
  have hf := (mapM_ok_iff f l r).1 h
  obtain ⟨hi, rfl⟩ := List.getElem?_eq_some_iff.1 ha
  have hi' : i < r.length := by rw [mapM_length h]; exact hi
  exact ⟨r[i], List.getElem?_eq_getElem hi', by simpa using hf.get hi hi'⟩

theorem pitGrid_strict (n : ℕ) (grid : List K) (hg : grid.Pairwise (· < ·)) : (pitGrid n grid).Pairwise (· < ·) := by
  unfold pitGrid
  split_ifs with h
  · rcases Nat.lt_or_ge (min n grid.length) 2 with h1 | h1
    · rcases (by omega : min n grid.length = 0 ∨ min n grid.length = 1) with h2 | h2 <;> rw [h2] <;> simp [linspace]
    · exact linspace_pairwise 0 1 _ h1 (by norm_num)
  · exact hg

/-- **C73**, the distribution: for a strictly increasing grid the locations and the quantiles are strictly increasing, there are equally many,
every location is strictly between 0 and 1 and is the quantile of the samples at its level, and every level is a point of the grid used. The
levels are strictly between 0 and 1 when the grid is; the default grid contains 0 and 1, and then they need not be
(`C73_end_levels`). -/
theorem C73_distribution_partial (cdfs : List (K → Option K)) (zs grid samps qs ls : List K) (hn : cdfs.length = zs.length)
    (hg : grid.Pairwise (· < ·)) (h : pitInit cdfs zs grid = .ok (samps, qs, ls)) :
    ls.Pairwise (· < ·) ∧ qs.Pairwise (· < ·) ∧ qs.length = ls.length ∧ (∀ l ∈ ls, 0 < l ∧ l < 1) ∧
    (∀ (i : ℕ) p l, qs[i]? = some p → ls[i]? = some l → npQuantile p samps = .ok l ∧ p ∈ pitGrid zs.length grid) ∧
    (grid.length ≤ zs.length → (∀ p ∈ grid, 0 < p ∧ p < 1) → ∀ p ∈ qs, 0 < p ∧ p < 1) := by
  obtain ⟨h2, hs, q, hq, he⟩ := pitInit_ok hn h
  have hql : q.length = (pitGrid zs.length grid).length := mapM_length hq
  have hget : ∀ (i : ℕ) p, (pitGrid zs.length grid)[i]? = some p → ∃ v, q[i]? = some v ∧ npQuantile p samps = .ok v := fun i p hp => mapM_get hq i p hp
  have hgs := pitGrid_strict zs.length grid hg
  rw [pitEnsemble_eq _ _ hql, Prod.mk.injEq] at he
  obtain ⟨rfl, rfl⟩ := he
  have hqm : q.Pairwise (· ≤ ·) := by
    rw [List.pairwise_iff_getElem]
    intro i j hi hj hij
    rw [hql] at hi hj
    obtain ⟨v, hv, hv'⟩ := hget i _ (List.getElem?_eq_getElem hi)
    obtain ⟨w, hw, hw'⟩ := hget j _ (List.getElem?_eq_getElem hj)
    have e1 := (List.getElem?_eq_some_iff.1 hv).2
    have e2 := (List.getElem?_eq_some_iff.1 hw).2
    rw [e1, e2]
    exact quantile_mono (List.pairwise_iff_getElem.1 hgs i j hi hj hij).le hv' hw'
  have hmem : ∀ v ∈ (Np.unique q).filter (fun v => decide (0 < v) && decide (v < 1)), v ∈ q ∧ 0 < v ∧ v < 1 := by
    intro v hv
    rw [List.mem_filter] at hv
    refine ⟨mem_unique.1 hv.1, by simpa using hv.2⟩
  have hsu : ((Np.unique q).filter (fun v => decide (0 < v) && decide (v < 1))).Pairwise (· < ·) := (strict_unique q).filter _
  -- the level that belongs to a location
  have hlev : ∀ v ∈ q, ∃ p, (pitGrid zs.length grid)[q.idxOf v]? = some p ∧ npQuantile p samps = .ok v := by
    intro v hv
    have hi : q.idxOf v < q.length := List.idxOf_lt_length_iff.2 hv
    have hi' : q.idxOf v < (pitGrid zs.length grid).length := by omega
    obtain ⟨w, hw, hw'⟩ := hget _ _ (List.getElem?_eq_getElem hi')
    refine ⟨_, List.getElem?_eq_getElem hi', ?_⟩
    rw [List.getElem?_eq_getElem hi, List.getElem_idxOf] at hw
    cases hw
    exact hw'
  have hqs : ∀ (i : ℕ) p l, (((Np.unique q).filter (fun v => decide (0 < v) && decide (v < 1))).map fun v => ((pitGrid zs.length grid)[q.idxOf v]?).getD 0)[i]? = some p →
      ((Np.unique q).filter (fun v => decide (0 < v) && decide (v < 1)))[i]? = some l → npQuantile p samps = .ok l ∧ p ∈ pitGrid zs.length grid := by
    intro i p l hp hl
    rw [List.getElem?_map, hl, Option.map_some, Option.some.injEq] at hp
    obtain ⟨p', hp', hq'⟩ := hlev l (hmem l (List.mem_of_getElem? hl)).1
    rw [hp', Option.getD_some] at hp
    subst hp
    exact ⟨hq', List.mem_of_getElem? hp'⟩
  refine ⟨hsu, ?_, by simp, fun l hl => (hmem l hl).2, hqs, ?_⟩
  · rw [List.pairwise_map]
    refine hsu.imp_of_mem ?_
    intro v w hv hw hvw
    obtain ⟨p, hp, _⟩ := hlev v (hmem v hv).1
    obtain ⟨p', hp', _⟩ := hlev w (hmem w hw).1
    rw [hp, hp', Option.getD_some, Option.getD_some]
    obtain ⟨i1, e1⟩ := List.getElem?_eq_some_iff.1 hp
    obtain ⟨i2, e2⟩ := List.getElem?_eq_some_iff.1 hp'
    rw [← e1, ← e2]
    exact List.pairwise_iff_getElem.1 hgs _ _ i1 i2 (idxOf_lt hqm (hmem v hv).1 (hmem w hw).1 hvw)
  · intro hlen hin p hp
    obtain ⟨i, hi⟩ := List.getElem?_of_mem hp
    have hlt : i < ((Np.unique q).filter (fun v => decide (0 < v) && decide (v < 1))).length := by
      have := (List.getElem?_eq_some_iff.1 hi).1
      simpa using this
    have := (hqs i p _ hi (List.getElem?_eq_getElem hlt)).2
    rw [pitGrid, if_neg (by omega)] at this
    exact hin p this

/-- The levels need not be strictly inside (0, 1): with samples 1/2 and 3/4 and a grid from 0 to 1 the levels 0 and 1 remain. -/
theorem C73_end_levels : pitInit (K := ℚ) [fun z => some z, fun z => some z] [1/2, 3/4] [0, 1] = .ok ([1/2, 3/4], [0, 1], [1/2, 3/4]) := by
  decide +kernel

/-- When all samples are 0 nothing is left of the distribution. -/
theorem C73_all_zero (cdfs : List (K → Option K)) (zs grid samps qs ls : List K) (hn : cdfs.length = zs.length)
    (h : pitInit cdfs zs grid = .ok (samps, qs, ls)) (h0 : ∀ s ∈ samps, s = 0) : qs = [] ∧ ls = [] := by
  obtain ⟨h2, hs, q, hq, he⟩ := pitInit_ok hn h
  have hql : q.length = (pitGrid zs.length grid).length := mapM_length hq
  rw [pitEnsemble_eq _ _ hql, Prod.mk.injEq] at he
  obtain ⟨rfl, rfl⟩ := he
  have : (Np.unique q).filter (fun v => decide (0 < v) && decide (v < 1)) = [] := by
    rw [List.filter_eq_nil_iff]
    intro v hv
    have hv' := mem_unique.1 hv
    obtain ⟨i, hi⟩ := List.getElem?_of_mem hv'
    have hlt := (List.getElem?_eq_some_iff.1 hi).1
    obtain ⟨w, hw, hw'⟩ := mapM_get hq i _ (List.getElem?_eq_getElem (by omega : i < (pitGrid zs.length grid).length))
    rw [hi] at hw
    cases hw
    have := quantile_between hw' (lo := 0) (hi := 0) fun s hs => by rw [h0 s hs]; simp
    have hz : v = 0 := le_antisymm this.2 this.1
    simp [hz]
  rw [this]
  simp

/-- a value that is not finite becomes 0, more objects than grid points, repeated quantiles -/
example : pitInit (K := ℚ) [fun _ => none, fun z => some z, fun z => some z, fun z => some (z / 2)] [3, 1/2, 1/2, 1] [0, 1/2, 2/3, 1]
    = .ok ([0, 1/2, 1/2, 1/2], [1/2], [1/2]) := by decide +kernel

end Verif.Props.Metrics
