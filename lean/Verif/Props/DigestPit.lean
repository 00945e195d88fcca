import Verif.Props.Digest
import Verif.Props.PitMeta

/-!
# C93: the PIT distribution from digests of chunks
-/

set_option linter.unusedSectionVars false
set_option autoImplicit false

namespace Verif.Props.Digest

open Verif Verif.Np Verif.Model Verif.Lemmas Verif.Props.Metrics

section
variable {K D : Type} [Field K] [LinearOrder K] [IsStrictOrderedRing K] [FloorRing K]

theorem pitFull_init {cdfs : List (K → Option K)} {zs grid samps q l : List K} (h : pitFull cdfs zs grid = .ok (samps, q, l)) :
    ∃ qs ls, pitInit cdfs zs grid = .ok (samps, qs, ls) := by
  unfold pitFull at h
  cases hi : pitInit cdfs zs grid with
  | error e => rw [hi] at h; simp [Bind.bind, Except.bind] at h
  | ok v =>
    obtain ⟨s, qs, ls⟩ := v
    rw [hi] at h
    simp only [Bind.bind, Except.bind] at h
    split_ifs at h
    cases hq : quantInit qs [ls] true with
    | error e => rw [hq] at h; simp at h
    | ok v =>
      rw [hq] at h
      simp only [Except.ok.injEq, Prod.mk.injEq] at h
      exact ⟨qs, ls, by rw [h.1]⟩

theorem pitGrid_01 (n : ℕ) (grid : List K) (hg : ∀ p ∈ grid, 0 ≤ p ∧ p ≤ 1) : ∀ p ∈ pitGrid n grid, 0 ≤ p ∧ p ≤ 1 := by
  intro p hp
  unfold pitGrid at hp
  split_ifs at hp with h
  · unfold linspace at hp
    obtain ⟨i, hi, rfl⟩ := List.mem_map.1 hp
    rw [List.mem_range] at hi
    simp only [sub_zero, zero_add]
    rcases Nat.lt_or_ge 1 (min n grid.length) with h1 | h1
    · have hpos : (0 : K) < ((min n grid.length : ℕ) : K) - 1 := by
        have : (1 : K) < ((min n grid.length : ℕ) : K) := by exact_mod_cast h1
        linarith
      have hi' : (i : K) ≤ ((min n grid.length : ℕ) : K) - 1 := by
        have : ((i + 1 : ℕ) : K) ≤ ((min n grid.length : ℕ) : K) := by exact_mod_cast hi
        push_cast at this ⊢
        linarith
      have hi0 : (0 : K) ≤ (i : K) := Nat.cast_nonneg i
      constructor
      · positivity
      · rw [mul_one_div, if_neg (by omega)]; exact (div_le_one hpos).2 hi'
    · obtain rfl : i = 0 := by omega
      simp
  · exact hg p hp

/-- **C93, chunks**: through a digest that loses nothing, the PIT distribution of any division of the objects into chunks is that of the undivided data, provided
the PIT object of every chunk can be constructed. -/
theorem C93_chunks_partial (lib : DigestLib K D) (hL : Lossless lib) (grid : List K) (hg : ∀ p ∈ grid, 0 ≤ p ∧ p ≤ 1)
    (chunks : List (List (K → Option K) × List K)) (hne : chunks ≠ []) (hlen : ∀ c ∈ chunks, c.1.length = c.2.length)
    (hok : ∀ c ∈ chunks, ∃ v, pitFull c.1 c.2 grid = .ok v) :
    pitDigestEvaluate lib grid chunks = (pitFull (chunks.flatMap (·.1)) (chunks.flatMap (·.2)) grid).map (·.2) := by
  have hall : ∀ chunks : List (List (K → Option K) × List K), (∀ c ∈ chunks, c.1.length = c.2.length) → (∀ c ∈ chunks, ∃ v, pitFull c.1 c.2 grid = .ok v) →
      ∃ ss : List (List K), chunks.mapM (fun p => pitAccumulate lib grid p.1 p.2) = .ok (ss.map lib.compute) ∧ (chunks.flatMap (·.1)).length = (chunks.flatMap (·.2)).length ∧
      ss.flatten = List.zipWith (fun F z => (F z).getD 0) (chunks.flatMap (·.1)) (chunks.flatMap (·.2)) ∧ (chunks ≠ [] → 2 ≤ (chunks.flatMap (·.2)).length) ∧
      (chunks ≠ [] → ss ≠ []) := by
    intro chunks
    induction chunks with
    | nil => intro _ _; exact ⟨[], rfl, rfl, rfl, by simp, by simp⟩
    | cons c t ih =>
      intro h1 h2
      obtain ⟨⟨s, q, l⟩, hv⟩ := h2 c (by simp)
      obtain ⟨qs, ls, hi⟩ := pitFull_init hv
      obtain ⟨h3, h4, -⟩ := pitInit_ok (h1 c (by simp)) hi
      obtain ⟨ss, g1, g2, g3, -, -⟩ := ih (fun c hc => h1 c (List.mem_cons_of_mem _ hc)) fun c hc => h2 c (List.mem_cons_of_mem _ hc)
      refine ⟨s :: ss, ?_, ?_, ?_, ?_, by simp⟩
      · rw [mapM_cons, g1]
        simp [pitAccumulate, hv, Bind.bind, Except.bind]
      · simp only [List.flatMap_cons, List.length_append, g2, h1 c (by simp)]
      · rw [List.flatten_cons, g3, h4, List.flatMap_cons, List.flatMap_cons, List.zipWith_append (h1 c (by simp))]
      · intro _
        rw [List.flatMap_cons, List.length_append]
        omega
  obtain ⟨ss, g1, g2, g3, g4, g5⟩ := hall chunks hlen hok
  have h2 := g4 hne
  cases hss : ss with
  | nil => exact absurd hss (g5 hne)
  | cons z zs =>
  obtain ⟨d, hd, hperm⟩ : ∃ d, digestCombine lib (ss.map lib.compute) = .ok d ∧ (lib.cents d).Perm (ss.flatten.map fun v => (v, 1)) := by
    rw [hss]
    refine ⟨_, rfl, ?_⟩
    have hall2 : ∀ l : List (List K), ((l.map lib.compute).flatten).Perm (l.flatten.map fun v => (v, 1)) := by
      intro l
      induction l with
      | nil => simp
      | cons a l ih => simp only [List.map_cons, List.flatten_cons, List.map_append]; exact (hL.compute a).append ih
    refine (combine_perm lib hL _ _).trans ?_
    rw [List.flatten_cons, List.map_append]
    exact ((hL.ofCentroids _).trans (hL.compute z)).append (hall2 zs)
  set zsF := chunks.flatMap (·.2) with hzs
  set cF := chunks.flatMap (·.1) with hcF
  have hsl : ss.flatten.length = zsF.length := by rw [g3, List.length_zipWith, g2, Nat.min_self]
  have hsne : ss.flatten ≠ [] := by intro h0; rw [h0] at hsl; simp at hsl; omega
  have hw : ⌊lib.weight d⌋.toNat = zsF.length := by
    have : lib.weight d = (zsF.length : K) := by
      rw [hL.weight, (hperm.map _).sum_eq, List.map_map, show ((fun x : K × K => x.2) ∘ fun v : K => (v, (1 : K))) = fun _ => 1 from rfl, List.map_const',
        List.sum_replicate, nsmul_one, hsl]
    rw [this, Int.floor_natCast, Int.toNat_natCast]
  have hq : (pitGrid zsF.length grid).mapM (fun p => npQuantile p ss.flatten) = .ok ((pitGrid zsF.length grid).map (lib.inv d)) :=
    mapM_ok_map _ _ _ fun p hp => hL.inv d _ p hperm hsne (pitGrid_01 _ _ hg p hp).1 (pitGrid_01 _ _ hg p hp).2
  have hinit : pitInit cF zsF grid = .ok (ss.flatten, pitEnsemble ((pitGrid zsF.length grid).map (lib.inv d)) (pitGrid zsF.length grid)) := by
    simp only [pitInit, pitSamples_two cF zsF g2 h2, arrLen, Bind.bind, Except.bind, ← g3, hq]
  have hev : pitDigestEvaluate lib grid chunks = pitDigest lib grid d := by
    unfold pitDigestEvaluate
    rw [g1]
    simp only [Bind.bind, Except.bind, hd]
  rw [hev]
  unfold pitDigest pitFull
  rw [hinit, hw]
  simp only [Bind.bind, Except.bind]
  generalize pitEnsemble ((pitGrid zsF.length grid).map (lib.inv d)) (pitGrid zsF.length grid) = E
  obtain ⟨qs, ls⟩ := E
  simp only
  split_ifs
  · rfl
  · cases quantInit qs [ls] true with
    | error e => rfl
    | ok v => rfl

/-- **C93, a wrong outcome**: the accumulation of a chunk fails wherever the PIT object of the chunk cannot be constructed: a `TypeError` for a chunk of one object, an
`IndexError` for a chunk in which all PIT values agree; one such chunk makes the whole evaluation fail. -/
theorem C93_chunk_fails (lib : DigestLib K D) (grid : List K) (cdfs : List (K → Option K)) (zs : List K) (hn : cdfs.length = zs.length) :
    (zs.length = 1 → pitAccumulate lib grid cdfs zs = .error .TypeError) ∧
    (∀ c, 0 < c ∧ c < 1 → 2 ≤ zs.length → grid ≠ [] → grid.Pairwise (· < ·) → (∀ p ∈ grid, 0 ≤ p ∧ p ≤ 1) →
      (∀ (i : ℕ) F z, cdfs[i]? = some F → zs[i]? = some z → F z = some c) → pitAccumulate lib grid cdfs zs = .error .IndexError) ∧
    ∀ chunks : List (List (K → Option K) × List K), (cdfs, zs) ∈ chunks → (∃ e, pitAccumulate lib grid cdfs zs = .error e) →
      ∃ e, pitDigestEvaluate lib grid chunks = .error e := by
  refine ⟨fun h => ?_, fun c hc h2 h3 h4 h5 h6 => ?_, fun chunks hmem ⟨e, he⟩ => ?_⟩
  · unfold pitAccumulate pitFull
    rw [(C73_few_objects cdfs zs grid hn).2 h]
    rfl
  · unfold pitAccumulate
    rw [C86_constant cdfs zs grid hn h2 h3 h4 h5 c hc h6]
    rfl
  · unfold pitDigestEvaluate
    cases hm : chunks.mapM (fun p => pitAccumulate lib grid p.1 p.2) with
    | error e => exact ⟨e, rfl⟩
    | ok cs =>
      exfalso
      obtain ⟨i, hi⟩ := List.getElem?_of_mem hmem
      obtain ⟨v, -, hv⟩ := mapM_get hm i _ hi
      rw [he] at hv
      simp at hv

end

/-- distribution function of the uniform distribution -/
def exU : ℚ → Option ℚ := fun z => some (max 0 (min 1 z))

/-- **C93, a wrong outcome**: three objects evaluated at once give a PIT distribution, but not when the third is accumulated on its own. -/
theorem C93_last_object_wrong : pitDigestEvaluate (exactLib (K := ℚ)) [1 / 4, 3 / 4] [([exU, exU], [1 / 4, 1 / 2]), ([exU], [7 / 8])] = .error .TypeError ∧
    (pitFull [exU, exU, exU] [1 / 4, 1 / 2, 7 / 8] [1 / 4, 3 / 4]).map (·.2) = .ok ([0, 1 / 4, 3 / 4, 1], [7 / 32, 3 / 8, 11 / 16, 27 / 32]) := by
  decide +kernel

example := C93_chunks_partial (K := ℚ) exactLib exactLib_lossless [1 / 4, 3 / 4] (by decide +kernel) [([exU, exU], [1 / 4, 1 / 2]), ([exU, exU], [7 / 8, 1 / 3])] (by simp)
  (by intro c hc; simp only [List.mem_cons, List.not_mem_nil, or_false] at hc; rcases hc with rfl | rfl <;> rfl)
  (by
    intro c hc
    simp only [List.mem_cons, List.not_mem_nil, or_false] at hc
    rcases hc with rfl | rfl
    · exact ⟨([1 / 4, 1 / 2], [0, 1 / 4, 3 / 4, 1], [1 / 4, 5 / 16, 7 / 16, 1 / 2]), by decide +kernel⟩
    · exact ⟨([7 / 8, 1 / 3], [0, 1 / 4, 3 / 4, 1], [1 / 3, 15 / 32, 71 / 96, 7 / 8]), by decide +kernel⟩)

example : pitDigestEvaluate (exactLib (K := ℚ)) [1 / 4, 3 / 4] [([exU, exU], [1 / 4, 1 / 2]), ([exU, exU], [7 / 8, 1 / 3])] =
    .ok ([0, 1 / 4, 3 / 4, 1], [11 / 64, 5 / 16, 19 / 32, 47 / 64]) := by decide +kernel

example := (C93_chunk_fails (K := ℚ) exactLib [1 / 4, 3 / 4] [exU] [7 / 8] rfl).1 rfl

end Verif.Props.Digest
