import Verif.Model.PitMeta
import Verif.Props.Pit
import Verif.Props.GoodnessOfFit
import Verif.Props.Quant

/-!
# C86: the statistics of the PIT
-/

set_option linter.unusedSectionVars false
set_option autoImplicit false

namespace Verif.Props.Metrics

open Verif Verif.Np Verif.Model Verif.Lemmas

variable {K : Type} [Field K] [LinearOrder K] [IsStrictOrderedRing K]

theorem uniform_isCdf : IsCdf (uniformCdf (K := K)) where
  mono := fun _ _ h => max_le_max le_rfl (min_le_min le_rfl h)
  nonneg := fun _ => le_max_left _ _
  le_one := fun _ => max_le zero_le_one (min_le_left _ _)

theorem uniform_noJump (x : K) : NoJumpAt uniformCdf x := by
  intro ε hε
  refine ⟨x - ε / 2, by linarith, ?_⟩
  have : uniformCdf x ≤ uniformCdf (x - ε / 2) + ε / 2 := by
    unfold uniformCdf
    refine max_le ?_ ?_
    · have := le_max_left 0 (min 1 (x - ε / 2))
      linarith
    · have h1 := le_max_right 0 (min 1 (x - ε / 2))
      rcases le_total 1 (x - ε / 2) with h | h
      · rw [min_eq_left h] at h1 ⊢
        have := min_le_left 1 x
        linarith
      · rw [min_eq_right h] at h1 ⊢
        have := min_le_right 1 x
        linarith
  linarith

/-- inside the unit interval the uniform distribution function is the identity -/
theorem uniform_id {x : K} (h : 0 ≤ x ∧ x ≤ 1) : uniformCdf x = x := by
  unfold uniformCdf; rw [min_eq_right h.2, max_eq_right h.1]

/-- **C86**, KS: for a non-empty sample the value exists, is between `1/(2n)` and 1, and is the largest distance (least upper bound) between
the empirical distribution function of the PIT values and that of the uniform distribution. -/
theorem C86_ks (samps : List K) (hne : samps ≠ []) :
    ∃ d, pitKs samps = .ok d ∧ 1 / (2 * (samps.length : K)) ≤ d ∧ d ≤ 1 ∧
      IsLUB (Set.range fun t => |ecdf samps t - max 0 (min 1 t)|) d := by
  obtain ⟨d, hd⟩ := (C66_exists uniformCdf samps).1 hne
  have hb := C66_bounds _ _ _ hd
  exact ⟨d, hd, hb.1, hb.2 fun x => ⟨uniform_isCdf.nonneg x, uniform_isCdf.le_one x⟩,
    C66_largest_partial uniformCdf uniform_isCdf samps (fun x _ => uniform_noJump x) d hd⟩

/-- **C86**, CvM: fewer than two values raise `ValueError`; otherwise the value exists and is at least `1/(12n)`, with equality exactly when
the PIT values are perfectly spread: the `i`-th smallest is `(2i+1)/(2n)`. -/
theorem C86_cvm (samps : List K) (h01 : ∀ s ∈ samps, 0 ≤ s ∧ s ≤ 1) :
    (samps.length ≤ 1 → pitCvm samps = .error .ValueError) ∧
    (2 ≤ samps.length → ∃ w, pitCvm samps = .ok w ∧ 1 / (12 * (samps.length : K)) ≤ w ∧
      (w = 1 / (12 * (samps.length : K)) ↔ ∀ (i : ℕ) s, (Np.sort samps)[i]? = some s → s = (2 * (i : K) + 1) / (2 * (samps.length : K)))) := by
  constructor
  · intro h; simp [pitCvm, h]
  · intro h
    have hne : samps ≠ [] := by rintro rfl; simp at h
    obtain ⟨w, hw⟩ := (C67_exists uniformCdf samps).2 hne
    refine ⟨w, by simp [pitCvm, show ¬ samps.length ≤ 1 by omega, hw], C67_lower _ _ _ hw, ?_⟩
    rw [C67_lower_iff _ _ _ hw]
    have : ∀ (i : ℕ) s, (Np.sort samps)[i]? = some s → uniformCdf s = s := fun i s hs =>
      uniform_id (h01 s (mem_sort.1 (List.mem_of_getElem? hs)))
    constructor
    · intro H i s hs; rw [← H i s hs, this i s hs]
    · intro H i s hs; rw [this i s hs, H i s hs]

/-- **C86**, Anderson-Darling: the values compared are those within the limits, in their order, each as often as it occurs, with as many
equally spaced reference values from the lower to the upper limit. The default limits 0 and 1 drop nothing of a PIT sample. -/
theorem C86_trim (samps : List K) (lo hi : K) :
    (pitAdInput lo hi samps).1.Sublist samps ∧
    (∀ s, (pitAdInput lo hi samps).1.count s = if lo ≤ s ∧ s ≤ hi then samps.count s else 0) ∧
    (pitAdInput lo hi samps).2.length = (pitAdInput lo hi samps).1.length ∧
    (∀ n, (pitAdInput lo hi samps).1.length = n + 2 → (pitAdInput lo hi samps).2.head? = some lo ∧ (pitAdInput lo hi samps).2.getLast? = some hi ∧
      ∀ (i : ℕ) a b, (pitAdInput lo hi samps).2[i]? = some a → (pitAdInput lo hi samps).2[i + 1]? = some b → b - a = (hi - lo) / ((n : K) + 1)) ∧
    ((∀ s ∈ samps, 0 ≤ s ∧ s ≤ 1) → (pitAdInput 0 1 samps).1 = samps) := by
  refine ⟨List.filter_sublist, ?_, by simp [pitAdInput, length_linspace], ?_, ?_⟩
  · intro s
    simp only [pitAdInput, trimPit]
    split_ifs with h
    · exact List.count_filter (by simpa using h)
    · rw [List.count_eq_zero]
      intro hm
      exact h (by simpa using (List.mem_filter.1 hm).2)
  · intro n hn
    simp only [pitAdInput] at hn ⊢
    rw [hn]
    have hn1 : ((n + 2 : ℕ) : K) - 1 = (n : K) + 1 := by push_cast; ring
    have hpos : ((n : K) + 1) ≠ 0 := by positivity
    refine ⟨?_, ?_, ?_⟩
    · rw [List.head?_eq_getElem?, getElem?_linspace lo hi _ (by omega) 0 (by omega)]; simp
    · rw [List.getLast?_eq_getElem?, length_linspace, getElem?_linspace lo hi _ (by omega) _ (by omega), hn1]
      congr 1
      rw [show n + 2 - 1 = n + 1 by omega]
      push_cast
      field_simp
      ring
    · intro i a b ha hb
      have hib : i + 1 < n + 2 := by
        have := (List.getElem?_eq_some_iff.1 hb).1
        rwa [length_linspace] at this
      rw [getElem?_linspace lo hi _ (by omega) _ (by omega), Option.some.injEq, hn1] at ha hb
      rw [← ha, ← hb]
      push_cast
      ring
  · intro h
    simp only [pitAdInput, trimPit]
    rw [List.filter_eq_self]
    intro s hs
    simpa using h s hs

variable [FloorRing K]

/-- **C86**, order: rearranging the objects (PDFs together with their true values) rearranges the samples and changes neither the PIT
distribution nor its statistics. -/
theorem C86_order (objs objs' : List ((K → Option K) × K)) (hp : objs.Perm objs') (grid : List K) (samps q l : List K)
    (h : pitFull (objs.map (·.1)) (objs.map (·.2)) grid = .ok (samps, q, l)) :
    ∃ samps', pitFull (objs'.map (·.1)) (objs'.map (·.2)) grid = .ok (samps', q, l) ∧ samps.Perm samps' ∧
      pitKs samps' = pitKs samps ∧ pitCvm samps' = pitCvm samps ∧
      ∀ lo hi, (pitAdInput lo hi samps).1.Perm (pitAdInput lo hi samps').1 ∧ (pitAdInput lo hi samps).2 = (pitAdInput lo hi samps').2 := by
  unfold pitFull at h
  cases hi : pitInit (objs.map (·.1)) (objs.map (·.2)) grid with
  | error e => rw [hi] at h; simp [Bind.bind, Except.bind] at h
  | ok v =>
    obtain ⟨s, qs, ls⟩ := v
    rw [hi] at h
    simp only [Bind.bind, Except.bind] at h
    have hn : (objs.map (·.1)).length = (objs.map (·.2)).length := by simp
    obtain ⟨h2, hs, qq, hq, he⟩ := pitInit_ok hn hi
    have hz : ∀ o : List ((K → Option K) × K), List.zipWith (fun F z => (F z).getD 0) (o.map (·.1)) (o.map (·.2)) = o.map fun p => (p.1 p.2).getD 0 := by
      intro o
      rw [List.zipWith_map, List.zipWith_self]
    rw [hz] at hs
    set s' := objs'.map fun p => (p.1 p.2).getD 0 with hs'
    have hperm : s.Perm s' := by rw [hs]; exact hp.map _
    have hlen : objs'.length = objs.length := hp.length_eq.symm
    have hquant : ∀ p, npQuantile p s' = npQuantile p s := by
      intro p
      unfold npQuantile
      rw [sort_eq_of_perm hperm, hperm.length_eq]
    have hi' : pitInit (objs'.map (·.1)) (objs'.map (·.2)) grid = .ok (s', qs, ls) := by
      unfold pitInit
      rw [pitSamples_two _ _ (by simp) (by simpa [hlen] using h2), hz]
      simp only [Bind.bind, Except.bind, arrLen, ← hs']
      have : (pitGrid (objs'.map (·.2)).length grid).mapM (fun p => npQuantile p s') = .ok qq := by
        rw [show (objs'.map (·.2)).length = (objs.map (·.2)).length by simp [hlen], ← hq]
        congr 1
        funext p
        exact hquant p
      rw [this]
      simp only [he]
      simp [hlen]
    by_cases hl : ls = []
    · simp [hl] at h
    rw [if_neg hl] at h
    cases hqi : quantInit qs [ls] true with
    | error e => rw [hqi] at h; simp at h
    | ok v =>
      obtain ⟨q', l'⟩ := v
      rw [hqi] at h
      simp only [Except.ok.injEq, Prod.mk.injEq] at h
      obtain ⟨rfl, rfl, rfl⟩ := h
      refine ⟨s', ?_, hperm, ?_, ?_, ?_⟩
      · unfold pitFull
        rw [hi']
        simp only [Bind.bind, Except.bind]
        rw [if_neg hl, hqi]
      · exact (C66_order _ _ _ hperm).symm
      · unfold pitCvm; rw [hperm.length_eq, C67_order _ _ _ hperm]
      · intro lo hi
        have := hperm.filter fun s => decide (lo ≤ s) && decide (s ≤ hi)
        refine ⟨this, ?_⟩
        simp only [pitAdInput, trimPit]
        rw [this.length_eq]

theorem pitGrid_unit (n : ℕ) (grid : List K) (h : ∀ p ∈ grid, 0 ≤ p ∧ p ≤ 1) : ∀ p ∈ pitGrid n grid, 0 ≤ p ∧ p ≤ 1 := by
  unfold pitGrid
  split_ifs with hc
  · intro p hp
    set m := min n grid.length
    simp only [linspace, List.mem_map, List.mem_range] at hp
    obtain ⟨i, hi, rfl⟩ := hp
    split_ifs with h1
    · simp
    · have hm : (0 : K) < (m : K) - 1 := by
        have : (2 : K) ≤ (m : K) := by exact_mod_cast (by omega : 2 ≤ m)
        linarith
      have hi' : (i : K) ≤ (m : K) - 1 := by
        have : (i : K) + 1 ≤ (m : K) := by exact_mod_cast hi
        linarith
      rw [zero_add, sub_zero, mul_one_div]
      exact ⟨div_nonneg (Nat.cast_nonneg i) hm.le, (div_le_one hm).2 hi'⟩
  · exact h

private theorem window {α : Type} (l w : List α) (k n : ℕ) (h : (l.drop k).take n = w) (j : ℕ) (v : α) (hj : w[j]? = some v) :
    l[k + j]? = some v := by
  subst h
  rw [List.getElem?_take] at hj
  split_ifs at hj
  rwa [List.getElem?_drop] at hj

/-- **C86**, construction: for two or more objects and an increasing grid in [0, 1] the PIT distribution exists exactly when two distinct
quantiles of the samples lie strictly between 0 and 1; without any the constructor raises `ValueError`, with one `IndexError`. -/
theorem C86_construct (cdfs : List (K → Option K)) (zs grid samps qs ls : List K) (hn : cdfs.length = zs.length)
    (hg : grid.Pairwise (· < ·)) (hg01 : ∀ p ∈ grid, 0 ≤ p ∧ p ≤ 1) (h : pitInit cdfs zs grid = .ok (samps, qs, ls)) :
    (ls.length = 0 → pitFull cdfs zs grid = .error .ValueError) ∧
    (ls.length = 1 → pitFull cdfs zs grid = .error .IndexError) ∧
    (2 ≤ ls.length → ∃ q l, pitFull cdfs zs grid = .ok (samps, q, l) ∧ q.Pairwise (· < ·) ∧ l.Pairwise (· < ·) ∧ l.length = q.length ∧
      ∀ (i : ℕ) p v, qs[i]? = some p → ls[i]? = some v → ∃ j : ℕ, q[j]? = some p ∧ l[j]? = some v) := by
  obtain ⟨hls, hqs, hlen, hin, hlev, -⟩ := C73_distribution_partial cdfs zs grid samps qs ls hn hg h
  have hful : pitFull cdfs zs grid = (if ls = [] then .error .ValueError else do
      let (q, l) ← quantInit qs [ls] true
      .ok (samps, q, l.headD [])) := by
    unfold pitFull
    rw [h]
    rfl
  refine ⟨?_, ?_, ?_⟩
  · intro h0
    rw [hful, if_pos (by simpa using h0)]
  · intro h1
    obtain ⟨v, rfl⟩ := List.length_eq_one_iff.1 h1
    obtain ⟨p, rfl⟩ := List.length_eq_one_iff.1 (hlen.trans h1)
    rw [hful, if_neg (by simp)]
    have hno : ¬ (p ≤ floatEps ∧ 1 ≤ p) := by
      rintro ⟨h1, h2⟩
      have : (floatEps : K) < 1 := by unfold floatEps; norm_num
      linarith
    have : quantInit [p] [[v]] true = .error .IndexError := by
      simp [quantInit, padQuantiles]
      rw [if_neg hno]
    rw [this]
    rfl
  · intro h2
    have hu : ∀ p ∈ qs, 0 ≤ p ∧ p ≤ 1 := by
      intro p hp
      obtain ⟨i, hi⟩ := List.getElem?_of_mem hp
      have hlt : i < ls.length := by rw [← hlen]; exact (List.getElem?_eq_some_iff.1 hi).1
      exact pitGrid_unit _ _ hg01 p (hlev i p _ hi (List.getElem?_eq_getElem hlt)).2
    obtain ⟨q', l', k, hp, hqs', -, -, -, hqt, -, hll, hrow, -⟩ :=
      Quant.C18_padding qs [ls] ⟨hqs, by omega, hu, by simpa using ⟨hlen.symm, hls⟩⟩
    obtain ⟨r', hr', hrl, hrp, hrt⟩ := hrow 0 ls rfl
    obtain ⟨x, rfl⟩ := List.length_eq_one_iff.1 (show l'.length = 1 by simpa using hll)
    obtain rfl : x = r' := by simpa using hr'
    refine ⟨q', x, ?_, hqs', hrp, hrl, ?_⟩
    · rw [hful, if_neg (by rintro rfl; simp at h2)]
      simp [quantInit, hp, hrl, Bind.bind, Except.bind]
    · intro i p v hi hv
      exact ⟨k + i, window _ _ _ _ hqt i p hi, window _ _ _ _ hrt i v hv⟩

/-- **C86**, construction: when all PIT values are the same number strictly between 0 and 1, constructing the PIT raises `IndexError`. -/
theorem C86_constant (cdfs : List (K → Option K)) (zs grid : List K) (hn : cdfs.length = zs.length) (h2 : 2 ≤ zs.length)
    (hne : grid ≠ []) (hg : grid.Pairwise (· < ·)) (hg01 : ∀ p ∈ grid, 0 ≤ p ∧ p ≤ 1) (c : K) (hc : 0 < c ∧ c < 1)
    (hcst : ∀ (i : ℕ) F z, cdfs[i]? = some F → zs[i]? = some z → F z = some c) : pitFull cdfs zs grid = .error .IndexError := by
  set samps := List.zipWith (fun F z => (F z).getD 0) cdfs zs with hs
  have hsc : ∀ s ∈ samps, s = c := by
    intro s hs'
    obtain ⟨i, hi⟩ := List.getElem?_of_mem hs'
    rw [hs, List.getElem?_zipWith] at hi
    cases hF : cdfs[i]? with
    | none => rw [hF] at hi; simp at hi
    | some F =>
      cases hz : zs[i]? with
      | none => rw [hF, hz] at hi; simp at hi
      | some z =>
        rw [hF, hz] at hi
        simp only [hcst i F z hF hz, Option.getD_some, Option.some.injEq] at hi
        exact hi.symm
  have hsl : samps.length = zs.length := by simp [hs, hn]
  have hsn : samps ≠ [] := by intro h0; rw [h0] at hsl; simp at hsl; omega
  have hq1 : ∀ p ∈ pitGrid zs.length grid, npQuantile p samps = .ok c := by
    intro p hp
    obtain ⟨p0, p1⟩ := pitGrid_unit zs.length grid hg01 p hp
    obtain ⟨v, hv⟩ := quantile_exists p0 p1 hsn
    have := quantile_between hv (lo := c) (hi := c) fun s hs => by rw [hsc s hs]; simp
    rw [hv, le_antisymm this.2 this.1]
  have hq : (pitGrid zs.length grid).mapM (fun p => npQuantile p samps) = .ok ((pitGrid zs.length grid).map fun _ => c) :=
    mapM_ok_map _ _ _ hq1
  have hgl : (pitGrid zs.length grid).length ≠ 0 := by
    have := List.length_pos_iff.2 hne
    unfold pitGrid
    split_ifs
    · rw [length_linspace]; omega
    · omega
  have hinit : pitInit cdfs zs grid = .ok (samps, pitEnsemble ((pitGrid zs.length grid).map fun _ => c) (pitGrid zs.length grid)) := by
    unfold pitInit
    rw [pitSamples_two cdfs zs hn h2]
    simp only [Bind.bind, Except.bind, arrLen, ← hs, hq]
  have huniq : Np.unique ((pitGrid zs.length grid).map fun _ => c) = [c] := by
    have hst := strict_unique ((pitGrid zs.length grid).map fun _ => c)
    have hm : ∀ v, v ∈ Np.unique ((pitGrid zs.length grid).map fun _ => c) ↔ v = c := by
      intro v
      rw [mem_unique, List.mem_map]
      constructor
      · rintro ⟨_, -, rfl⟩; rfl
      · rintro rfl
        obtain ⟨a, ha⟩ := List.exists_mem_of_length_pos (by omega : 0 < (pitGrid zs.length grid).length)
        exact ⟨a, ha, rfl⟩
    match hU : Np.unique ((pitGrid zs.length grid).map fun _ => c) with
    | [] => exact absurd ((hm c).2 rfl) (by rw [hU]; simp)
    | [a] => rw [(hm a).1 (by rw [hU]; simp)]
    | a :: b :: t =>
      have ha := (hm a).1 (by rw [hU]; simp)
      have hb := (hm b).1 (by rw [hU]; simp)
      rw [hU, List.pairwise_cons] at hst
      exact absurd (hst.1 b (by simp)) (by rw [ha, hb]; exact lt_irrefl _)
  rw [pitEnsemble_eq _ _ (by simp), huniq] at hinit
  exact (C86_construct cdfs zs grid samps _ _ hn hg hg01 hinit).2.1 (by simp [hc])


/-- **C86**, outlier rate: between two quantiles `a` and `b` of the stored distribution, at levels `p` and `r`, the rate is `1 - (r - p)`; it
is 0 for limits beyond all locations. For any interpolant that passes through its knots. -/
theorem C86_outlier (spl : List (K × K) → K → K) (hspl : ∀ kn : List (K × K), (kn.map Prod.fst).Pairwise (· < ·) → ∀ p ∈ kn, spl kn p.1 = p.2)
    (cdfs : List (K → Option K)) (zs grid samps q l : List K) (hn : cdfs.length = zs.length)
    (hg : grid.Pairwise (· < ·)) (hg01 : ∀ p ∈ grid, 0 ≤ p ∧ p ≤ 1) (h : pitFull cdfs zs grid = .ok (samps, q, l)) :
    (∀ (i j : ℕ) a b p r, l[i]? = some a → l[j]? = some b → q[i]? = some p → q[j]? = some r →
      pitOutlier spl (samps, q, l) a b = some (1 - (r - p))) ∧
    (∀ a b, (∀ v ∈ l, a < v) → (∀ v ∈ l, v < b) → pitOutlier spl (samps, q, l) a b = some 0) := by
  have hi : ∃ qs ls, pitInit cdfs zs grid = .ok (samps, qs, ls) := by
    unfold pitFull at h
    cases hi : pitInit cdfs zs grid with
    | error e => rw [hi] at h; simp [Bind.bind, Except.bind] at h
    | ok v =>
      obtain ⟨s, qs, ls⟩ := v
      rw [hi] at h
      simp only [Bind.bind, Except.bind] at h
      split_ifs at h
      split at h
      · simp at h
      · simp only [Except.ok.injEq, Prod.mk.injEq] at h
        exact ⟨qs, ls, by rw [h.1]⟩
  obtain ⟨qs, ls, hi⟩ := hi
  obtain ⟨h0, h1, h2⟩ := C86_construct cdfs zs grid samps qs ls hn hg hg01 hi
  have hlen : 2 ≤ ls.length := by
    by_contra hc
    rcases (by omega : ls.length = 0 ∨ ls.length = 1) with hc | hc
    · rw [h0 hc] at h; simp at h
    · rw [h1 hc] at h; simp at h
  obtain ⟨q', l', hf, hq', hl', hll, hkn⟩ := h2 hlen
  rw [h] at hf
  simp only [Except.ok.injEq, Prod.mk.injEq, true_and] at hf
  obtain ⟨rfl, rfl⟩ := hf
  have hne : l ≠ [] := by
    intro hc
    obtain ⟨hls, hqs, hlen', -⟩ := C73_distribution_partial cdfs zs grid samps qs ls hn hg hi
    obtain ⟨j, -, hj⟩ := hkn 0 _ _ (List.getElem?_eq_getElem (by omega)) (List.getElem?_eq_getElem (by omega))
    rw [hc] at hj
    simp at hj
  obtain ⟨k1, k2, k3⟩ := Quant.C19_knots_partial spl q l (hspl _ (by rw [List.map_fst_zip (by rw [hll])]; exact hl')) hll.symm hl' hne
  refine ⟨?_, ?_⟩
  · intro i j a b p r ha hb hp hr
    simp only [pitOutlier, k1 i a p ha hp, k1 j b r hb hr]
    show some (p + (1 - r)) = _
    congr 1
    ring
  · intro a b ha hb
    simp only [pitOutlier, k2 a ha, k3 b hb]
    show some ((0 : K) + (1 - 1)) = _
    simp

/-! ### instances -/

/-- three objects with uniform PDFs, true values 1/6, 1/2, 5/6: perfectly spread -/
example : pitFull (K := ℚ) [some, some, some] [1/2, 1/6, 5/6] [1/4, 1/2, 3/4]
    = .ok ([1/2, 1/6, 5/6], [0, 1/4, 1/2, 3/4, 1], [1/6, 1/3, 1/2, 2/3, 5/6]) := by decide +kernel

example : ∃ samps', pitFull (K := ℚ) [some, some, some] [1/6, 1/2, 5/6] [1/4, 1/2, 3/4]
    = .ok (samps', [0, 1/4, 1/2, 3/4, 1], [1/6, 1/3, 1/2, 2/3, 5/6]) :=
  (C86_order (K := ℚ) [(some, 1/2), (some, 1/6), (some, 5/6)] [(some, 1/6), (some, 1/2), (some, 5/6)] (List.Perm.swap _ _ _) [1/4, 1/2, 3/4]
    [1/2, 1/6, 5/6] [0, 1/4, 1/2, 3/4, 1] [1/6, 1/3, 1/2, 2/3, 5/6] (by decide +kernel)).imp fun _ h => h.1

example := C86_construct (K := ℚ) [some, some, some] [1/2, 1/6, 5/6] [1/4, 1/2, 3/4] [1/2, 1/6, 5/6] [1/4, 1/2, 3/4] [1/3, 1/2, 2/3] rfl
  (by decide +kernel) (by decide +kernel) (by decide +kernel)

/-- two objects with the same PDF and the same true value -/
example := C86_constant (K := ℚ) [some, some] [1/3, 1/3] [1/4, 1/2, 3/4] rfl (by decide) (by decide) (by decide +kernel) (by decide +kernel)
  (1/3) (by decide +kernel) (by
    intro i F z hF hz
    match i with
    | 0 | 1 => simp at hF hz; rw [← hF, ← hz]; norm_num
    | i + 2 => simp at hF)

example := C86_ks (K := ℚ) [1/2, 1/6, 5/6] (by simp)
example : pitKs (K := ℚ) [1/2, 1/6, 5/6] = .ok (1/6) := by decide +kernel
example := (C86_cvm (K := ℚ) [1/2, 1/6, 5/6] (by decide +kernel)).2 (by decide)

end Verif.Props.Metrics
