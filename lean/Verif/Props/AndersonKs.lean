import Verif.Lemmas.AndersonKs
import Verif.Props.PitMeta

/-!
# C143: the Anderson-Darling comparison of the PIT with the uniform distribution
-/

set_option linter.unusedSectionVars false
set_option autoImplicit false

namespace Verif.Props.AndersonKs

open Verif Verif.Np Verif.Model Verif.Lemmas Verif.Props.Metrics Verif.Lemmas.AndersonKs

/-! ### Specification -/

/-- the empirical distribution function halfway up its jump at `t`: the fraction of values below `t` plus half the fraction equal to `t` -/
noncomputable def halfway (l : List ℝ) (t : ℝ) : ℝ :=
  (((l.countP fun v => decide (v < t) : ℕ) : ℝ) + (l.count t : ℝ) / 2) / (l.length : ℝ)

/-- the Anderson-Darling distance of two samples: the squared difference of the two empirical distribution functions, weighted by the inverse
of the variance of the pooled one, averaged over the pooled values -/
noncomputable def adDist (x y : List ℝ) : ℝ :=
  ∑ z ∈ (x ++ y).toFinset, ((x ++ y).count z : ℝ) / ((x ++ y).length : ℝ) * (halfway x z - halfway y z) ^ 2 /
    (halfway (x ++ y) z * (1 - halfway (x ++ y) z) - ((x ++ y).count z : ℝ) / ((x ++ y).length : ℝ) / 4)

/-- the variance of the comparison of two samples of `n` values each -/
noncomputable def adVar (n : ℕ) : ℝ :=
  ((4 * (∑ i ∈ Finset.range (2 * n - 1), 1 / ((i : ℝ) + 1) ^ 2) - 6) * (2 * n) * (2 * n - 1) + 4 * ∑ i ∈ Finset.range (2 * n - 1), 1 / ((i : ℝ) + 1)) /
    ((2 * n - 1) * (2 * n - 3))

/-! ### Helper lemmas -/

theorem halfway_eq (l : List ℝ) (h : l ≠ []) (t : ℝ) : halfway l t = midEcdf l t := by
  have hn : (l.length : ℝ) ≠ 0 := by
    have := List.length_pos_iff.2 h
    positivity
  unfold halfway
  rw [midEcdf_mul l h, mul_div_assoc, div_self hn, mul_one]

theorem a2_dist (x y : List ℝ) (hx : x ≠ []) (hy : y ≠ []) :
    adA2 x y = ((x.length : ℝ) + (y.length : ℝ) - 1) * ((x.length : ℝ) * (y.length : ℝ)) / ((x.length : ℝ) + (y.length : ℝ)) ^ 2 * adDist x y := by
  have hxy : x ++ y ≠ [] := by simp [hx]
  rw [a2_value x y hx hy]
  unfold adDist
  congr 1
  · rw [List.length_append]; push_cast; ring
  · refine Finset.sum_congr rfl ?_
    intro z _
    rw [halfway_eq x hx, halfway_eq y hy, halfway_eq _ hxy]

theorem dist_term (x y : List ℝ) (h2 : 2 ≤ (Np.unique (Np.sort (x ++ y))).length) (hx : x ≠ []) (z : ℝ) (hz : z ∈ x ++ y) :
    0 < ((x ++ y).count z : ℝ) / ((x ++ y).length : ℝ) ∧
    0 < halfway (x ++ y) z * (1 - halfway (x ++ y) z) - ((x ++ y).count z : ℝ) / ((x ++ y).length : ℝ) / 4 := by
  obtain ⟨z', hz', hne⟩ := two_distinct _ h2 z
  have hxy : x ++ y ≠ [] := by simp [hx]
  refine ⟨?_, ?_⟩
  · have h1 : 0 < (x ++ y).count z := List.count_pos_iff.2 hz
    have h3 : 0 < (x ++ y).length := List.length_pos_iff.2 hxy
    positivity
  · rw [halfway_eq _ hxy]
    exact denom_pos _ z z' hz hz' hne

theorem dist_nonneg (x y : List ℝ) (h2 : 2 ≤ (Np.unique (Np.sort (x ++ y))).length) (hx : x ≠ []) (hy : y ≠ []) :
    0 ≤ adDist x y ∧ (adDist x y = 0 ↔ ∀ v, (y.length : ℝ) * (x.count v : ℝ) = (x.length : ℝ) * (y.count v : ℝ)) := by
  have hnn : ∀ z ∈ (x ++ y).toFinset, 0 ≤ ((x ++ y).count z : ℝ) / ((x ++ y).length : ℝ) * (halfway x z - halfway y z) ^ 2 /
      (halfway (x ++ y) z * (1 - halfway (x ++ y) z) - ((x ++ y).count z : ℝ) / ((x ++ y).length : ℝ) / 4) := by
    intro z hz
    obtain ⟨h1, h3⟩ := dist_term x y h2 hx z (List.mem_toFinset.1 hz)
    positivity
  refine ⟨Finset.sum_nonneg hnn, ?_⟩
  unfold adDist
  rw [Finset.sum_eq_zero_iff_of_nonneg hnn]
  constructor
  · intro H
    refine mid_all x y hx hy ?_
    intro z hz
    obtain ⟨h1, h3⟩ := dist_term x y h2 hx z hz
    have := H z (List.mem_toFinset.2 hz)
    rw [div_eq_zero_iff, or_iff_left h3.ne', mul_eq_zero, or_iff_right h1.ne', pow_eq_zero_iff (by norm_num), sub_eq_zero,
      halfway_eq x hx, halfway_eq y hy] at this
    exact this
  · intro H z _
    rw [halfway_eq x hx, halfway_eq y hy, mid_of_counts x y hx hy H, sub_self]
    simp

theorem ksamp_value {x y : List ℝ} (hx : x ≠ []) (hy : y ≠ []) (hN : 4 ≤ x.length + y.length)
    (h2 : 2 ≤ (Np.unique (Np.sort (x ++ y))).length) :
    adKsamp x y = .ok ((adA2 x y - 1) / Real.sqrt (adSigmaSq ((x.length + y.length : ℕ) : ℝ) 2 (1 / (x.length : ℝ) + 1 / (y.length : ℝ))
      (harm (x.length + y.length - 1)) (adG (x.length + y.length)))) := by
  have hx' := List.length_pos_iff.2 hx
  have hy' := List.length_pos_iff.2 hy
  have hp := sigma_gen_pos (K := ℝ) x.length y.length hx' hy' hN
  have hH : adH (K := ℝ) (x.length + y.length) = some (harm (x.length + y.length - 1)) := by
    obtain ⟨M, hM⟩ : ∃ M, x.length + y.length = M + 3 := ⟨x.length + y.length - 3, by omega⟩
    rw [hM, h_eq, show M + 3 - 1 = M + 2 by omega]
  unfold adKsamp
  simp only
  rw [if_neg (by omega), if_neg (by omega), hH]
  simp only
  rw [if_neg (by omega), if_neg (not_lt.2 hp.le), if_neg hp.ne']

theorem ksamp_congr {x y x' y' : List ℝ} (hx : x.length = x'.length) (hy : y.length = y'.length)
    (hu : (Np.unique (Np.sort (x ++ y))).length = (Np.unique (Np.sort (x' ++ y'))).length) (ha : x ≠ [] → y ≠ [] → adA2 x y = adA2 x' y') :
    adKsamp x y = adKsamp x' y' := by
  unfold adKsamp
  rw [hu, hx, hy]
  by_cases h : x'.length = 0 ∨ y'.length = 0
  · simp only [h, if_true]
  · rw [not_or] at h
    rw [ha (by rintro rfl; simp at hx; omega) (by rintro rfl; simp at hy; omega)]

theorem unique_length (l : List ℝ) : (Np.unique (Np.sort l)).length = l.toFinset.card := by
  rw [length_unique, List.card_toFinset, (sort_perm l).dedup.length_eq]

theorem dist_map (f : ℝ → ℝ) (hf : Function.Injective f) (x y : List ℝ)
    (h : (∀ l : List ℝ, l ≠ [] → ∀ z ∈ l ++ (x ++ y), halfway (l.map f) (f z) = halfway l z) ∨
      (∀ l : List ℝ, l ≠ [] → ∀ z ∈ l ++ (x ++ y), halfway (l.map f) (f z) = 1 - halfway l z)) (hx : x ≠ []) (hy : y ≠ []) :
    adDist (x.map f) (y.map f) = adDist x y := by
  have hxy : x ++ y ≠ [] := by simp [hx]
  unfold adDist
  have himg : (x.map f ++ y.map f).toFinset = (x ++ y).toFinset.image f := by
    ext v
    simp only [List.mem_toFinset, Finset.mem_image, ← List.map_append, List.mem_map]
  rw [himg, Finset.sum_image fun a _ b _ hab => hf hab]
  refine Finset.sum_congr rfl ?_
  intro z hz
  have hz' := List.mem_toFinset.1 hz
  rw [← List.map_append, List.count_map_of_injective _ _ hf, List.length_map]
  rcases h with h | h
  · rw [h x hx z (List.mem_append_right _ hz'), h y hy z (List.mem_append_right _ hz'), h (x ++ y) hxy z (List.mem_append_right _ hz')]
  · rw [h x hx z (List.mem_append_right _ hz'), h y hy z (List.mem_append_right _ hz'), h (x ++ y) hxy z (List.mem_append_right _ hz')]
    congr 1 <;> ring

theorem ksamp_map (f : ℝ → ℝ) (hf : Function.Injective f) (x y : List ℝ)
    (h : (∀ l : List ℝ, l ≠ [] → ∀ z ∈ l ++ (x ++ y), halfway (l.map f) (f z) = halfway l z) ∨
      (∀ l : List ℝ, l ≠ [] → ∀ z ∈ l ++ (x ++ y), halfway (l.map f) (f z) = 1 - halfway l z)) :
    adKsamp (x.map f) (y.map f) = adKsamp x y := by
  refine ksamp_congr (by simp) (by simp) ?_ ?_
  · rw [unique_length, unique_length]
    have himg : (x.map f ++ y.map f).toFinset = (x ++ y).toFinset.image f := by
      ext v
      simp only [List.mem_toFinset, Finset.mem_image, ← List.map_append, List.mem_map]
    rw [himg, Finset.card_image_of_injective _ hf]
  · intro hx hy
    have hx' : x ≠ [] := by rintro rfl; simp at hx
    have hy' : y ≠ [] := by rintro rfl; simp at hy
    rw [a2_dist _ _ hx hy, a2_dist _ _ hx' hy', dist_map f hf x y h hx' hy']
    simp

theorem halfway_mono (f : ℝ → ℝ) (hf : StrictMono f) (l : List ℝ) (z : ℝ) : halfway (l.map f) (f z) = halfway l z := by
  unfold halfway
  rw [List.countP_map, List.count_map_of_injective _ _ hf.injective, List.length_map]
  congr 4
  funext v
  simp [hf.lt_iff_lt]

theorem halfway_anti (f : ℝ → ℝ) (hf : StrictAnti f) (l : List ℝ) (hl : l ≠ []) (z : ℝ) : halfway (l.map f) (f z) = 1 - halfway l z := by
  have hn : (l.length : ℝ) ≠ 0 := by
    have := List.length_pos_iff.2 hl
    positivity
  unfold halfway
  rw [List.countP_map, List.count_map_of_injective _ _ hf.injective, List.length_map]
  have e : (l.countP ((fun v => decide (v < f z)) ∘ f)) + ((l.countP fun v => decide (v < z)) + l.count z) = l.length := by
    rw [← count_split]
    have := List.length_eq_countP_add_countP (l := l) fun v => decide (v ≤ z)
    rw [this, add_comm]
    congr 1
    refine List.countP_congr ?_
    intro v _
    simp [hf.lt_iff_gt]
  have e' : ((l.countP ((fun v => decide (v < f z)) ∘ f) : ℕ) : ℝ) + (((l.countP fun v => decide (v < z) : ℕ) : ℝ) + (l.count z : ℝ)) = (l.length : ℝ) := by
    exact_mod_cast e
  field_simp
  linear_combination 2 * e'

/-! ### The claims -/

/-- **C143**, any two non-empty samples with at least four values together, not all of them the same: a statistic is always returned. It is
the distance between the two empirical distribution functions, in units that only depend on the numbers of values. It is smallest, `-1/σ`,
exactly when every value makes up the same fraction of both samples. -/
theorem C143_distance : ∃ σ : ℕ → ℕ → ℝ, ∀ x y : List ℝ, x ≠ [] → y ≠ [] → 4 ≤ x.length + y.length → (∃ a ∈ x ++ y, ∃ b ∈ x ++ y, a ≠ b) →
    0 < σ x.length y.length ∧ ∃ d, adKsamp x y = .ok d ∧
    d = (((x.length : ℝ) + (y.length : ℝ) - 1) * ((x.length : ℝ) * (y.length : ℝ)) / ((x.length : ℝ) + (y.length : ℝ)) ^ 2 * adDist x y - 1) /
      σ x.length y.length ∧
    -1 / σ x.length y.length ≤ d ∧
    (d = -1 / σ x.length y.length ↔ ∀ v, (x.count v : ℝ) / (x.length : ℝ) = (y.count v : ℝ) / (y.length : ℝ)) := by
  refine ⟨fun m n => Real.sqrt (adSigmaSq ((m + n : ℕ) : ℝ) 2 (1 / (m : ℝ) + 1 / (n : ℝ)) (harm (m + n - 1)) (adG (m + n))), ?_⟩
  intro x y hx hy hN ⟨a, ha, b, hb, hab⟩
  have h2 := unique_two ha hb hab
  have hmx : (1 : ℝ) ≤ (x.length : ℝ) := by exact_mod_cast List.length_pos_iff.2 hx
  have hmy : (1 : ℝ) ≤ (y.length : ℝ) := by exact_mod_cast List.length_pos_iff.2 hy
  have hv := sigma_gen_pos (K := ℝ) x.length y.length (List.length_pos_iff.2 hx) (List.length_pos_iff.2 hy) hN
  have hok := ksamp_value hx hy hN h2
  simp only
  set σ := Real.sqrt (adSigmaSq ((x.length + y.length : ℕ) : ℝ) 2 (1 / (x.length : ℝ) + 1 / (y.length : ℝ)) (harm (x.length + y.length - 1))
    (adG (x.length + y.length))) with hσ
  have hpos : 0 < σ := Real.sqrt_pos.2 hv
  have hc : 0 < ((x.length : ℝ) + (y.length : ℝ) - 1) * ((x.length : ℝ) * (y.length : ℝ)) / ((x.length : ℝ) + (y.length : ℝ)) ^ 2 := by
    refine div_pos (mul_pos (by linarith) (mul_pos (by linarith) (by linarith))) (by positivity)
  obtain ⟨hnn, hz⟩ := dist_nonneg x y h2 hx hy
  rw [a2_dist x y hx hy] at hok
  refine ⟨hpos, _, hok, rfl, ?_, ?_⟩
  · refine (div_le_div_iff_of_pos_right hpos).2 ?_
    have := mul_nonneg hc.le hnn
    linarith
  · rw [div_left_inj' hpos.ne']
    have e : (∀ v, (x.count v : ℝ) / (x.length : ℝ) = (y.count v : ℝ) / (y.length : ℝ)) ↔
        ∀ v, (y.length : ℝ) * (x.count v : ℝ) = (x.length : ℝ) * (y.count v : ℝ) := by
      refine forall_congr' ?_
      intro v
      rw [div_eq_div_iff (by linarith) (by linarith)]
      constructor <;> intro h' <;> linarith
    rw [e, ← hz]
    constructor
    · intro h'
      have : ((x.length : ℝ) + (y.length : ℝ) - 1) * ((x.length : ℝ) * (y.length : ℝ)) / ((x.length : ℝ) + (y.length : ℝ)) ^ 2 * adDist x y = 0 := by linarith
      exact (mul_eq_zero.1 this).resolve_left hc.ne'
    · intro h'; rw [h', mul_zero, zero_sub]

/-- **C143**, when no statistic is returned: an empty sample, or all values the same, raise `ValueError`; one value in each sample, different
from each other, raises `IndexError`. -/
theorem C143_errors (x y : List ℝ) :
    ((x = [] ∨ y = [] ∨ ∀ a ∈ x ++ y, ∀ b ∈ x ++ y, a = b) → adKsamp x y = .error .ValueError) ∧
    (∀ a b, a ≠ b → adKsamp [a] [b] = .error .IndexError) := by
  constructor
  · intro h
    unfold adKsamp
    by_cases h2 : (Np.unique (Np.sort (x ++ y))).length < 2
    · simp only [h2, if_true]
    · rcases h with rfl | rfl | h
      · simp
      · simp
      · cases hl : x ++ y with
        | nil => rw [hl] at h2; simp [Np.unique, Np.sort] at h2
        | cons a t =>
          obtain ⟨z, hz, hne⟩ := two_distinct _ (not_lt.1 h2) a
          exact absurd (h a (by rw [hl]; simp) z hz) hne
  · intro a b hab
    unfold adKsamp
    have h2 : ¬ (Np.unique (Np.sort ([a] ++ [b]))).length < 2 := by
      have := unique_two (l := [a] ++ [b]) (a := a) (b := b) (by simp) (by simp) hab
      omega
    simp only
    rw [if_neg h2, if_neg (by simp)]
    simp [adH, adHs, Np.cumsum, Np.cumsumFrom]

/-- **C143**, order: neither the order within the samples nor which of the two comes first matters, including the errors. -/
theorem C143_order (x y x' y' : List ℝ) (hx : x.Perm x') (hy : y.Perm y') : adKsamp x y = adKsamp x' y' ∧ adKsamp x y = adKsamp y x := by
  constructor
  · have hp : (x ++ y).Perm (x' ++ y') := hx.append hy
    refine ksamp_congr hx.length_eq hy.length_eq (by rw [sort_eq_of_perm hp]) ?_
    intro _ _
    unfold adA2 adInner
    rw [sort_eq_of_perm hp, sort_eq_of_perm hx, sort_eq_of_perm hy, hx.length_eq, hy.length_eq]
  · have hp : (x ++ y).Perm (y ++ x) := List.perm_append_comm
    have ha : adA2 x y = adA2 y x := by
      unfold adA2
      rw [sort_eq_of_perm hp]
      simp only
      rw [add_comm (adInner _ _ x / _)]
    unfold adKsamp
    simp only [sort_eq_of_perm hp, ha, add_comm y.length x.length, or_comm (a := y.length = 0), add_comm (1 / (y.length : ℝ))]

/-- **C143**, only ranks count: a strictly increasing or strictly decreasing transformation of all values changes nothing. -/
theorem C143_ranks (f : ℝ → ℝ) (hf : StrictMono f ∨ StrictAnti f) (x y : List ℝ) : adKsamp (x.map f) (y.map f) = adKsamp x y := by
  rcases hf with hf | hf
  · exact ksamp_map f hf.injective x y (Or.inl fun l _ z _ => halfway_mono f hf l z)
  · exact ksamp_map f hf.injective x y (Or.inr fun l hl z _ => halfway_anti f hf l hl z)

theorem linspace_one (lo hi : ℝ) : linspace lo hi 1 = [lo] := by simp [linspace]

/-- **C143**, which PIT samples cannot be compared: none within the limits, or limits that leave no room, raise `ValueError`; a single value
raises `ValueError` when it is the lower limit and `IndexError` otherwise. -/
theorem C143_too_few (lo hi : ℝ) (samps : List ℝ) :
    ((∀ s ∈ samps, ¬ (lo ≤ s ∧ s ≤ hi)) → pitAd lo hi samps = .error .ValueError) ∧
    (hi ≤ lo → pitAd lo hi samps = .error .ValueError) ∧
    (∀ v, (samps.filter fun s => decide (lo ≤ s ∧ s ≤ hi)) = [v] →
      pitAd lo hi samps = if v = lo then .error .ValueError else .error .IndexError) := by
  have hempty : trimPit lo hi samps = [] → pitAd lo hi samps = .error .ValueError := by
    intro h
    simp [pitAd, pitAdInput, h, adKsamp, linspace, Np.unique, Np.sort]
  have htrim : trimPit lo hi samps = samps.filter fun s => decide (lo ≤ s ∧ s ≤ hi) := by
    unfold trimPit
    refine List.filter_congr ?_
    intro s _
    simp
  refine ⟨?_, ?_, ?_⟩
  · intro h
    refine hempty ?_
    rw [htrim, List.filter_eq_nil_iff]
    intro s hs
    simpa using h s hs
  · intro h
    have hall : ∀ v ∈ (pitAdInput lo hi samps).1 ++ (pitAdInput lo hi samps).2, v = lo := by
      intro v hv
      rw [List.mem_append] at hv
      have h1 : ∀ s ∈ trimPit lo hi samps, s = lo ∧ lo = hi := by
        intro s hs
        rw [htrim, List.mem_filter] at hs
        have := of_decide_eq_true hs.2
        exact ⟨by linarith [this.1, this.2], by linarith [this.1, this.2]⟩
      rcases hv with hv | hv
      · exact (h1 v hv).1
      · simp only [pitAdInput] at hv
        cases ht : trimPit lo hi samps with
        | nil => rw [ht] at hv; simp [linspace] at hv
        | cons a t =>
          have := (h1 a (by rw [ht]; simp)).2
          subst this
          simp only [linspace, List.mem_map, List.mem_range] at hv
          obtain ⟨i, _, rfl⟩ := hv
          split_ifs <;> simp
    have : (Np.unique (Np.sort ((pitAdInput lo hi samps).1 ++ (pitAdInput lo hi samps).2))).length < 2 := by
      by_contra hcon
      obtain ⟨z, hz, hne⟩ := two_distinct _ (not_lt.1 hcon) lo
      exact hne (hall z hz).symm
    unfold pitAd adKsamp
    simp only [this, if_true]
  · intro v hv
    rw [← htrim] at hv
    unfold pitAd pitAdInput
    rw [hv]
    simp only [List.length_singleton, linspace_one]
    unfold adKsamp
    by_cases h : v = lo
    · subst h
      simp [Np.unique, Np.sort]
    · have h2 : ¬ (Np.unique (Np.sort ([v] ++ [lo]))).length < 2 := by
        have := unique_two (l := [v] ++ [lo]) (a := v) (b := lo) (by simp) (by simp) h
        omega
      rw [if_neg h2, if_neg h, if_neg (by simp)]
      simp [adH, adHs, Np.cumsum, Np.cumsumFrom]

theorem adVar_eq (n : ℕ) (hn : 2 ≤ n) :
    adSigmaSq ((n + n : ℕ) : ℝ) 2 (1 / (n : ℝ) + 1 / (n : ℝ)) (harm (n + n - 1)) (adG (n + n)) = adVar n ∧ 0 < adVar n := by
  have h1 := sigma_eq (K := ℝ) n hn
  have h2 := sigma_pos (K := ℝ) n hn
  have : adVar n = ((4 * harm2 (n + n - 1) - 6) * (2 * (n : ℝ)) * (2 * (n : ℝ) - 1) + 4 * harm (n + n - 1)) / ((2 * (n : ℝ) - 1) * (2 * (n : ℝ) - 3)) := by
    unfold adVar harm harm2
    rw [two_mul]
  rw [this]
  exact ⟨h1, h2⟩

theorem equal_sizes (x y : List ℝ) (n : ℕ) (hx : x.length = n) (hy : y.length = n) (hn : 2 ≤ n)
    (h2 : 2 ≤ (Np.unique (Np.sort (x ++ y))).length) :
    adKsamp x y = .ok (((2 * (n : ℝ) - 1) / 4 * adDist x y - 1) / Real.sqrt (adVar n)) := by
  have hx0 : x ≠ [] := by rintro rfl; simp at hx; omega
  have hy0 : y ≠ [] := by rintro rfl; simp at hy; omega
  have hn0 : (n : ℝ) ≠ 0 := by
    have : 0 < n := by omega
    positivity
  rw [ksamp_value hx0 hy0 (by omega) h2, hx, hy, (adVar_eq n hn).1, a2_dist x y hx0 hy0, hx, hy]
  congr 4
  field_simp
  ring

/-- **C143**, the PIT: with at least two PIT values within the limits a statistic is returned. It is the distance between the PIT values and
the equally spaced reference values, minus its expectation 1, divided by a standard deviation that only depends on the number of values and is
never zero. It is smallest exactly when the PIT values within the limits are the equally spaced values. -/
theorem C143_pit (lo hi : ℝ) (h : lo < hi) (samps T : List ℝ) (hT : T = samps.filter fun s => decide (lo ≤ s ∧ s ≤ hi)) (hn : 2 ≤ T.length) :
    ∃ R : List ℝ, R.length = T.length ∧ (∀ i : ℕ, i < T.length → R[i]? = some (lo + (i : ℝ) * ((hi - lo) / ((T.length : ℝ) - 1)))) ∧
      0 < adVar T.length ∧
      pitAd lo hi samps = .ok (((2 * (T.length : ℝ) - 1) / 4 * adDist T R - 1) / Real.sqrt (adVar T.length)) ∧
      0 ≤ adDist T R ∧ (adDist T R = 0 ↔ T.Perm R) := by
  have htrim : trimPit lo hi samps = T := by
    rw [hT]
    unfold trimPit
    refine List.filter_congr ?_
    intro s _
    simp
  have hget : ∀ i : ℕ, i < T.length → (linspace lo hi T.length)[i]? = some (lo + (i : ℝ) * ((hi - lo) / ((T.length : ℝ) - 1))) := by
    intro i hi'
    rw [getElem?_linspace lo hi _ (by omega) i hi']
  have hlen : (linspace lo hi T.length).length = T.length := length_linspace _ _ _
  have h2 : 2 ≤ (Np.unique (Np.sort (T ++ linspace lo hi T.length))).length := by
    have ha := List.mem_of_getElem? (hget 0 (by omega))
    have hb := List.mem_of_getElem? (hget 1 (by omega))
    refine unique_two (List.mem_append_right _ ha) (List.mem_append_right _ hb) ?_
    have hT2 : (2 : ℝ) ≤ (T.length : ℝ) := by exact_mod_cast hn
    have : 0 < (hi - lo) / ((T.length : ℝ) - 1) := div_pos (by linarith) (by linarith)
    push_cast
    intro hcon
    linarith
  have hT0 : T ≠ [] := by rintro rfl; simp at hn
  have hR0 : linspace lo hi T.length ≠ [] := by intro hc; rw [hc] at hlen; simp at hlen; omega
  obtain ⟨hnn, hz⟩ := dist_nonneg T (linspace lo hi T.length) h2 hT0 hR0
  refine ⟨linspace lo hi T.length, hlen, hget, (adVar_eq _ hn).2, ?_, hnn, ?_⟩
  · unfold pitAd pitAdInput
    rw [htrim]
    exact equal_sizes T _ T.length rfl hlen hn h2
  · rw [hz, hlen, List.perm_iff_count]
    have hc : (T.length : ℝ) ≠ 0 := by positivity
    refine forall_congr' ?_
    intro v
    rw [mul_right_inj' hc, Nat.cast_inj]

/-- **C143**, symmetry: PIT values mirrored within the limits have the same statistic: too low and too high PIT values count the same.
(A single value is never compared, but raises another error at the lower limit than at the upper, `C143_too_few`.) -/
theorem C143_mirror (lo hi : ℝ) (samps : List ℝ) (h1 : (samps.filter fun s => decide (lo ≤ s ∧ s ≤ hi)).length ≠ 1) :
    pitAd lo hi (samps.map fun s => lo + hi - s) = pitAd lo hi samps := by
  have htrim : trimPit lo hi (samps.map fun s => lo + hi - s) = (trimPit lo hi samps).map fun s => lo + hi - s := by
    unfold trimPit
    rw [List.filter_map]
    congr 1
    refine List.filter_congr ?_
    intro s _
    rw [Bool.eq_iff_iff]
    simp only [Function.comp, Bool.and_eq_true, decide_eq_true_eq]
    constructor <;> rintro ⟨h1, h2⟩ <;> exact ⟨by linarith, by linarith⟩
  unfold pitAd pitAdInput
  rw [htrim, List.length_map]
  simp only
  set n := (trimPit lo hi samps).length with hn
  have hn1 : n ≠ 1 := by
    intro hc
    apply h1
    rw [← hc, hn]
    unfold trimPit
    congr 2
    funext s
    simp
  by_cases h0 : n = 0
  · have hnil : trimPit lo hi samps = [] := List.length_eq_zero_iff.1 (hn.symm.trans h0)
    rw [hnil, h0]
    rfl
  have hlin : (linspace lo hi n).map (fun s => lo + hi - s) = (linspace lo hi n).reverse := by
    have hn2 : (2 : ℝ) ≤ (n : ℝ) := by exact_mod_cast (by omega : 2 ≤ n)
    have hne : (n : ℝ) - 1 ≠ 0 := by
      intro hc
      linarith
    refine List.ext_getElem? ?_
    intro i
    by_cases hi' : i < n
    · rw [List.getElem?_map, getElem?_linspace lo hi _ (by omega) i hi', List.getElem?_reverse (by rwa [length_linspace]), length_linspace,
        getElem?_linspace lo hi _ (by omega) _ (by omega), Option.map_some, Nat.sub_sub, Nat.cast_sub (by omega)]
      congr 1
      push_cast
      field_simp
      ring
    · rw [List.getElem?_eq_none (by simp [length_linspace]; omega), List.getElem?_eq_none (by simp [length_linspace]; omega)]
  rw [(C143_order _ _ _ _ (List.Perm.refl _) (List.reverse_perm (linspace lo hi n)).symm).1, ← hlin]
  refine C143_ranks _ (Or.inr ?_) _ _
  intro a b hab
  simp only
  linarith

/-- **C143**, order of the objects: rearranging the PIT values changes nothing, including the errors. -/
theorem C143_pit_order (lo hi : ℝ) (samps samps' : List ℝ) (h : samps.Perm samps') : pitAd lo hi samps = pitAd lo hi samps' := by
  have ht : (trimPit lo hi samps).Perm (trimPit lo hi samps') := h.filter _
  unfold pitAd pitAdInput
  rw [ht.length_eq]
  exact (C143_order _ _ _ _ ht (List.Perm.refl _)).1

/-! ### Non-vacuity -/

/-- four perfectly spread PIT values have the smallest statistic -/
example : ∃ d, pitAd 0 1 [1, 1 / 3, 0, 2 / 3] = .ok d ∧ d < 0 := by
  have hf : ([1, 1 / 3, 0, 2 / 3] : List ℝ).filter (fun s => decide ((0 : ℝ) ≤ s ∧ s ≤ 1)) = [1, 1 / 3, 0, 2 / 3] := by
    rw [List.filter_eq_self]
    intro a ha
    simp only [List.mem_cons, List.not_mem_nil, or_false] at ha
    rcases ha with rfl | rfl | rfl | rfl <;> norm_num
  obtain ⟨R, hR, hget, hv, hok, _, hz⟩ := C143_pit 0 1 (by norm_num) [1, 1 / 3, 0, 2 / 3] _ hf.symm (by simp)
  have hRe : R = [0, 1 / 3, 2 / 3, 1] := by
    refine List.ext_getElem? ?_
    intro i
    by_cases hi : i < 4
    · rw [hget i (by simpa using hi)]
      rcases (by omega : i = 0 ∨ i = 1 ∨ i = 2 ∨ i = 3) with rfl | rfl | rfl | rfl <;> norm_num
    · rw [List.getElem?_eq_none (by rw [hR]; simp; omega), List.getElem?_eq_none (by simp; omega)]
  have hp : ([1, 1 / 3, 0, 2 / 3] : List ℝ).Perm R := by
    rw [hRe]
    exact (List.perm_append_comm (l₁ := [(1 : ℝ), 1 / 3]) (l₂ := [0, 2 / 3])).trans (by
      refine List.Perm.cons _ ?_
      exact (List.perm_append_comm (l₁ := [(2 / 3 : ℝ), 1]) (l₂ := [1 / 3])))
  refine ⟨_, hok, ?_⟩
  rw [hz.2 hp]
  have := Real.sqrt_pos.2 hv
  rw [mul_zero, zero_sub, neg_div]
  exact neg_neg_of_pos (by positivity)

/-- five clumped values are further from the reference than five spread ones; five values at the upper limit are much further -/
example : adA2 ([1 / 2, 1 / 2, 1 / 2, 1 / 2, 1 / 2] : List ℚ) [0, 1 / 4, 1 / 2, 3 / 4, 1] = 122 / 205 ∧
    adA2 ([1 / 10, 3 / 10, 1 / 2, 7 / 10, 9 / 10] : List ℚ) [0, 1 / 4, 1 / 2, 3 / 4, 1] = 35236 / 119925 ∧
    adA2 ([1, 1, 1, 1, 1] : List ℚ) [0, 1 / 4, 1 / 2, 3 / 4, 1] = 114844 / 23985 := by decide +kernel

end Verif.Props.AndersonKs
