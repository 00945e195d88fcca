import Verif.Props.PointStats

/-!
# C132: outliers do not move the point statistics
-/

set_option linter.unusedSectionVars false
set_option autoImplicit false

namespace Verif.Props.Robust

open Verif Verif.Np Verif.Model Verif.Lemmas Verif.Props.Metrics

variable {K : Type} [Field K] [LinearOrder K] [IsStrictOrderedRing K]

/-- the residuals `(estimate - true) / (1 + true)` of a list of objects -/
def residuals (est ref : List K) : List K := List.zipWith (fun e r => (e - r) / (1 + r)) est ref

/-- as many true values as estimates, none of them -1 -/
structure Objects (est ref : List K) : Prop where
  size : est.length = ref.length
  defined : ∀ r ∈ ref, 1 + r ≠ 0

theorem ez_eq {est ref : List K} (h : Objects est ref) : ezList est ref = .ok (residuals est ref) := by
  unfold ezList
  rw [if_pos h.size, if_neg]
  · rfl
  · simpa using h.defined

/-! ## entries of sorted lists -/

theorem entry_ge {l : List K} {a v : K} {i : ℕ} (hv : (Np.sort l)[i]? = some v) (h : l.countP (fun x => decide (x < a)) ≤ i) : a ≤ v := by
  rw [← (sort_perm l).countP_eq] at h
  by_contra hlt
  have := (count_lt_iff (sort_pairwise l) a i v hv).1 (not_le.1 hlt)
  omega

theorem count_split (l : List K) (b : K) : l.countP (fun x => decide (x ≤ b)) + l.countP (fun x => decide (b < x)) = l.length := by
  rw [List.length_eq_countP_add_countP (fun x => decide (x ≤ b))]
  congr 2
  funext x
  simp

theorem entry_le {l : List K} {b v : K} {i : ℕ} (hv : (Np.sort l)[i]? = some v) (h : l.countP (fun x => decide (b < x)) + i < l.length) : v ≤ b := by
  rw [count_le_iff (sort_pairwise l) b i v hv, (sort_perm l).countP_eq]
  have := count_split l b
  omega

/-- a quantile is not below a value that few enough entries are below -/
theorem quantile_ge {p a q : K} {l : List K} [FloorRing K] (h : npQuantile p l = .ok q) (hc : (l.countP (fun x => decide (x < a)) : K) ≤ p * ((l.length : K) - 1)) : a ≤ q := by
  obtain ⟨h0, h1, i, u, w, hu, hw, hi0, hi1, rfl⟩ := quantile_ok h
  have hil := (List.getElem?_eq_some_iff.1 hu).1
  rw [length_sort] at hil
  have hci : l.countP (fun x => decide (x < a)) ≤ i := by
    have : (l.countP (fun x => decide (x < a)) : K) < (i : K) + 1 := lt_of_le_of_lt hc hi1
    have : l.countP (fun x => decide (x < a)) < i + 1 := by exact_mod_cast this
    omega
  have hau := entry_ge hu hci
  have huw := pairwise_get (sort_pairwise l) (by omega) hu hw
  have := mul_nonneg (sub_nonneg.2 huw) (sub_nonneg.2 hi0)
  linarith

/-- a quantile is not above a value that few enough entries are above -/
theorem quantile_le {p b q : K} {l : List K} [FloorRing K] (h : npQuantile p l = .ok q) (hc : (l.countP (fun x => decide (b < x)) : K) ≤ (1 - p) * ((l.length : K) - 1)) : q ≤ b := by
  obtain ⟨h0, h1, i, u, w, hu, hw, hi0, hi1, rfl⟩ := quantile_ok h
  have hil := (List.getElem?_eq_some_iff.1 hu).1
  rw [length_sort] at hil
  have hsum : (i : K) + (l.countP (fun x => decide (b < x)) : K) ≤ (l.length : K) - 1 := by linarith
  have hub : u ≤ b := entry_le hu (by
    have : ((i + l.countP (fun x => decide (b < x)) + 1 : ℕ) : K) ≤ (l.length : K) := by push_cast; linarith
    have : i + l.countP (fun x => decide (b < x)) + 1 ≤ l.length := by exact_mod_cast this
    omega)
  by_cases he : p * ((l.length : K) - 1) = (i : K)
  · rw [he, sub_self, mul_zero, add_zero]; exact hub
  · have hlt : (i : K) < p * ((l.length : K) - 1) := lt_of_le_of_ne hi0 (Ne.symm he)
    have hlt' : ((i + l.countP (fun x => decide (b < x)) + 1 : ℕ) : K) < (l.length : K) := by push_cast; linarith
    have hlt'' : i + l.countP (fun x => decide (b < x)) + 1 < l.length := by exact_mod_cast hlt'
    have hwb : w ≤ b := entry_le hw (by rw [min_eq_left (by omega)]; omega)
    have huw := pairwise_get (sort_pairwise l) (by omega) hu hw
    nlinarith [mul_nonneg (sub_nonneg.2 huw) (show 0 ≤ 1 - (p * ((l.length : K) - 1) - (i : K)) by linarith)]

theorem median_ge {a m : K} {l : List K} (h : npMedian l = some m) (hc : 2 * l.countP (fun x => decide (x < a)) < l.length) : a ≤ m := by
  obtain ⟨u, w, hu, hw, rfl⟩ := (median_eq l m).1 h
  have h1 := entry_ge hu (a := a) (by omega)
  have h2 := entry_ge hw (a := a) (by omega)
  linarith

theorem median_le {b m : K} {l : List K} (h : npMedian l = some m) (hc : 2 * l.countP (fun x => decide (b < x)) < l.length) : m ≤ b := by
  obtain ⟨u, w, hu, hw, rfl⟩ := (median_eq l m).1 h
  have h1 := entry_le hu (b := b) (by omega)
  have h2 := entry_le hw (b := b) (by omega)
  linarith

/-! ## C132 -/

/-- the number of objects whose residual is outside `[a, b]` -/
def outside (a b : K) (l : List K) : ℕ := l.countP fun x => decide (x < a ∨ b < x)

theorem outside_lt (a b : K) (l : List K) : l.countP (fun x => decide (x < a)) ≤ outside a b l := List.countP_mono_left fun x _ h => by simp at h ⊢; exact Or.inl h

theorem outside_gt (a b : K) (l : List K) : l.countP (fun x => decide (b < x)) ≤ outside a b l := List.countP_mono_left fun x _ h => by simp at h ⊢; exact Or.inr h

/-- **C132: bias and sigma-MAD.** As long as fewer than half of the objects have a residual outside `[a, b]`, whatever these residuals are, the bias is between `a` and `b`
and sigma-MAD at most `1.4826 (b - a)`. -/
theorem C132_median {est ref : List K} (ho : Objects est ref) (a b : K) (hc : 2 * outside a b (residuals est ref) < est.length) :
    (∃ m, pointBias est ref = .ok (some m) ∧ a ≤ m ∧ m ≤ b) ∧ ∃ s, sigmaMad est ref = .ok (some s) ∧ 0 ≤ s ∧ s ≤ 14826 / 10000 * (b - a) := by
  have hlen : (residuals est ref).length = est.length := by simp [residuals, ho.size]
  have hne : residuals est ref ≠ [] := by
    intro h0
    rw [h0] at hlen
    simp at hlen
    omega
  obtain ⟨m, hm⟩ := median_exists _ hne
  have h1 := outside_lt a b (residuals est ref)
  have h2 := outside_gt a b (residuals est ref)
  have ha := median_ge (a := a) hm (by omega)
  have hb := median_le (b := b) hm (by omega)
  obtain ⟨d, hd⟩ := median_exists ((residuals est ref).map fun e => |e - m|) (by simpa using hne)
  have hdl : d ≤ b - a := by
    refine median_le hd ?_
    rw [List.countP_map, List.length_map]
    have : (residuals est ref).countP ((fun x => decide (b - a < x)) ∘ fun e => |e - m|) ≤ outside a b (residuals est ref) := by
      refine List.countP_mono_left fun x _ h => ?_
      simp only [Function.comp_apply, decide_eq_true_eq] at h ⊢
      by_contra hn
      push Not at hn
      have : |x - m| ≤ b - a := by rw [abs_le]; constructor <;> linarith
      linarith
    omega
  have hd0 : 0 ≤ d := by
    refine median_ge hd ?_
    have : ((residuals est ref).map fun e => |e - m|).countP (fun x => decide (x < 0)) = 0 := by
      rw [List.countP_eq_zero]
      intro x hx
      obtain ⟨e, -, rfl⟩ := List.mem_map.1 hx
      simp
    rw [this, List.length_map]
    omega
  refine ⟨⟨m, by rw [pointBias, ez_eq ho]; simp [Except.map, hm], ha, hb⟩, d * (14826 / 10000), ?_, by positivity, ?_⟩
  · rw [sigmaMad, ez_eq ho]
    simp [Except.map, sigmaMadOf, hm, hd]
  · rw [mul_comm]
    exact mul_le_mul_of_nonneg_left hdl (by norm_num)

/-- quartiles that do not leave the range of the others -/
theorem iqr_of [FloorRing K] {ez : List K} (hne : ez ≠ []) (a b : K) (hc : 4 * (outside a b ez : K) ≤ (ez.length : K) - 1) :
    ∃ s, sigmaIqrOf ez = .ok s ∧ 0 ≤ s ∧ s ≤ (b - a) / (1349 / 1000) := by
  have h1 : (ez.countP (fun x => decide (x < a)) : K) ≤ outside a b ez := by exact_mod_cast outside_lt a b ez
  have h2 : (ez.countP (fun x => decide (b < x)) : K) ≤ outside a b ez := by exact_mod_cast outside_gt a b ez
  obtain ⟨u, hu⟩ := quantile_exists (p := (3 / 4 : K)) (by norm_num) (by norm_num) hne
  obtain ⟨v, hv⟩ := quantile_exists (p := (1 / 4 : K)) (by norm_num) (by norm_num) hne
  have hub := quantile_le (b := b) hu (by linarith)
  have hva := quantile_ge (a := a) hv (by linarith)
  have hs : sigmaIqrOf ez = .ok ((u - v) / (1349 / 1000)) := by simp only [sigmaIqrOf, hu, hv, Bind.bind, Except.bind]
  exact ⟨_, hs, (C72_nonneg ez).1 _ hs, div_le_div_of_nonneg_right (by linarith) (by norm_num)⟩

/-- **C132: sigma-IQR.** As long as at most a quarter of the objects (of all but one) have a residual outside `[a, b]`, whatever these residuals are, sigma-IQR is at most
`(b - a) / 1.349`. -/
theorem C132_iqr [FloorRing K] {est ref : List K} (ho : Objects est ref) (a b : K) (hne : est ≠ []) (hc : 4 * (outside a b (residuals est ref) : K) ≤ (est.length : K) - 1) :
    ∃ s, sigmaIqr est ref = .ok s ∧ 0 ≤ s ∧ s ≤ (b - a) / (1349 / 1000) := by
  have hlen : (residuals est ref).length = est.length := by simp [residuals, ho.size]
  have hne' : residuals est ref ≠ [] := by
    intro h0
    rw [h0] at hlen
    exact hne (List.length_eq_zero_iff.1 (by simpa using hlen.symm))
  obtain ⟨s, h1, h2, h3⟩ := iqr_of hne' a b (by rw [hlen]; exact hc)
  exact ⟨s, by rw [sigmaIqr, ez_eq ho]; exact h1, h2, h3⟩

/-- **C132: the outlier rate finds the outliers.** If the residuals of all but at most a quarter of the objects are within `±t`, `t ≤ 0.06`, and those of the others are larger
than 0.06 and `6 t / 1.349`, the rate is exactly the fraction of the others. -/
theorem C132_outlier_rate [FloorRing K] {est ref : List K} (ho : Objects est ref) (t : K) (ht : t ≤ 6 / 100) (hne : est ≠ [])
    (hc : 4 * (outside (-t) t (residuals est ref) : K) ≤ (est.length : K) - 1)
    (hbad : ∀ e ∈ residuals est ref, t < |e| → 6 / 100 < |e| ∧ 6 * t / (1349 / 1000) < |e|) :
    pointOutlier est ref = .ok ((outside (-t) t (residuals est ref) : K) / (est.length : K)) := by
  have hlen : (residuals est ref).length = est.length := by simp [residuals, ho.size]
  have hne' : residuals est ref ≠ [] := by
    intro h0
    rw [h0] at hlen
    exact hne (List.length_eq_zero_iff.1 (by simpa using hlen.symm))
  obtain ⟨s, h1, h2, h3⟩ := iqr_of hne' (-t) t (by rw [hlen]; exact hc)
  have hcut : 3 * s ≤ 6 * t / (1349 / 1000) := by
    have : 3 * ((t - -t) / (1349 / 1000 : K)) = 6 * t / (1349 / 1000) := by ring
    linarith
  rw [pointOutlier, ez_eq ho]
  show pointOutlierOf (residuals est ref) = _
  unfold pointOutlierOf
  rw [h1]
  simp only [Bind.bind, Except.bind]
  congr 2
  · congr 1
    unfold outside
    apply List.countP_congr
    intro e he
    simp only [decide_eq_true_eq, max_lt_iff]
    have habs : (e < -t ∨ t < e) ↔ t < |e| := by
      rw [lt_abs]
      constructor
      · rintro (h | h)
        · exact Or.inr (by linarith)
        · exact Or.inl h
      · rintro (h | h)
        · exact Or.inr h
        · exact Or.inl (by linarith)
    rw [habs]
    constructor
    · rintro ⟨h, -⟩
      linarith
    · intro h
      obtain ⟨g1, g2⟩ := hbad e he h
      exact ⟨g1, by linarith⟩
  · rw [hlen]

/-- **C132: the limits are sharp.** With half of the objects outside the bias can be anything, and with 2 of 5 outside so can sigma-IQR. -/
theorem C132_sharp (M : ℚ) (hM : 1 ≤ M) : pointBias [0, 2 * M] [0, 0] = .ok (some M) ∧ sigmaIqr [0, 0, 0, 1349 / 1000 * M, 1349 / 1000 * M] [0, 0, 0, 0, 0] = .ok M := by
  have hM0 : (0 : ℚ) < M := lt_of_lt_of_le one_pos hM
  constructor
  · have : Np.sort [(0 : ℚ), 2 * M] = [0, 2 * M] := (eq_sort (List.Perm.refl _) (by simp; linarith)).symm
    simp [pointBias, ezList, Except.map, npMedian, this]
  · have hs : Np.sort [(0 : ℚ), 0, 0, 1349 / 1000 * M, 1349 / 1000 * M] = [0, 0, 0, 1349 / 1000 * M, 1349 / 1000 * M] :=
      (eq_sort (List.Perm.refl _) (by simp; linarith)).symm
    have q3 : npQuantile (3 / 4) [(0 : ℚ), 0, 0, 1349 / 1000 * M, 1349 / 1000 * M] = .ok (1349 / 1000 * M) := by
      have f1 : ⌊(3 / 4 * (5 - 1) : ℚ)⌋ = 3 := by norm_num
      unfold npQuantile
      rw [if_neg (by norm_num), hs]
      simp [f1]
    have q1 : npQuantile (1 / 4) [(0 : ℚ), 0, 0, 1349 / 1000 * M, 1349 / 1000 * M] = .ok 0 := by
      have f2 : ⌊(4⁻¹ * (5 - 1) : ℚ)⌋ = 1 := by norm_num
      unfold npQuantile
      rw [if_neg (by norm_num), hs]
      simp [f2]
    have hz : ezList [(0 : ℚ), 0, 0, 1349 / 1000 * M, 1349 / 1000 * M] [0, 0, 0, 0, 0] = .ok [0, 0, 0, 1349 / 1000 * M, 1349 / 1000 * M] := by simp [ezList]
    rw [sigmaIqr, hz]
    show sigmaIqrOf _ = _
    simp only [sigmaIqrOf, q3, q1, Bind.bind, Except.bind]
    congr 1
    ring

/-! ## examples -/

/-- nine good objects, two bad ones: bias, widths and rate are those of the good ones -/
example : Objects (K := ℚ) [1/100, 0, 1/50, -1/100, 0, 5, 0, 1/100, -100, 0, 1/50] [0, 0, 0, 0, 0, 0, 0, 0, 0, 0, 0] ∧
    outside (K := ℚ) (-1/50) (1/50) (residuals [1/100, 0, 1/50, -1/100, 0, 5, 0, 1/100, -100, 0, 1/50] [0, 0, 0, 0, 0, 0, 0, 0, 0, 0, 0]) = 2 ∧
    pointOutlier (K := ℚ) [1/100, 0, 1/50, -1/100, 0, 5, 0, 1/100, -100, 0, 1/50] [0, 0, 0, 0, 0, 0, 0, 0, 0, 0, 0] = .ok (2 / 11) :=
  ⟨⟨rfl, by decide +kernel⟩, by decide +kernel, by decide +kernel⟩

example := C132_outlier_rate (K := ℚ) (est := [1/100, 0, 1/50, -1/100, 0, 5, 0, 1/100, -100, 0, 1/50]) (ref := [0, 0, 0, 0, 0, 0, 0, 0, 0, 0, 0]) ⟨rfl, by decide +kernel⟩ (1/50) (by norm_num) (by decide)
  (by decide +kernel) (by decide +kernel)

example := C132_median (K := ℚ) (est := [1/100, 0, 7, -3]) (ref := [0, 0, 0, 0]) ⟨rfl, by decide +kernel⟩ 0 7 (by decide +kernel)

end Verif.Props.Robust
