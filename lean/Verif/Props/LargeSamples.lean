import Verif.Lemmas.LargeNumbers
import Verif.Props.PitLaw
import Verif.Props.SampleConvert
import Verif.Props.Rebin
import Verif.Props.Gof
import Mathlib.Probability.Independence.InfinitePi

/-!
# C137: large samples

What the results that depend on random samples approach when the number of samples grows: goodness of fit, the statistics of the PIT and the
conversion to histograms. Random numbers are uniform on the unit interval and, for each PDF, pairwise independent (`Draws`).
-/

set_option linter.unusedSectionVars false
set_option autoImplicit false

namespace Verif.Props.LargeSamples

open Verif Verif.Np Verif.Model Verif.Spec Verif.Lemmas Verif.Props.Metrics Verif.Props.SampleConvert Verif.Props Verif.Props.Convert
open Verif.Props.Hist Verif.Lemmas.Hist Verif.Props.Bins Verif.Props.RealIntegral
open MeasureTheory Filter Set
open scoped Topology

/-- a distribution function without jumps -/
def SmoothCdf (F : ℝ → ℝ) : Prop := IsCdf F ∧ ∀ x, NoJumpAt F x

section
variable {Ω : Type} [MeasurableSpace Ω] {μ : Measure Ω} [IsProbabilityMeasure μ] {ν : Measure ℝ} {X : ℕ → Ω → ℝ}

/-- the Kolmogorov-Smirnov statistic of the first draws approaches the largest distance of the two distribution functions -/
theorem ks_limit (h : Draws μ ν X) (F : ℝ → ℝ) (hF : SmoothCdf F) (D : ℝ) (hD : IsLUB (range fun t => |ν.real (Iic t) - F t|) D) :
    ∀ᵐ ω ∂μ, ∀ d : ℕ → ℝ, (∀ᶠ n in atTop, ksStat F (firstOf X n ω) = .ok (d n)) → Tendsto d atTop (𝓝 D) := by
  filter_upwards [glivenko_cantelli h] with ω hω d hd
  rw [Metric.tendsto_atTop]
  intro ε hε
  obtain ⟨N, hN⟩ := hω (ε / 2) (by positivity)
  obtain ⟨N', hN'⟩ := eventually_atTop.1 hd
  refine ⟨max N N', fun n hn => ?_⟩
  have hlub := C66_largest_partial F hF.1 _ (fun x _ => hF.2 x) (d n) (hN' n (le_trans (le_max_right _ _) hn))
  have hc := hN n (le_trans (le_max_left _ _) hn)
  have hE : ∀ t, ecdf (firstOf X n ω) t = (((firstOf X n ω).countP fun x => decide (x ≤ t) : ℕ) : ℝ) / n := fun t => by simp [ecdf]
  have h1 : d n ≤ D + ε / 2 := by
    refine hlub.2 ?_
    rintro _ ⟨t, rfl⟩
    have := hD.1 ⟨t, rfl⟩
    simp only at this ⊢
    rw [hE]
    calc _ ≤ _ := abs_sub_le _ (ν.real (Iic t)) _
      _ ≤ ε / 2 + D := add_le_add (hc t) this
      _ = _ := add_comm _ _
  have h2 : D ≤ d n + ε / 2 := by
    refine hD.2 ?_
    rintro _ ⟨t, rfl⟩
    have := hlub.1 ⟨t, rfl⟩
    simp only at this ⊢
    rw [hE] at this
    calc _ ≤ _ := abs_sub_le _ ((((firstOf X n ω).countP fun x => decide (x ≤ t) : ℕ) : ℝ) / n) _
      _ ≤ ε / 2 + d n := add_le_add (by rw [abs_sub_comm]; exact hc t) this
      _ = _ := add_comm _ _
  rw [Real.dist_eq, abs_lt]
  constructor <;> linarith

theorem cdf_continuous (ν : Measure ℝ) [IsProbabilityMeasure ν] (hna : ∀ x, ν {x} = 0) : SmoothCdf fun t => ν.real (Iic t) := by
  refine ⟨⟨fun s t h => measureReal_mono (Iic_subset_Iic.2 h), fun t => measureReal_nonneg, fun t => measureReal_le_one⟩, fun x ε hε => ?_⟩
  have hlim : Tendsto (ProbabilityTheory.cdf ν) (𝓝[<] x) (𝓝 (Function.leftLim (ProbabilityTheory.cdf ν) x)) :=
    (ProbabilityTheory.monotone_cdf ν).tendsto_leftLim x
  have he : Function.leftLim (ProbabilityTheory.cdf ν) x = ProbabilityTheory.cdf ν x := by
    have h1 := (ProbabilityTheory.cdf ν).measure_singleton x
    rw [ProbabilityTheory.measure_cdf, hna x] at h1
    have h2 := ENNReal.ofReal_eq_zero.1 h1.symm
    exact le_antisymm ((ProbabilityTheory.monotone_cdf ν).leftLim_le le_rfl) (by linarith)
  rw [he] at hlim
  obtain ⟨y, hy, hyx⟩ := ((hlim.eventually (lt_mem_nhds (show ProbabilityTheory.cdf ν x - ε < ProbabilityTheory.cdf ν x by linarith))).and self_mem_nhdsWithin).exists
  refine ⟨y, hyx, ?_⟩
  simp only [← ProbabilityTheory.cdf_eq_real]
  linarith

/-- the Cramér-von Mises statistic, per draw, is as close to the mean square difference of the two distribution functions as the draws are to
their distribution -/
theorem cvm_near (F G : ℝ → ℝ) (hF : IsCdf F) (hG : IsCdf G) (data : List ℝ) (w d : ℝ) (hw : cvmStat F data = .ok w) (hd : ksStat G data = .ok d) :
    |w / data.length - (data.map fun x => (G x - F x) ^ 2).sum / data.length| ≤ 1 / (12 * (data.length : ℝ) ^ 2) + 2 * d := by
  have hne : data.length ≠ 0 := by
    intro h0; unfold cvmStat at hw; simp [h0] at hw
  have hn : (0 : ℝ) < data.length := by exact_mod_cast Nat.pos_of_ne_zero hne
  obtain ⟨-, hall⟩ := ks_ok hd
  unfold cvmStat at hw
  simp only [hne, if_false, Except.ok.injEq] at hw
  have hsum : (data.map fun x => (G x - F x) ^ 2).sum = ∑ i ∈ Finset.range data.length, (G ((Np.sort data).getD i 0) - F ((Np.sort data).getD i 0)) ^ 2 := by
    rw [← ((sort_perm data).map fun x => (G x - F x) ^ 2).sum_eq, ← list_sum_range]
    congr 1
    apply List.ext_getElem
    · simp
    · intro i h1 h2
      simp at h1
      simp [h1]
  have hw' : w = 1 / (12 * (data.length : ℝ)) + ∑ i ∈ Finset.range data.length,
      ((2 * ((i : ℝ) + 1) - 1) / (2 * (data.length : ℝ)) - F ((Np.sort data).getD i 0)) ^ 2 := by
    rw [← hw, ← list_sum_range]
    congr 1
    show List.sum _ = _
    congr 1
    apply List.ext_getElem
    · simp
    · intro i h1 h2
      simp at h1
      simp [h1]
  have hterm : ∀ i ∈ Finset.range data.length, |((2 * ((i : ℝ) + 1) - 1) / (2 * (data.length : ℝ)) - F ((Np.sort data).getD i 0)) ^ 2 -
      (G ((Np.sort data).getD i 0) - F ((Np.sort data).getD i 0)) ^ 2| ≤ 2 * d := by
    intro i hi
    rw [Finset.mem_range] at hi
    set x := (Np.sort data).getD i 0 with hx
    have hget : (Np.sort data)[i]? = some x := by rw [hx]; simp [hi]
    obtain ⟨h1, h2⟩ := hall i x hget
    set u := (2 * ((i : ℝ) + 1) - 1) / (2 * (data.length : ℝ)) with hu
    have hiN : (i : ℝ) + 1 ≤ data.length := by exact_mod_cast hi
    have hu0 : 0 ≤ u := by rw [hu]; apply div_nonneg <;> [have := Nat.cast_nonneg (α := ℝ) i; skip] <;> linarith
    have hu1 : u ≤ 1 := by rw [hu, div_le_one (by linarith)]; linarith
    have hue : u = (((i : ℝ) + 1) / data.length + (i : ℝ) / data.length) / 2 := by rw [hu]; field_simp; ring
    have hd1 : (i : ℝ) / data.length ≤ ((i : ℝ) + 1) / data.length := by gcongr; linarith
    have hug : |u - G x| ≤ d := by rw [abs_le]; constructor <;> linarith
    have hs : |u - F x + (G x - F x)| ≤ 2 := by
      rw [abs_le]; constructor <;> linarith [hF.nonneg x, hF.le_one x, hG.nonneg x, hG.le_one x]
    rw [show (u - F x) ^ 2 - (G x - F x) ^ 2 = (u - G x) * (u - F x + (G x - F x)) by ring, abs_mul]
    calc _ ≤ d * 2 := mul_le_mul hug hs (abs_nonneg _) ((abs_nonneg _).trans hug)
      _ = _ := by ring
  rw [hw', hsum, ← sub_div, add_sub_assoc, ← Finset.sum_sub_distrib, add_div]
  refine (abs_add_le _ _).trans (add_le_add ?_ ?_)
  · rw [abs_of_nonneg (by positivity)]; apply le_of_eq; field_simp
  · rw [abs_div, abs_of_pos hn, div_le_iff₀ hn]
    calc _ ≤ _ := Finset.abs_sum_le_sum_abs _ _
      _ ≤ ∑ i ∈ Finset.range data.length, 2 * d := Finset.sum_le_sum hterm
      _ = _ := by simp; ring

theorem lub_self (G : ℝ → ℝ) : IsLUB (range fun t => |G t - G t|) 0 := by
  simp only [sub_self, abs_zero]
  refine ⟨?_, ?_⟩
  · rintro _ ⟨t, rfl⟩; exact le_rfl
  · intro b hb; exact hb ⟨0, rfl⟩

/-- the Cramér-von Mises statistic divided by the number of draws approaches the mean square difference -/
theorem cvm_limit (h : Draws μ ν X) (hna : ∀ x, ν {x} = 0) (F : ℝ → ℝ) (hF : IsCdf F) :
    ∀ᵐ ω ∂μ, ∀ w : ℕ → ℝ, (∀ᶠ n in atTop, cvmStat F (firstOf X n ω) = .ok (w n)) →
      Tendsto (fun n => w n / n) atTop (𝓝 (∫ x, (ν.real (Iic x) - F x) ^ 2 ∂ν)) := by
  have hν := h.prob
  have hG := cdf_continuous ν hna
  have hgm : Measurable fun x => (ν.real (Iic x) - F x) ^ 2 := by
    have h1 : Measurable fun x => ν.real (Iic x) := Monotone.measurable fun s t hst => hG.1.mono s t hst
    have h2 : Measurable F := Monotone.measurable fun s t hst => hF.mono s t hst
    exact (h1.sub h2).pow_const 2
  have hb : ∀ x, |(ν.real (Iic x) - F x) ^ 2| ≤ 1 := by
    intro x
    have : 0 ≤ ν.real (Iic x) := hG.1.nonneg x; have : ν.real (Iic x) ≤ 1 := hG.1.le_one x; have := hF.nonneg x; have := hF.le_one x
    rw [abs_of_nonneg (sq_nonneg _), sq_le_one_iff_abs_le_one, abs_le]
    constructor <;> linarith
  filter_upwards [ks_limit h _ hG 0 (lub_self _), average h _ hgm 1 hb] with ω h1 h2 w hw
  have hex : ∀ n : ℕ, ∃ d, 1 ≤ n → ksStat (fun t => ν.real (Iic t)) (firstOf X n ω) = .ok d := by
    intro n
    by_cases hn : 1 ≤ n
    · obtain ⟨d, hd⟩ := (C66_exists (fun t => ν.real (Iic t)) (firstOf X n ω)).1
        (by intro h0; have := congrArg List.length h0; simp at this; omega)
      exact ⟨d, fun _ => hd⟩
    · exact ⟨0, fun h => absurd h hn⟩
  choose d hd using hex
  have hd0 := h1 d (eventually_atTop.2 ⟨1, hd⟩)
  have hbound : Tendsto (fun n : ℕ => 1 / (12 * (n : ℝ) ^ 2) + 2 * d n) atTop (𝓝 0) := by
    have ha : Tendsto (fun n : ℕ => 1 / (12 * (n : ℝ) ^ 2)) atTop (𝓝 0) := by
      refine Tendsto.div_atTop tendsto_const_nhds ?_
      exact Tendsto.const_mul_atTop (by norm_num) ((tendsto_pow_atTop two_ne_zero).comp tendsto_natCast_atTop_atTop)
    simpa using ha.add (hd0.const_mul 2)
  have hdiff : Tendsto (fun n : ℕ => w n / n - ((firstOf X n ω).map fun x => (ν.real (Iic x) - F x) ^ 2).sum / n) atTop (𝓝 0) := by
    refine squeeze_zero_norm' ?_ hbound
    filter_upwards [hw, eventually_ge_atTop 1] with n hwn hn
    have := cvm_near F _ hF hG.1 (firstOf X n ω) (w n) (d n) hwn (hd n hn)
    simpa using this
  have := hdiff.add h2
  simpa using this

end

/-! ## goodness of fit -/

/-- `calculate_goodness_of_fit(estimate, reference, name, num_samples=m)` with the random numbers `U` -/
noncomputable def gofOf (f f' ppf : ℕ → ℝ → ℝ) (shape : List ℕ) (refs : List (RefPdf ℝ)) (name : String) (m : ℕ) (U : ℕ → ℕ → ℝ) : Except Err (List ℝ) := do
  let s ← ensRvs (dispatch f f' ppf) shape (some m) U
  goodnessOfFit s m refs name

section
variable {Ω : Type} [MeasurableSpace Ω] {μ : Measure Ω} [IsProbabilityMeasure μ]

theorem gof_rows (f f' ppf : ℕ → ℝ → ℝ) (shape : List ℕ) (hs : OneIndex shape) (refs : List (RefPdf ℝ)) (hsize : refs.length = shape.prod ∨ refs.length = 1)
    (name : String) (stat : RefPdf ℝ → List ℝ → Except Err ℝ) (hstat : gofStat name = some stat) (m : ℕ) (hm : 2 ≤ m) (U : ℕ → ℕ → ℝ) :
    ∃ r, gofOf f f' ppf shape refs name m U = .ok r ∧ r.length = shape.prod ∧ ∀ (i : ℕ) R, i < shape.prod →
      refs[if refs.length = 1 then 0 else i]? = some R → ∃ v, r[i]? = some v ∧ stat R (samplesOf ppf U m i) = .ok v := by
  obtain ⟨r, h1, h2, h3⟩ := C74_own_partial ((List.range shape.prod).map (samplesOf ppf U m)) m refs name stat hm
    (by intro r hr; obtain ⟨i, -, rfl⟩ := List.mem_map.1 hr; simp [samplesOf]) hstat (by simpa [eq_comm] using hsize)
    (by simp; exact Nat.one_le_iff_ne_zero.2 hs.2)
  refine ⟨r, ?_, by simpa using h2, fun i R hi hR => h3 i _ R (by simp [hi]) hR⟩
  unfold gofOf
  rw [rvs_ok f f' ppf shape hs]
  exact h1

/-- **C137, Kolmogorov-Smirnov**: the value for PDF `i` approaches the largest distance between its distribution function and that of its reference.
`ppf i` is the PPF of the estimate, `ν i` the distribution it makes of uniform random numbers. -/
theorem C137_ks (f f' ppf : ℕ → ℝ → ℝ) (shape : List ℕ) (hs : OneIndex shape) (refs : List (RefPdf ℝ)) (hsize : refs.length = shape.prod ∨ refs.length = 1)
    (hF : ∀ R ∈ refs, SmoothCdf R.cdf) (ν : ℕ → Measure ℝ) (hν : ∀ i, IsProbabilityMeasure (ν i)) (hlaw : ∀ i, unif.map (ppf i) = ν i)
    (U : ℕ → ℕ → Ω → ℝ) (hU : ∀ i, Draws μ unif (U i)) (i : ℕ) (hi : i < shape.prod) (R : RefPdf ℝ)
    (hR : refs[if refs.length = 1 then 0 else i]? = some R) (D : ℝ) (hD : IsLUB (range fun t => |(ν i).real (Iic t) - R.cdf t|) D) :
    ∀ᵐ ω ∂μ, ∃ r : ℕ → List ℝ, (∀ m, 2 ≤ m → gofOf f f' ppf shape refs "ks" m (fun i j => U i j ω) = .ok (r m) ∧ (r m).length = shape.prod) ∧
      Tendsto (fun m => (r m).getD i 0) atTop (𝓝 D) := by
  have hdr : Draws μ (ν i) fun j ω => ppf i (U i j ω) := (hU i).comp (hν i) (ppf i) (hlaw i)
  filter_upwards [ks_limit hdr R.cdf (hF R (List.mem_of_getElem? hR)) D hD] with ω hω
  have hex : ∀ m : ℕ, ∃ r, 2 ≤ m → gofOf f f' ppf shape refs "ks" m (fun i j => U i j ω) = .ok r ∧ r.length = shape.prod ∧
      ksStat R.cdf (firstOf (fun j ω => ppf i (U i j ω)) m ω) = .ok (r.getD i 0) := by
    intro m
    by_cases hm : 2 ≤ m
    · obtain ⟨r, h1, h2, h3⟩ := gof_rows f f' ppf shape hs refs hsize "ks" (fun R data => ksStat R.cdf data) rfl m hm fun i j => U i j ω
      obtain ⟨v, hv, hv'⟩ := h3 i R hi hR
      refine ⟨r, fun _ => ⟨h1, h2, ?_⟩⟩
      rw [List.getD_eq_getElem?_getD, hv]
      exact hv'
    · exact ⟨[], fun h => absurd h hm⟩
  choose r hr using hex
  refine ⟨r, fun m hm => ⟨(hr m hm).1, (hr m hm).2.1⟩, hω _ (eventually_atTop.2 ⟨2, fun m hm => (hr m hm).2.2⟩)⟩

/-- **C137, Cramér-von Mises**: the value for PDF `i` divided by the number of samples approaches the mean square difference of the two distribution
functions over the estimate, for estimates without point masses. -/
theorem C137_cvm (f f' ppf : ℕ → ℝ → ℝ) (shape : List ℕ) (hs : OneIndex shape) (refs : List (RefPdf ℝ)) (hsize : refs.length = shape.prod ∨ refs.length = 1)
    (hF : ∀ R ∈ refs, IsCdf R.cdf) (ν : ℕ → Measure ℝ) (hν : ∀ i, IsProbabilityMeasure (ν i)) (hlaw : ∀ i, unif.map (ppf i) = ν i)
    (hna : ∀ i x, ν i {x} = 0) (U : ℕ → ℕ → Ω → ℝ) (hU : ∀ i, Draws μ unif (U i)) (i : ℕ) (hi : i < shape.prod) (R : RefPdf ℝ)
    (hR : refs[if refs.length = 1 then 0 else i]? = some R) :
    ∀ᵐ ω ∂μ, ∃ r : ℕ → List ℝ, (∀ m, 2 ≤ m → gofOf f f' ppf shape refs "cvm" m (fun i j => U i j ω) = .ok (r m) ∧ (r m).length = shape.prod) ∧
      Tendsto (fun m => (r m).getD i 0 / m) atTop (𝓝 (∫ x, ((ν i).real (Iic x) - R.cdf x) ^ 2 ∂(ν i))) := by
  have hdr : Draws μ (ν i) fun j ω => ppf i (U i j ω) := (hU i).comp (hν i) (ppf i) (hlaw i)
  filter_upwards [cvm_limit hdr (hna i) R.cdf (hF R (List.mem_of_getElem? hR))] with ω hω
  have hex : ∀ m : ℕ, ∃ r, 2 ≤ m → gofOf f f' ppf shape refs "cvm" m (fun i j => U i j ω) = .ok r ∧ r.length = shape.prod ∧
      cvmStat R.cdf (firstOf (fun j ω => ppf i (U i j ω)) m ω) = .ok (r.getD i 0) := by
    intro m
    by_cases hm : 2 ≤ m
    · obtain ⟨r, h1, h2, h3⟩ := gof_rows f f' ppf shape hs refs hsize "cvm" (fun R data => cvmStat R.cdf data) rfl m hm fun i j => U i j ω
      obtain ⟨v, hv, hv'⟩ := h3 i R hi hR
      refine ⟨r, fun _ => ⟨h1, h2, ?_⟩⟩
      rw [List.getD_eq_getElem?_getD, hv]
      exact hv'
    · exact ⟨[], fun h => absurd h hm⟩
  choose r hr using hex
  refine ⟨r, fun m hm => ⟨(hr m hm).1, (hr m hm).2.1⟩, hω _ (eventually_atTop.2 ⟨2, fun m hm => (hr m hm).2.2⟩)⟩

/-- An ensemble of histograms compared with itself: both values tend to zero. -/
theorem C137_self (N : ℕ) (hN : 0 < N) (edges : List ℝ) (hu : Uniform edges ∨ DetectablyNonUniform edges) (p : ℕ → List ℝ)
    (hg : ∀ i, Grid edges (p i).length) (h1 : ∀ i, totalMass edges (p i) = 1) (hp : ∀ i, ∀ v ∈ p i, 0 ≤ v) (g : ℕ → ℝ → ℝ)
    (hpdf : ∀ i x, histPdf edges (p i) x = .ok (g i x)) (F : ℕ → ℝ → ℝ) (hcdf : ∀ i x, histCdf edges (p i) x = some (F i x)) (Q : ℕ → ℝ → ℝ)
    (hQ : ∀ i u, 0 ≤ u → u ≤ 1 → histPpf edges (p i) u = some (Q i u)) (f f' : ℕ → ℝ → ℝ) (lc ls : ℕ → ℝ → ℝ)
    (U : ℕ → ℕ → Ω → ℝ) (hU : ∀ i, Draws μ unif (U i)) (i : ℕ) (hi : i < N) :
    ∀ᵐ ω ∂μ, ∃ r r' : ℕ → List ℝ,
      (∀ m, 2 ≤ m → gofOf f f' Q [N] ((List.range N).map fun i => ⟨F i, lc i, ls i⟩) "ks" m (fun i j => U i j ω) = .ok (r m)) ∧
      (∀ m, 2 ≤ m → gofOf f f' Q [N] ((List.range N).map fun i => ⟨F i, lc i, ls i⟩) "cvm" m (fun i j => U i j ω) = .ok (r' m)) ∧
      Tendsto (fun m => (r m).getD i 0) atTop (𝓝 0) ∧ Tendsto (fun m => (r' m).getD i 0 / m) atTop (𝓝 0) := by
  have hleb := fun i => C08_lebesgue edges (p i) (hg i) hu (h1 i) (g i) (hpdf i)
  have hpos := fun i => Sampling.hist_pdf_nonneg edges (p i) (hp i) (g i) (hpdf i)
  have hprob : ∀ i, IsProbabilityMeasure (lawOf (g i)) := fun i => lawOf_prob (hpos i) (hleb i).1 (hleb i).2.1
  have hlaw : ∀ i, unif.map (Q i) = lawOf (g i) := fun i => Sampling.C97_hist_law edges (p i) (hg i) hu (h1 i) (hp i) (g i) (hpdf i) (Q i) (hQ i)
  have hFr : ∀ i x, (lawOf (g i)).real (Iic x) = F i x := by
    intro i x
    have h2 := (hleb i).2.2 x
    rw [hcdf i x] at h2
    rw [measureReal_def, lawOf_Iic (hpos i) (hleb i).1, ENNReal.toReal_ofReal (integral_nonneg fun t => hpos i t), Option.some.inj h2]
  have hna : ∀ i x, lawOf (g i) {x} = 0 := fun i x => by
    have : lawOf (g i) ≪ volume := withDensity_absolutelyContinuous _ _
    exact this (Real.volume_singleton)
  have hone : OneIndex [N] := by
    refine ⟨?_, by simp; omega⟩
    unfold squeezeLeft
    split
    · rename_i h; cases h; simp [squeezeLeft]
    · simp
  have hF : ∀ R ∈ ((List.range N).map fun i => (⟨F i, lc i, ls i⟩ : RefPdf ℝ)), SmoothCdf R.cdf := by
    intro R hR
    obtain ⟨k, -, rfl⟩ := List.mem_map.1 hR
    have := cdf_continuous (lawOf (g k)) (hna k)
    simpa only [hFr] using this
  obtain ⟨R, hR, hRi⟩ : ∃ R, ((List.range N).map fun i => (⟨F i, lc i, ls i⟩ : RefPdf ℝ))[if ((List.range N).map fun i => (⟨F i, lc i, ls i⟩ : RefPdf ℝ)).length = 1 then 0 else i]? = some R ∧
      R.cdf = F i := by
    by_cases hN1 : N = 1
    · subst hN1
      have : i = 0 := by omega
      subst this
      exact ⟨_, by simp; rfl, rfl⟩
    · exact ⟨_, by simp [hN1, hi]; rfl, rfl⟩
  have hks := C137_ks (μ := μ) f f' Q [N] hone _ (Or.inl (by simp)) hF _ hprob hlaw U hU i (by simpa using hi) R hR 0
    (by simp only [hFr, hRi]; exact lub_self _)
  have hcvm := C137_cvm (μ := μ) f f' Q [N] hone _ (Or.inl (by simp)) (fun R h => (hF R h).1) _ hprob hlaw hna U hU i (by simpa using hi) R hR
  filter_upwards [hks, hcvm] with ω ⟨r, a, b⟩ ⟨r', a', b'⟩
  refine ⟨r, r', fun m hm => (a m hm).1, fun m hm => (a' m hm).1, b, ?_⟩
  simpa [hFr, hRi] using b'

/-! ## histograms from samples -/

theorem inBin_meas (bins : List ℝ) (k : ℕ) : MeasurableSet {s | InBin bins k s} := by
  cases h1 : bins[k]? with
  | none => simp [InBin, h1]
  | some lo =>
    cases h2 : bins[k + 1]? with
    | none => simp [InBin, h2]
    | some hi =>
      by_cases hl : k + 2 = bins.length
      · have : {s | InBin bins k s} = {s | lo ≤ s ∧ (s < hi ∨ s = hi)} := by ext s; simp [InBin, h1, h2, hl]
        rw [this]
        exact measurableSet_Ici.inter (measurableSet_Iio.union (measurableSet_singleton hi))
      · have : {s | InBin bins k s} = Ico lo hi := by ext s; simp [InBin, h1, h2, hl]
        rw [this]; exact measurableSet_Ico

/-- the probability of a bin, when no edge has a probability of its own -/
theorem inBin_prob (ν : Measure ℝ) [IsProbabilityMeasure ν] (bins : List ℝ) (hb : bins.Pairwise (· < ·)) (hat : ∀ e ∈ bins, ν {e} = 0) (k : ℕ) (lo hi : ℝ)
    (h1 : bins[k]? = some lo) (h2 : bins[k + 1]? = some hi) : ν.real {s | InBin bins k s} = ν.real (Iic hi) - ν.real (Iic lo) := by
  have hlt : lo < hi := by
    obtain ⟨a, rfl⟩ := List.getElem?_eq_some_iff.1 h1
    obtain ⟨b, rfl⟩ := List.getElem?_eq_some_iff.1 h2
    exact List.pairwise_iff_getElem.1 hb k (k + 1) a b (by omega)
  have hlo := hat lo (List.mem_of_getElem? h1)
  have hhi := hat hi (List.mem_of_getElem? h2)
  have hae : ({s | InBin bins k s} : Set ℝ) =ᵐ[ν] Ioc lo hi := by
    have hsub : ∀ᵐ s ∂ν, s ≠ lo ∧ s ≠ hi := by
      rw [ae_iff]
      refine measure_mono_null (t := {lo} ∪ {hi}) (fun s hs => ?_) (measure_union_null hlo hhi)
      simp only [mem_ofPred_eq, not_and_or, not_not] at hs
      simpa [or_comm] using hs
    filter_upwards [hsub] with s hs
    apply propext
    show InBin bins k s ↔ lo < s ∧ s ≤ hi
    constructor
    · rintro ⟨a, b, ha, hb', h3, h4⟩
      rw [h1] at ha; rw [h2] at hb'
      cases ha; cases hb'
      refine ⟨lt_of_le_of_ne h3 (Ne.symm hs.1), ?_⟩
      rcases h4 with h4 | h4
      · exact h4.le
      · exact h4.2.le
    · rintro ⟨h3, h4⟩
      exact ⟨lo, hi, h1, h2, h3.le, Or.inl (lt_of_le_of_ne h4 hs.2)⟩
  rw [measureReal_congr hae, ← Iic_sdiff_Iic, measureReal_sdiff (Iic_subset_Iic.2 hlt.le) measurableSet_Iic]

theorem histSum_limit (bins : List ℝ) (c : ℕ → List ℝ) (q : List ℝ) (hl : ∀ n, (c n).length = q.length)
    (h : ∀ (k : ℕ) v, q[k]? = some v → Tendsto (fun n => (c n).getD k 0) atTop (𝓝 v)) : Tendsto (fun n => totalMass bins (c n)) atTop (𝓝 (totalMass bins q)) := by
  induction q generalizing bins c with
  | nil =>
    have : ∀ n, c n = [] := fun n => List.length_eq_zero_iff.1 (hl n)
    simp [this]
  | cons v q ih =>
    have hc : ∀ n, c n = (c n).getD 0 0 :: (c n).tail := by
      intro n
      cases hcn : c n with
      | nil => have := hl n; rw [hcn] at this; simp at this
      | cons a t => simp
    have ht : ∀ b : List ℝ, Tendsto (fun n => totalMass b (c n).tail) atTop (𝓝 (totalMass b q)) := fun b =>
      ih b (fun n => (c n).tail) (fun n => by simp [hl n]) fun k w hk => by
        have := h (k + 1) w (by simpa using hk)
        refine this.congr fun n => ?_
        conv_lhs => rw [hc n]
        rw [List.getD_cons_succ]
    match bins with
    | [] => simp [totalMass]
    | [a] => simp [totalMass]
    | a :: b :: e =>
      have e1 : ∀ n, totalMass (a :: b :: e) (c n) = (c n).getD 0 0 * (b - a) + totalMass (b :: e) (c n).tail := by
        intro n
        conv_lhs => rw [hc n]
        rfl
      simp only [e1, totalMass]
      exact ((h 0 v (by simp)).mul_const _).add (ht _)

open Classical in
/-- **C137, histograms**: the heights of every PDF made from samples approach those of the conversion that uses the distribution function (`converted`,
see C57), in bins of any widths, for every PDF that has probability inside the bins and none concentrated on an edge. Missing: as many PDFs as bins, where the samples are
refused unless there are as many of them as bins (C59). -/
theorem C137_hist_partial (f f' ppf : ℕ → ℝ → ℝ) (shape : List ℕ) (hs : OneIndex shape) (ν : ℕ → Measure ℝ) (hν : ∀ i, IsProbabilityMeasure (ν i))
    (hlaw : ∀ i, unif.map (ppf i) = ν i) (bins : List ℝ) (hb : bins.Pairwise (· < ·)) (hsize : shape.prod ≠ bins.length - 1)
    (hat : ∀ i, ∀ e ∈ bins, ν i {e} = 0) (a z : ℝ) (ha : bins.head? = some a) (hz : bins.getLast? = some z)
    (U : ℕ → ℕ → Ω → ℝ) (hU : ∀ i, Draws μ unif (U i)) (i : ℕ) (hi : i < shape.prod) (hin : (ν i).real (Iic a) < (ν i).real (Iic z)) :
    ∃ q, converted bins (fun t => (ν i).real (Iic t)) = some q ∧
    ∀ᵐ ω ∂μ, ∃ rows : ℕ → List (Option (List ℝ)),
      (∀ n, histFromSamples (dispatch f f' ppf) shape (fun i j => U i j ω) (some bins) (some n) = .ok (rows n)) ∧
      ∃ h : ℕ → List ℝ, (∀ᶠ n in atTop, (rows n)[i]? = some (some (h n))) ∧
        ∀ (k : ℕ) v, q[k]? = some v → Tendsto (fun n => (h n).getD k 0) atTop (𝓝 v) := by
  have hne : bins ≠ [] := by rintro rfl; simp at ha
  set F : ℝ → ℝ := fun t => (ν i).real (Iic t) with hFdef
  have hFm : Monotone F := fun s t h => measureReal_mono (Iic_subset_Iic.2 h)
  obtain ⟨q, hq⟩ := Rebin.converted_some bins F hb hFm a z ha hz hin
  refine ⟨q, hq, ?_⟩
  have hdr : Draws μ (ν i) fun j ω => ppf i (U i j ω) := (hU i).comp (hν i) (ppf i) (hlaw i)
  have hfreq : ∀ᵐ ω ∂μ, ∀ k : ℕ, Tendsto (fun n : ℕ => (((firstOf (fun j ω => ppf i (U i j ω)) n ω).countP fun x => decide (InBin bins k x) : ℕ) : ℝ) / n) atTop
      (𝓝 ((ν i).real {x | InBin bins k x})) := by
    rw [ae_all_iff]; intro k
    exact frequency hdr (fun x => InBin bins k x) (inBin_meas bins k)
  filter_upwards [hfreq] with ω hω
  have hex := fun n : ℕ => C98_hist_partial f f' ppf shape hs (fun i j => U i j ω) bins hne (hb.imp le_of_lt) (some n) (fun h => absurd h hsize)
  choose rows h1 h2 h3 using hex
  have hcs := fun n : ℕ => h3 n i hi
  choose cs hc1 hc2 hc3 using hcs
  refine ⟨rows, h1, ?_⟩
  have hlen : (Np.diff (bins.map F)).length = bins.length - 1 := by rw [Np.length_diff, List.length_map]
  -- the frequencies
  let fr : ℕ → List ℝ := fun n => (cs n).map fun (c : ℕ) => (c : ℝ) / n
  have hfl : ∀ n, (fr n).length = (Np.diff (bins.map F)).length := fun n => by simp [fr, hc1, hlen]
  have hlim : ∀ (k : ℕ) v, (Np.diff (bins.map F))[k]? = some v → Tendsto (fun n => (fr n).getD k 0) atTop (𝓝 v) := by
    intro k v hv
    have hk : k < bins.length - 1 := by rw [← hlen]; exact (List.getElem?_eq_some_iff.1 hv).1
    have e1 : bins[k]? = some (bins[k]'(by omega)) := List.getElem?_eq_getElem _
    have e2 : bins[k + 1]? = some (bins[k + 1]'(by omega)) := List.getElem?_eq_getElem _
    have hp := inBin_prob (ν i) bins hb (hat i) k _ _ e1 e2
    have hv' : v = F (bins[k + 1]'(by omega)) - F (bins[k]'(by omega)) := by
      obtain ⟨u, w, hu, hw, rfl⟩ := (diff_getElem? _ k v).1 hv
      rw [List.getElem?_map, e1] at hu
      rw [List.getElem?_map, e2] at hw
      cases hu; cases hw; rfl
    rw [hv', ← hp]
    refine (hω k).congr fun n => ?_
    have hkc : k < (cs n).length := by rw [hc1]; exact hk
    have := hc2 n k _ (List.getElem?_eq_getElem hkc)
    simp only [fr, List.getD_eq_getElem?_getD, List.getElem?_map, List.getElem?_eq_getElem hkc, Option.map_some, Option.getD_some]
    rw [this]
    rfl
  have hmass := histSum_limit bins fr _ hfl hlim
  have h0 : totalMass bins (Np.diff (bins.map F)) ≠ 0 := by
    intro h0
    rw [show converted bins F = none from (C07_row_normalised bins _).1 h0] at hq
    cases hq
  have hqe : q = (Np.diff (bins.map F)).map (· / totalMass bins (Np.diff (bins.map F))) := by
    unfold converted histNormRow at hq
    rw [histSum_eq, if_neg h0] at hq
    exact (Option.some.inj hq).symm
  refine ⟨fun n => (fr n).map (· / totalMass bins (fr n)), ?_, ?_⟩
  · filter_upwards [hmass.eventually_ne h0, eventually_ge_atTop 1] with n hn hn1
    rw [hc3]
    congr 1
    have hn0 : (n : ℝ)⁻¹ ≠ 0 := inv_ne_zero (by exact_mod_cast (by omega : n ≠ 0))
    rw [← C07_scale_invariant bins _ _ hn0]
    have : List.map (fun x => (n : ℝ)⁻¹ * x) (List.map (fun (c : ℕ) => (c : ℝ)) (cs n)) = fr n := by
      simp only [fr, List.map_map]
      apply List.map_congr_left
      intro c _
      simp only [Function.comp]
      rw [div_eq_inv_mul]
    rw [this]
    unfold histNormRow
    rw [histSum_eq, if_neg hn]
  · intro k v hv
    rw [hqe, List.getElem?_map, Option.map_eq_some_iff] at hv
    obtain ⟨w, hw, rfl⟩ := hv
    refine ((hlim k w hw).div hmass h0).congr fun n => ?_
    have hk : k < (fr n).length := by rw [hfl]; exact (List.getElem?_eq_some_iff.1 hw).1
    simp [List.getD_eq_getElem?_getD, hk]

/-! ## the PIT of a catalogue -/

theorem pit_quantile_near (samps : List ℝ) (h01 : ∀ s ∈ samps, 0 ≤ s ∧ s ≤ 1) (d : ℝ) (hd : pitKs samps = .ok d) (p q : ℝ) (hq : npQuantile p samps = .ok q) :
    |q - p| ≤ d + 1 / samps.length := by
  obtain ⟨-, hall⟩ := ks_ok hd
  obtain ⟨hp0, hp1, i, a, b, hia, hib, hi1, hi2, rfl⟩ := quantile_ok hq
  have hin : i < samps.length := by have := (List.getElem?_eq_some_iff.1 hia).1; simpa using this
  have hn : (0 : ℝ) < samps.length := by exact_mod_cast (by omega : 0 < samps.length)
  have hun : ∀ (j : ℕ) x, (Np.sort samps)[j]? = some x → uniformCdf x = x := fun j x hx => uniform_id (h01 x (mem_sort.1 (List.mem_of_getElem? hx)))
  obtain ⟨a1, a2⟩ := hall i a hia
  obtain ⟨b1, b2⟩ := hall _ b hib
  rw [hun _ _ hia] at a1 a2
  rw [hun _ _ hib] at b1 b2
  set n : ℝ := (samps.length : ℝ) with hndef
  have hab : a ≤ b := by
    obtain ⟨x1, rfl⟩ := List.getElem?_eq_some_iff.1 hia
    obtain ⟨x2, rfl⟩ := List.getElem?_eq_some_iff.1 hib
    rcases (show i ≤ min (i + 1) (samps.length - 1) by omega).lt_or_eq with hlt | heq
    · exact List.pairwise_iff_getElem.1 (sort_pairwise samps) _ _ x1 x2 hlt
    · simp only [← heq]; exact le_rfl
  have hj : ((min (i + 1) (samps.length - 1) : ℕ) : ℝ) ≤ (i : ℝ) + 1 := by exact_mod_cast min_le_left _ _
  have b3 : b ≤ ((i : ℝ) + 1) / n + d := by
    have : ((min (i + 1) (samps.length - 1) : ℕ) : ℝ) / n ≤ ((i : ℝ) + 1) / n := by gcongr
    linarith
  have e1 : p * (n - 1) / n = p - p / n := by field_simp
  have c1 : (i : ℝ) / n ≤ p - p / n := by rw [← e1]; gcongr
  have c2 : p - p / n ≤ ((i : ℝ) + 1) / n := by rw [← e1]; gcongr
  have e2 : ((i : ℝ) + 1) / n = (i : ℝ) / n + 1 / n := add_div _ _ _
  have c3 : 0 ≤ p / n := by positivity
  have c4 : p / n ≤ 1 / n := by gcongr
  have hmix1 : a ≤ a + (b - a) * (p * (n - 1) - i) := by nlinarith
  have hmix2 : a + (b - a) * (p * (n - 1) - i) ≤ b := by nlinarith
  rw [abs_le]
  constructor <;> linarith

/-- **C137, PIT**: a growing catalogue whose true values are drawn independently from the densities the ensemble has for them (the PDFs may all be different).
A PIT object can be made of the first `n` objects; its KS statistic and its CvM statistic per object tend to zero, and the locations of the distribution it
stores tend to their levels. -/
theorem C137_pit (f : ℕ → ℝ → ℝ) (cdfs : ℕ → ℝ → Option ℝ) (h : ∀ i, Exact (f i) (cdfs i)) (grid : List ℝ) (hg : grid.Pairwise (· < ·))
    (hg01 : ∀ p ∈ grid, 0 ≤ p ∧ p ≤ 1) (Z : ℕ → Ω → ℝ) (hm : ∀ i, AEMeasurable (Z i) μ) (hind : ∀ i j, i ≠ j → ProbabilityTheory.IndepFun (Z i) (Z j) μ)
    (hlaw : ∀ i, μ.map (Z i) = lawOf (f i)) :
    ∀ᵐ ω ∂μ, ∃ (s q l : ℕ → List ℝ) (d w : ℕ → ℝ),
      (∀ n, 2 ≤ n → pitInit ((List.range n).map cdfs) ((List.range n).map fun i => Z i ω) grid = .ok (s n, q n, l n) ∧
        pitKs (s n) = .ok (d n) ∧ pitCvm (s n) = .ok (w n)) ∧
      Tendsto d atTop (𝓝 0) ∧ Tendsto (fun n => w n / n) atTop (𝓝 0) ∧
      ∀ ε > 0, ∃ N, ∀ n ≥ N, ∀ (k : ℕ) p v, (q n)[k]? = some p → (l n)[k]? = some v → |v - p| ≤ ε := by
  have hpu : IsProbabilityMeasure unif := ⟨by simp [unif]⟩
  let X : ℕ → Ω → ℝ := fun i ω => ∫ t in Iic (Z i ω), f i t
  have hX : Draws μ unif X := by
    have hmeas : ∀ i, Measurable fun x => ∫ t in Iic x, f i t := fun i => (primitive_continuous (h i).integrable).measurable
    refine ⟨fun i => (hmeas i).comp_aemeasurable (hm i), fun i j hij => (hind i j hij).comp (hmeas i) (hmeas j), fun i => ?_⟩
    rw [← law_map (h i).nonneg (h i).integrable (h i).one, ← hlaw i]
    exact (AEMeasurable.map_map_of_aemeasurable (hmeas i).aemeasurable (hm i)).symm
  have hcdf : ∀ x, unif.real (Iic x) = uniformCdf x := by
    intro x
    rw [measureReal_def, unif_Iic, ENNReal.toReal_ofReal (le_max_left _ _), uniformCdf, min_comm]
  have hna : ∀ x, unif {x} = 0 := fun x => by
    have : unif ≪ volume := Measure.absolutelyContinuous_of_le Measure.restrict_le_self
    exact this Real.volume_singleton
  filter_upwards [ks_limit hX uniformCdf ⟨uniform_isCdf, uniform_noJump⟩ 0 (by simp only [hcdf]; exact lub_self _),
    cvm_limit hX hna uniformCdf uniform_isCdf] with ω h1 h2
  have hex : ∀ n : ℕ, ∃ (q l : List ℝ) (d w : ℝ), 2 ≤ n → pitInit ((List.range n).map cdfs) ((List.range n).map fun i => Z i ω) grid = .ok (firstOf X n ω, q, l) ∧
      pitKs (firstOf X n ω) = .ok d ∧ pitCvm (firstOf X n ω) = .ok w := by
    intro n
    by_cases hn : 2 ≤ n
    · obtain ⟨⟨o, ho⟩, -⟩ := pit_made hn (fun i : Fin n => cdfs i) grid hg01 fun i => Z i ω
      have e1 : List.ofFn (fun i : Fin n => cdfs i) = (List.range n).map cdfs := by
        apply List.ext_getElem <;> simp
      have e2 : List.ofFn (fun i : Fin n => Z i ω) = (List.range n).map fun i => Z i ω := by
        apply List.ext_getElem <;> simp
      rw [e1, e2] at ho
      obtain ⟨o1, q, l⟩ := o
      obtain ⟨-, hs, -⟩ := pitInit_ok (by simp) ho
      have hs' : o1 = firstOf X n ω := by
        rw [hs]
        apply List.ext_getElem
        · simp
        · intro i a b
          simp [firstOf, X, (h i).cdf]
      subst hs'
      obtain ⟨d, hd⟩ := (C66_exists uniformCdf (firstOf X n ω)).1 (by intro h0; have := congrArg List.length h0; simp at this; omega)
      obtain ⟨w, hw⟩ := (C67_exists uniformCdf (firstOf X n ω)).2 (by intro h0; have := congrArg List.length h0; simp at this; omega)
      exact ⟨q, l, d, w, fun _ => ⟨ho, hd, by unfold pitCvm; rw [if_neg (by simp; omega)]; exact hw⟩⟩
    · exact ⟨[], [], 0, 0, fun h => absurd h hn⟩
  choose q l d w hall using hex
  have hd0 : Tendsto d atTop (𝓝 0) := h1 d (eventually_atTop.2 ⟨2, fun n hn => (hall n hn).2.1⟩)
  refine ⟨fun n => firstOf X n ω, q, l, d, w, hall, hd0, ?_, ?_⟩
  · have := h2 w (eventually_atTop.2 ⟨2, fun n hn => by
      have := (hall n hn).2.2
      unfold pitCvm at this
      rwa [if_neg (by simp; omega)] at this⟩)
    simpa [hcdf] using this
  · intro ε hε
    have hlim : Tendsto (fun n : ℕ => d n + 1 / (n : ℝ)) atTop (𝓝 0) := by
      simpa using hd0.add (tendsto_const_nhds.div_atTop tendsto_natCast_atTop_atTop : Tendsto (fun n : ℕ => (1 : ℝ) / n) atTop (𝓝 0))
    obtain ⟨N, hN⟩ := eventually_atTop.1 (hlim.eventually (gt_mem_nhds hε))
    refine ⟨max N 2, fun n hn k p v hp hv => ?_⟩
    have hn2 : 2 ≤ n := le_trans (le_max_right _ _) hn
    obtain ⟨a, b, c⟩ := hall n hn2
    obtain ⟨-, -, -, -, hlev, -⟩ := C73_distribution_partial _ _ grid _ _ _ (by simp) hg a
    obtain ⟨hq, -⟩ := hlev k p v hp hv
    have h01 : ∀ s ∈ firstOf X n ω, 0 ≤ s ∧ s ≤ 1 := by
      intro s hs
      obtain ⟨i, -, rfl⟩ := List.mem_map.1 hs
      have hmn := primitive_mono (h i).nonneg (h i).integrable
      exact ⟨hmn.le_of_tendsto (primitive_zero (h i).integrable) _, hmn.ge_of_tendsto (primitive_one (h i).integrable (h i).one) _⟩
    have := pit_quantile_near _ h01 (d n) b p v hq
    simp only [firstOf_length] at this
    exact this.trans (hN n (le_trans (le_max_left _ _) hn)).le

end

/-! ## instances -/

theorem unif_prob : IsProbabilityMeasure unif := ⟨by simp [unif]⟩

/-- independent draws, one sequence for every PDF, exist -/
theorem draws_exist : ∃ (μ : Measure (ℕ × ℕ → ℝ)) (_ : IsProbabilityMeasure μ) (U : ℕ → ℕ → (ℕ × ℕ → ℝ) → ℝ), ∀ i, Draws μ unif (U i) := by
  have := unif_prob
  refine ⟨Measure.infinitePi fun _ => unif, inferInstance, fun i j ω => ω (i, j), fun i => ⟨fun j => (measurable_pi_apply (i, j)).aemeasurable, fun j k hjk => ?_, fun j => ?_⟩⟩
  · have h := ProbabilityTheory.iIndepFun_infinitePi (P := fun _ : ℕ × ℕ => unif) (X := fun _ x => x) (fun _ => measurable_id)
    exact h.indepFun (by simpa using hjk)
  · exact Measure.infinitePi_map_eval (fun _ : ℕ × ℕ => unif) (i, j)

/-- a catalogue of true values drawn from given densities exists -/
theorem catalogue_exists (f : ℕ → ℝ → ℝ) (hf : ∀ i, IsProbabilityMeasure (lawOf (f i))) :
    ∃ (μ : Measure (ℕ → ℝ)) (_ : IsProbabilityMeasure μ) (Z : ℕ → (ℕ → ℝ) → ℝ), (∀ i, AEMeasurable (Z i) μ) ∧
      (∀ i j, i ≠ j → ProbabilityTheory.IndepFun (Z i) (Z j) μ) ∧ ∀ i, μ.map (Z i) = lawOf (f i) := by
  refine ⟨Measure.infinitePi fun i => lawOf (f i), inferInstance, fun i ω => ω i, fun j => (measurable_pi_apply j).aemeasurable, fun j k hjk => ?_, fun j => ?_⟩
  · have h := ProbabilityTheory.iIndepFun_infinitePi (P := fun i : ℕ => lawOf (f i)) (X := fun _ x => x) (fun _ => measurable_id)
    exact h.indepFun hjk
  · exact Measure.infinitePi_map_eval (fun i : ℕ => lawOf (f i)) j

/-- the estimate is uniform on `[0, 1]`, the reference on `[0, 2]`: the largest distance is 1/2 -/
theorem half_lub : IsLUB (range fun t => |unif.real (Iic t) - uniformCdf (t / 2)|) (1 / 2) := by
  have hcdf : ∀ x, unif.real (Iic x) = uniformCdf x := by
    intro x
    rw [measureReal_def, unif_Iic, ENNReal.toReal_ofReal (le_max_left _ _), uniformCdf, min_comm]
  constructor
  · rintro _ ⟨t, rfl⟩
    simp only [hcdf, uniformCdf]
    rw [abs_le]
    rcases le_total 0 t with h0 | h0
    · rcases le_total 1 t with h1 | h1
      · rw [min_eq_left h1]
        rcases le_total 1 (t / 2) with h2 | h2
        · rw [min_eq_left h2]; norm_num
        · rw [min_eq_right h2, max_eq_right (by norm_num), max_eq_right (by linarith)]; constructor <;> linarith
      · rw [min_eq_right h1, min_eq_right (by linarith), max_eq_right h0, max_eq_right (by linarith)]; constructor <;> linarith
    · rw [min_eq_right (by linarith), min_eq_right (by linarith), max_eq_left h0, max_eq_left (by linarith)]; norm_num
  · intro b hb
    have := hb ⟨1, rfl⟩
    simp only [hcdf, uniformCdf] at this
    norm_num at this
    linarith

theorem half_smooth : SmoothCdf fun t : ℝ => uniformCdf (t / 2) := by
  refine ⟨⟨fun s t h => uniform_isCdf.mono _ _ (by linarith), fun t => uniform_isCdf.nonneg _, fun t => uniform_isCdf.le_one _⟩, fun x ε hε => ?_⟩
  obtain ⟨y, h1, h2⟩ := uniform_noJump (x / 2) ε hε
  exact ⟨2 * y, by linarith, by simpa using h2⟩

theorem id_law : unif.map (fun u : ℝ => u) = unif := Measure.map_id
theorem unif_atom (x : ℝ) : unif {x} = 0 := by
  have : unif ≪ volume := Measure.absolutelyContinuous_of_le Measure.restrict_le_self
  exact this Real.volume_singleton

/-- two uniform PDFs against one reference: the KS value of the second tends to 1/2 -/
example : ∃ (μ : Measure (ℕ × ℕ → ℝ)) (U : ℕ → ℕ → (ℕ × ℕ → ℝ) → ℝ), IsProbabilityMeasure μ ∧ ∀ᵐ ω ∂μ, ∃ r : ℕ → List ℝ,
    (∀ m, 2 ≤ m → gofOf (fun _ u => u) (fun _ u => u) (fun _ u => u) [2] [⟨fun t => uniformCdf (t / 2), id, id⟩] "ks" m (fun i j => U i j ω) = .ok (r m) ∧ (r m).length = 2) ∧
      Tendsto (fun m => (r m).getD 1 0) atTop (𝓝 (1 / 2)) := by
  obtain ⟨μ, hμ, U, hU⟩ := draws_exist
  refine ⟨μ, U, hμ, ?_⟩
  exact C137_ks (fun _ u => u) (fun _ u => u) (fun _ u => u) [2] (by simp [OneIndex, squeezeLeft]) [⟨fun t => uniformCdf (t / 2), id, id⟩] (Or.inr rfl)
    (by intro R hR; rw [List.mem_singleton] at hR; subst hR; exact half_smooth) (fun _ => unif) (fun _ => unif_prob) (fun _ => id_law) U hU 1 (by simp) _ rfl _ half_lub

/-- unequal bins -/
example {Ω : Type} [MeasurableSpace Ω] (μ : Measure Ω) [IsProbabilityMeasure μ] (U : ℕ → ℕ → Ω → ℝ) (hU : ∀ i, Draws μ unif (U i)) :=
  C137_hist_partial (μ := μ) (fun _ u => u) (fun _ u => u) (fun _ u => u) [1] (by simp [OneIndex, squeezeLeft]) (fun _ => unif)
    (fun _ => unif_prob) (fun _ => id_law) [0, 1/4, 1] (by norm_num) (by simp) (fun _ e _ => unif_atom e) 0 1 rfl rfl U hU 0 (by simp) (by
      have hcdf : ∀ x, unif.real (Iic x) = uniformCdf x := by
        intro x
        rw [measureReal_def, unif_Iic, ENNReal.toReal_ofReal (le_max_left _ _), uniformCdf, min_comm]
      simp only [hcdf, uniformCdf]; norm_num)

/-- two histograms compared with themselves -/
example {Ω : Type} [MeasurableSpace Ω] (μ : Measure Ω) [IsProbabilityMeasure μ] (U : ℕ → ℕ → Ω → ℝ) (hU : ∀ i, Draws μ unif (U i))
    (g F Q : ℕ → ℝ → ℝ) (hg : ∀ i x, histPdf [0, 1, 2] [1/4, 3/4] x = .ok (g i x)) (hF : ∀ i x, histCdf [0, 1, 2] [1/4, 3/4] x = some (F i x))
    (hQ : ∀ i u, 0 ≤ u → u ≤ 1 → histPpf [0, 1, 2] [1/4, 3/4] u = some (Q i u)) :=
  C137_self (μ := μ) 2 (by norm_num) [0, 1, 2] (Or.inl ⟨1, by
    intro i u v hu hv
    match i with
    | 0 => simp at hu hv; subst hu hv; norm_num
    | 1 => simp at hu hv; subst hu hv; norm_num
    | i + 2 => simp at hv⟩) (fun _ => [1/4, 3/4]) (fun _ => ⟨by simp, rfl, by simp⟩) (fun _ => by norm_num [totalMass]) (fun _ => by norm_num) g hg F hF Q hQ
    (fun _ u => u) (fun _ u => u) (fun _ u => u) (fun _ u => u) U hU 1 (by norm_num)

/-- a catalogue of histograms, two different shapes in turn -/
example (f : ℕ → ℝ → ℝ) (hf : ∀ i x, histPdf [0, 1, 2] (if i % 2 = 0 then [1/4, 3/4] else [1/2, 1/2]) x = .ok (f i x)) :
    ∃ (μ : Measure (ℕ → ℝ)) (Z : ℕ → (ℕ → ℝ) → ℝ), IsProbabilityMeasure μ ∧ (∀ i, μ.map (Z i) = lawOf (f i)) ∧ ∀ᵐ ω ∂μ, ∃ d : ℕ → ℝ, Tendsto d atTop (𝓝 0) ∧
      ∀ n, 2 ≤ n → ∃ o, pitInit ((List.range n).map fun i => histCdf [0, 1, 2] (if i % 2 = 0 then [1/4, 3/4] else [1/2, 1/2])) ((List.range n).map fun i => Z i ω) [0, 1/2, 1] = .ok o ∧
        pitKs o.1 = .ok (d n) := by
  have hex : ∀ i, Exact (f i) (histCdf [0, 1, 2] (if i % 2 = 0 then [1/4, 3/4] else [1/2, 1/2])) := by
    intro i
    refine hist_exact _ _ ⟨by simp, by split_ifs <;> rfl, by split_ifs <;> decide⟩ (Or.inl ⟨1, ?_⟩) ?_ ?_ _ (hf i)
    · intro i u v hu hv
      match i with
      | 0 => simp at hu hv; subst hu hv; norm_num
      | 1 => simp at hu hv; subst hu hv; norm_num
      | i + 2 => simp at hv
    · split_ifs <;> norm_num [totalMass]
    · split_ifs <;> norm_num
  obtain ⟨μ, hμ, Z, h1, h2, h3⟩ := catalogue_exists f fun i => lawOf_prob (hex i).nonneg (hex i).integrable (hex i).one
  have := C137_pit f _ hex [0, 1/2, 1] (by norm_num) (by norm_num) Z h1 h2 h3
  refine ⟨μ, Z, hμ, h3, ?_⟩
  filter_upwards [this] with ω ⟨s, q, l, d, w, a, b, _⟩
  exact ⟨d, b, fun n hn => ⟨_, (a n hn).1, (a n hn).2.1⟩⟩

end Verif.Props.LargeSamples
