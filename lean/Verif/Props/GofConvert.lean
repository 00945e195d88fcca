import Verif.Props.Chain
import Verif.Props.LargeSamples
import Verif.Props.PitFine

/-!
# C154: the goodness of fit of a conversion

`calculate_goodness_of_fit` (`metrics/metrics.py` 382-437) used to judge a conversion: samples of one of the ensembles against the distribution
functions of the other.
-/

set_option linter.unusedSectionVars false
set_option autoImplicit false

namespace Verif.Props.GofConvert

open Verif Verif.Np Verif.Model Verif.Spec Verif.Lemmas Verif.Props Verif.Props.Convert Verif.Props.Hist Verif.Props.ConvertError Verif.Props.Contraction Verif.Props.Metrics
open Verif.Props.Bins Verif.Props.Chain Verif.Props.LargeSamples Verif.Props.RealIntegral Verif.Props.FineConvert Verif.Props.MetricClose Verif.Props.SampleConvert
open MeasureTheory Filter Set
open scoped Topology

/-- the reference PDFs with distribution functions `F`; the logarithms are used by the Anderson-Darling statistic only -/
def refsOf (F lc ls : ℕ → ℝ → ℝ) (n : ℕ) : List (RefPdf ℝ) := (List.range n).map fun i => ⟨F i, lc i, ls i⟩

theorem refsOf_get (F lc ls : ℕ → ℝ → ℝ) (n i : ℕ) (hi : i < n) : (refsOf F lc ls n)[if (refsOf F lc ls n).length = 1 then 0 else i]? = some ⟨F i, lc i, ls i⟩ := by
  by_cases h : n = 1
  · subst h
    obtain rfl : i = 0 := by omega
    simp [refsOf]
  · simp [refsOf, h, hi]

/-- **C154, references.** The same estimate is compared with two sets of references whose distribution functions differ by at most `δ i`. For every number of samples and all random numbers,
the Kolmogorov-Smirnov values differ by at most `δ i`, the Cramer-von Mises values by at most `2 m δ i`. -/
theorem C154_references (f f' ppf : ℕ → ℝ → ℝ) (shape : List ℕ) (hs : OneIndex shape) (F G lc ls lc' ls' : ℕ → ℝ → ℝ) (δ : ℕ → ℝ) (hF : ∀ i x, 0 ≤ F i x ∧ F i x ≤ 1)
    (hG : ∀ i x, 0 ≤ G i x ∧ G i x ≤ 1) (hd : ∀ i x, |G i x - F i x| ≤ δ i) (m : ℕ) (hm : 2 ≤ m) (U : ℕ → ℕ → ℝ) :
    (∃ r r', gofOf f f' ppf shape (refsOf F lc ls shape.prod) "ks" m U = .ok r ∧ gofOf f f' ppf shape (refsOf G lc' ls' shape.prod) "ks" m U = .ok r' ∧
      r.length = shape.prod ∧ r'.length = shape.prod ∧ ∀ i < shape.prod, |r'.getD i 0 - r.getD i 0| ≤ δ i) ∧
    ∃ r r', gofOf f f' ppf shape (refsOf F lc ls shape.prod) "cvm" m U = .ok r ∧ gofOf f f' ppf shape (refsOf G lc' ls' shape.prod) "cvm" m U = .ok r' ∧
      r.length = shape.prod ∧ r'.length = shape.prod ∧ ∀ i < shape.prod, |r'.getD i 0 - r.getD i 0| ≤ 2 * m * δ i := by
  have hl : ∀ F lc ls : ℕ → ℝ → ℝ, (refsOf F lc ls shape.prod).length = shape.prod ∨ (refsOf F lc ls shape.prod).length = 1 := fun _ _ _ => Or.inl (by simp [refsOf])
  constructor
  · obtain ⟨r, h1, h2, h3⟩ := gof_rows f f' ppf shape hs _ (hl F lc ls) "ks" (fun R data => ksStat R.cdf data) rfl m hm U
    obtain ⟨r', h1', h2', h3'⟩ := gof_rows f f' ppf shape hs _ (hl G lc' ls') "ks" (fun R data => ksStat R.cdf data) rfl m hm U
    refine ⟨r, r', h1, h1', h2, h2', fun i hi => ?_⟩
    obtain ⟨v, e1, e2⟩ := h3 i _ hi (refsOf_get F lc ls _ i hi)
    obtain ⟨v', e1', e2'⟩ := h3' i _ hi (refsOf_get G lc' ls' _ i hi)
    rw [List.getD_eq_getElem?_getD, List.getD_eq_getElem?_getD, e1, e1']
    exact Stability.C133_ks e2 e2' fun x _ => hd i x
  · obtain ⟨r, h1, h2, h3⟩ := gof_rows f f' ppf shape hs _ (hl F lc ls) "cvm" (fun R data => cvmStat R.cdf data) rfl m hm U
    obtain ⟨r', h1', h2', h3'⟩ := gof_rows f f' ppf shape hs _ (hl G lc' ls') "cvm" (fun R data => cvmStat R.cdf data) rfl m hm U
    refine ⟨r, r', h1, h1', h2, h2', fun i hi => ?_⟩
    obtain ⟨v, e1, e2⟩ := h3 i _ hi (refsOf_get F lc ls _ i hi)
    obtain ⟨v', e1', e2'⟩ := h3' i _ hi (refsOf_get G lc' ls' _ i hi)
    rw [List.getD_eq_getElem?_getD, List.getD_eq_getElem?_getD, e1, e1']
    have := Stability.C133_cvm e2 e2' (hF i) (hG i) fun x _ => hd i x
    simpa [samplesOf] using this

/-- one PDF put into equal bins, with the distribution of its samples -/
theorem row_law {b : List ℝ} {a z : ℝ} (hb : Equal b a z) (F : ℝ → ℝ) (hF : Monotone F) (hl : ∀ x ≤ a, F x = 0) (hr : ∀ x ≥ z, F x = 1) (d : ℝ)
    (hd : ∀ (j : ℕ) u v, b[j]? = some u → b[j + 1]? = some v → F v - F u ≤ d) :
    ∃ (p : List ℝ) (G Q : ℝ → ℝ) (ν : Measure ℝ), converted b F = some p ∧ p.length = b.length - 1 ∧ (∀ x, histCdf b p x = some (G x)) ∧ (∀ u, 0 ≤ u → u ≤ 1 → histPpf b p u = some (Q u)) ∧
      IsProbabilityMeasure ν ∧ (∀ x, ν {x} = 0) ∧ unif.map Q = ν ∧ (∀ x, ν.real (Iic x) = G x) ∧ (∀ x, |G x - F x| ≤ d) := by
  obtain ⟨w, hw⟩ := hb.width
  have hu : Uniform b := ⟨_, hw⟩
  have hd0 : 0 ≤ d := by
    match b, hb.two, hb.strict with
    | c :: c' :: t, _, hst =>
      have := hd 0 c c' rfl rfl
      have := hF ((List.pairwise_cons.1 hst).1 c' (by simp)).le
      linarith
  have h01 : ∀ x, 0 ≤ F x ∧ F x ≤ 1 := by
    intro x
    constructor
    · rw [← hl (min a x) (min_le_left _ _)]; exact hF (min_le_right _ _)
    · rw [← hr (max z x) (le_max_left _ _)]; exact hF (le_max_right _ _)
  have hF0 : ∀ c, b.head? = some c → F c = 0 := fun c hc => by rw [hb.first] at hc; rw [← Option.some.inj hc]; exact hl a le_rfl
  have hF1 : ∀ c, b.getLast? = some c → F c = 1 := fun c hc => by rw [hb.last] at hc; rw [← Option.some.inj hc]; exact hr z le_rfl
  obtain ⟨p, hp, hpl, hy⟩ := row_error b F hb.two hb.strict hu hF h01 hF0 hF1
  choose G hG1 hG2 hG3 using hy
  have hdl : (Np.diff (b.map F)).length = b.length - 1 := by rw [Np.length_diff, List.length_map]
  have hdiff : ∀ v ∈ Np.diff (b.map F), 0 ≤ v := by
    intro v hv
    obtain ⟨i, hi'⟩ := List.mem_iff_getElem?.1 hv
    obtain ⟨p, q, e1, e2, e3⟩ := (diff_getElem? _ i _).1 hi'
    rw [List.getElem?_map] at e1 e2
    obtain ⟨x, hx, rfl⟩ := Option.map_eq_some_iff.1 e1
    obtain ⟨y, hy, rfl⟩ := Option.map_eq_some_iff.1 e2
    rw [e3]
    have hxy : x < y := by
      obtain ⟨hi, rfl⟩ := List.getElem?_eq_some_iff.1 hx
      obtain ⟨hj, rfl⟩ := List.getElem?_eq_some_iff.1 hy
      exact List.pairwise_iff_getElem.1 hb.strict _ _ hi hj (by omega)
    exact sub_nonneg.2 (hF hxy.le)
  have h2 := hb.two
  have hne : totalMass b (Np.diff (b.map F)) ≠ 0 := by
    intro h0
    rw [show converted b F = none from (C07_row_normalised b _).1 h0] at hp
    simp at hp
  obtain ⟨p', hp', h1, -, hpos⟩ := (C07_row_normalised b _).2 hne
  obtain rfl : p' = p := by rw [show converted b F = some p' from hp'] at hp; exact Option.some.inj hp
  have hg' : Grid b p'.length := ⟨hb.strict, by omega, by omega⟩
  have hp0 := hpos hb.strict hdiff
  obtain ⟨f, Q, hf, hQ, hlaw⟩ := Sampling.C97_hist_made b (Np.diff (b.map F)) p' ⟨hb.strict, by omega, by omega⟩ (Or.inl hu) hp hdiff
  have hleb := C08_lebesgue b p' hg' (Or.inl hu) h1 f hf
  have hpos := Sampling.hist_pdf_nonneg b p' hp0 f hf
  have hprob : IsProbabilityMeasure (lawOf f) := lawOf_prob hpos hleb.1 hleb.2.1
  refine ⟨p', G, Q, lawOf f, hp, hpl, hG1, hQ, hprob, fun x => ?_, hlaw, fun x => ?_, fun x => ?_⟩
  · have : lawOf f ≪ volume := withDensity_absolutelyContinuous _ _
    exact this Real.volume_singleton
  · have h2 := hleb.2.2 x
    rw [hG1 x] at h2
    rw [measureReal_def, lawOf_Iic hpos hleb.1, ENNReal.toReal_ofReal (integral_nonneg fun t => hpos t), Option.some.inj h2]
  · have hbne : b ≠ [] := by rintro rfl; simp at h2
    rcases lt_or_ge x a with hx | hx
    · rw [hG3 x (Or.inl fun v hv => ?_)]; · simpa using hd0
      match b, hb.first, hb.strict, hv with
      | c :: t, hc, hst, hv =>
        obtain rfl : c = a := by simpa using hc
        rcases List.mem_cons.1 hv with rfl | h
        · exact hx.le
        · exact hx.le.trans ((List.pairwise_cons.1 hst).1 v h).le
    rcases lt_or_ge x z with hz | hz
    · obtain ⟨j, u, v, hu, hv, h1, h2⟩ := bracket b x a z hb.first hb.last hx hz
      exact (hG2 x j u v hu hv h1 h2.le).trans (hd j u v hu hv)
    · rw [hG3 x (Or.inr fun v hv => ?_)]; · simpa using hd0
      have hlast : b.getLast hbne = z := by have := hb.last; rw [List.getLast?_eq_getLast_of_ne_nil hbne] at this; exact Option.some.inj this
      exact (hlast ▸ Verif.Lemmas.InterpPdf.getLast_max hb.strict hbne hv).trans hz

section
variable {Ω : Type} [MeasurableSpace Ω] {μ : Measure Ω} [IsProbabilityMeasure μ]

/-- **C154, conversion to a histogram.** An ensemble of any class, with one index, whose distribution functions `F i` have no jumps and all their mass between `a` and `z`, is converted to a
histogram with equal bins from `a` to `z`, no bin holding more than `δ i` of the mass of PDF `i`. The conversion succeeds. There is a number `D i ≤ δ i`, the largest distance of the two distribution
functions, which the Kolmogorov-Smirnov value approaches as the number of samples grows, with probability one, when samples of the histograms are compared with the original: it is zero
only if nothing was lost. The same number is approached when samples of the original are compared with the histograms. -/
theorem C154_hist (ev : Evals ℝ) (e : Ens ℝ) (F : ℕ → ℝ → ℝ) (a z : ℝ) (k : Within ev e F a z) (hone : OneIndex e.frozen.shape) (hj : ∀ i x, NoJumpAt (F i) x) (b : List ℝ) (hb : Equal b a z)
    (δ : ℕ → ℝ) (hδ : ∀ i (j : ℕ) u v, b[j]? = some u → b[j + 1]? = some v → F i v - F i u ≤ δ i) :
    ∃ (c : Ens ℝ) (G Q : ℕ → ℝ → ℝ) (D : ℕ → ℝ), convertTo (histPy ev) e none [("bins", .arr (vec b))] = .ok c ∧ c.frozen.shape = e.frozen.shape ∧
      (∀ i < e.frozen.shape.prod, (∀ x, histCdfRow c.frozen i x = some (G i x)) ∧ ∀ u, 0 ≤ u → u ≤ 1 → histPpfRow c.frozen i u = some (Q i u)) ∧
      (∀ i, D i ≤ δ i ∧ IsLUB (range fun x => |G i x - F i x|) (D i)) ∧
      (∀ (f f' lc ls : ℕ → ℝ → ℝ) (U : ℕ → ℕ → Ω → ℝ), (∀ i, Draws μ unif (U i)) → ∀ i < e.frozen.shape.prod, ∀ᵐ ω ∂μ, ∃ r : ℕ → List ℝ,
        (∀ m, 2 ≤ m → gofOf f f' Q c.frozen.shape (refsOf F lc ls e.frozen.shape.prod) "ks" m (fun i j => U i j ω) = .ok (r m)) ∧ Tendsto (fun m => (r m).getD i 0) atTop (𝓝 (D i))) ∧
      ∀ (f f' lc ls : ℕ → ℝ → ℝ) (P : ℕ → ℝ → ℝ) (ν : ℕ → Measure ℝ), (∀ i, IsProbabilityMeasure (ν i)) → (∀ i, unif.map (P i) = ν i) → (∀ i x, (ν i).real (Iic x) = F i x) →
        ∀ (U : ℕ → ℕ → Ω → ℝ), (∀ i, Draws μ unif (U i)) → ∀ i < e.frozen.shape.prod, ∀ᵐ ω ∂μ, ∃ r : ℕ → List ℝ,
          (∀ m, 2 ≤ m → gofOf f f' P e.frozen.shape (refsOf G lc ls c.frozen.shape.prod) "ks" m (fun i j => U i j ω) = .ok (r m)) ∧ Tendsto (fun m => (r m).getD i 0) atTop (𝓝 (D i)) := by
  choose p G Q ν hp hlen hG hQ hprob hna hlaw hν hd using fun i => row_law hb (F i) (k.mono i) (k.left i) (k.right i) (δ i) (hδ i)
  have hlub : ∀ i, ∃ D, IsLUB (range fun x => |G i x - F i x|) D := fun i =>
    ⟨_, isLUB_csSup ⟨_, 0, rfl⟩ ⟨δ i, by rintro _ ⟨x, rfl⟩; exact hd i x⟩⟩
  choose D hD using hlub
  have h01 : ∀ i x, 0 ≤ F i x ∧ F i x ≤ 1 := by
    intro i x
    constructor
    · rw [← k.left i (min a x) (min_le_left _ _)]; exact k.mono i (min_le_right _ _)
    · rw [← k.right i (max z x) (le_max_left _ _)]; exact k.mono i (le_max_right _ _)
  have hl : ∀ F lc ls : ℕ → ℝ → ℝ, (refsOf F lc ls e.frozen.shape.prod).length = e.frozen.shape.prod ∨ (refsOf F lc ls e.frozen.shape.prod).length = 1 := fun _ _ _ => Or.inl (by simp [refsOf])
  refine ⟨_, G, Q, D, hist_conversion ev e b hb.two F k.shape (k.cdf b hb.strict) p fun i _ => hp i, rfl, ?_, ?_, ?_, ?_⟩
  · intro i hi
    have ht := tableRow_hist b e.frozen.shape.prod p e.frozen.shape (fun i _ => hlen i) i hi
    refine ⟨fun x => ?_, fun u h0 h1 => ?_⟩
    · unfold histCdfRow
      rw [ht, finites_nums, metaGrid_hist]
      simp [hG i x]
    · unfold histPpfRow
      rw [ht, finites_nums, metaGrid_hist]
      simp [hQ i u h0 h1]
  · exact fun i => ⟨(hD i).2 (by rintro _ ⟨x, rfl⟩; exact hd i x), hD i⟩
  · intro f f' lc ls U hU i hi
    have := C137_ks (μ := μ) f f' Q e.frozen.shape hone (refsOf F lc ls e.frozen.shape.prod) (hl F lc ls) (by
        intro R hR
        obtain ⟨j, -, rfl⟩ := List.mem_map.1 hR
        exact ⟨⟨fun _ _ h => k.mono j h, fun x => (h01 j x).1, fun x => (h01 j x).2⟩, hj j⟩) ν hprob hlaw U hU i hi _ (refsOf_get F lc ls _ i hi) (D i) (by simpa only [hν] using hD i)
    filter_upwards [this] with ω ⟨r, h1, h2⟩
    exact ⟨r, fun m hm => (h1 m hm).1, h2⟩
  · intro f f' lc ls P ν' hprob' hlaw' hν' U hU i hi
    have := C137_ks (μ := μ) f f' P e.frozen.shape hone (refsOf G lc ls e.frozen.shape.prod) (hl G lc ls) (by
        intro R hR
        obtain ⟨j, -, rfl⟩ := List.mem_map.1 hR
        have := hprob j
        simpa only [hν] using cdf_continuous (ν j) (hna j)) ν' hprob' hlaw' U hU i hi _ (refsOf_get G lc ls _ i hi) (D i) (by
          simp only [hν']
          simpa only [abs_sub_comm] using hD i)
    filter_upwards [this] with ω ⟨r, h1, h2⟩
    exact ⟨r, fun m hm => (h1 m hm).1, h2⟩

theorem noJump {F : ℝ → ℝ} (hc : Continuous F) (x : ℝ) : NoJumpAt F x := by
  intro ε' hε'
  obtain ⟨η, hη, hη'⟩ := Metric.continuous_iff.1 hc x ε' hε'
  refine ⟨x - η / 2, by linarith, ?_⟩
  have := hη' (x - η / 2) (by rw [Real.dist_eq]; rw [abs_lt]; constructor <;> linarith)
  rw [Real.dist_eq, abs_lt] at this
  linarith

/-- **C154, fine bins.** If the distribution functions are continuous, then with enough equal bins the number which the Kolmogorov-Smirnov value of each PDF approaches is below any tolerance. -/
theorem C154_fine (ev : Evals ℝ) (e : Ens ℝ) (F : ℕ → ℝ → ℝ) (a z : ℝ) (haz : a < z) (k : Within ev e F a z) (hone : OneIndex e.frozen.shape) (hc : ∀ i, Continuous (F i)) (ε : ℝ) (hε : 0 < ε) :
    ∃ m0, ∀ m ≥ m0, ∃ (c : Ens ℝ) (Q : ℕ → ℝ → ℝ) (D : ℕ → ℝ), convertTo (histPy ev) e none [("bins", .arr (vec (linspace a z (m + 2))))] = .ok c ∧
      (∀ i < e.frozen.shape.prod, D i ≤ ε ∧ ∀ u, 0 ≤ u → u ≤ 1 → histPpfRow c.frozen i u = some (Q i u)) ∧
      ∀ (f f' lc ls : ℕ → ℝ → ℝ) (U : ℕ → ℕ → Ω → ℝ), (∀ i, Draws μ unif (U i)) → ∀ i < e.frozen.shape.prod, ∀ᵐ ω ∂μ, ∃ r : ℕ → List ℝ,
        (∀ n, 2 ≤ n → gofOf f f' Q c.frozen.shape (refsOf F lc ls e.frozen.shape.prod) "ks" n (fun i j => U i j ω) = .ok (r n)) ∧ Tendsto (fun n => (r n).getD i 0) atTop (𝓝 (D i)) := by
  obtain ⟨δ, hδ, hd⟩ := PitFine.small_bins (a := a) (b := z) e.frozen.shape.prod F hc _ hε
  obtain ⟨N, hN⟩ := Metric.tendsto_atTop.1 (width_tendsto a z) δ hδ
  refine ⟨N, fun m hm => ?_⟩
  have hw : ∀ (i : ℕ) u v, (linspace a z (m + 2))[i]? = some u → (linspace a z (m + 2))[i + 1]? = some v → v - u = (z - a) / ((m + 1 : ℕ) : ℝ) := by
    intro i u v hu hv
    rw [spaced_linspace a z (m + 2) (by omega) i u v hu hv]
    push_cast
    ring
  have h0 : (0 : ℝ) ≤ (z - a) / ((m + 1 : ℕ) : ℝ) := div_nonneg (by linarith) (Nat.cast_nonneg _)
  have hb : Equal (linspace a z (m + 2)) a z :=
    ⟨linspace_pairwise a z (m + 2) (by omega) haz, by simp [length_linspace], head_linspace a z (m + 2) (by omega), last_linspace a z (m + 2) (by omega), _, hw⟩
  obtain ⟨c, G, Q, D, h1, h2, h3, h4, h5, -⟩ := C154_hist (μ := μ) ev e F a z k hone (fun i => noJump (hc i)) _ hb (fun i => if i < e.frozen.shape.prod then ε else 1) (by
    intro i j u v hu hv
    have huv : u ≤ v := by have := hw j u v hu hv; linarith
    split_ifs with hi
    · refine hd i hi u v (FineGrid.mem_linspace haz (by omega) (List.mem_of_getElem? hu)).1 (FineGrid.mem_linspace haz (by omega) (List.mem_of_getElem? hv)).2 huv ?_
      rw [hw j u v hu hv]
      have := hN m hm
      rw [Real.dist_eq, sub_zero, abs_of_nonneg h0] at this
      exact this
    · have e1 : F i v ≤ 1 := by rw [← k.right i (max z v) (le_max_left _ _)]; exact k.mono i (le_max_right _ _)
      have e2 : 0 ≤ F i u := by rw [← k.left i (min a u) (min_le_left _ _)]; exact k.mono i (min_le_right _ _)
      linarith)
  refine ⟨c, Q, D, h1, fun i hi => ⟨?_, (h3 i hi).2⟩, h5⟩
  simpa [hi] using (h4 i).1

end

/-! two PDFs with density `2 x` on the unit interval, put into one bin: the Kolmogorov-Smirnov value tends to one quarter -/

/-- a class whose `cdf` is the square of the ramp -/
noncomputable def sqEv : Evals ℝ := ⟨ensArr fun _ _ v => .num (some (2 * ramp v)), ensArr fun _ _ v => .num (some (ramp v ^ 2)), fun _ _ => .error .Unmodelled⟩

theorem ramp_mono : Monotone ramp := (ramp_known 0 1 (by norm_num [ramp])).mono 0
theorem ramp_unit (x : ℝ) : 0 ≤ ramp x ∧ ramp x ≤ 1 := (ramp_known 0 1 (by norm_num [ramp])).unit 0 x

theorem sq_within : Within sqEv rampEns (fun _ x => ramp x ^ 2) 0 1 where
  shape := by simp [rampEns, frozenOf]
  cdf := fun t ht => ConvertInterpError.ensArr_at _ rampEns.frozen (by simp [rampEns, frozenOf]) t ht _ fun _ _ _ _ => rfl
  mono := fun _ _ _ h => pow_le_pow_left₀ (ramp_unit _).1 (ramp_mono h) 2
  left := fun _ x hx => by unfold ramp; rw [max_eq_left hx]; norm_num
  right := fun _ x hx => by unfold ramp; rw [max_eq_right (by linarith), min_eq_left hx]; norm_num

theorem sq_continuous : Continuous fun x => ramp x ^ 2 := by unfold ramp; fun_prop

theorem one_equal : Equal [0, 1] 0 1 := ⟨by norm_num, by simp, rfl, rfl, 1, fun i u v hu hv => by
  match i with
  | 0 => simp at hu hv; subst hu hv; norm_num
  | i + 1 => simp at hv⟩

theorem sq_noJump (x : ℝ) : NoJumpAt (fun x => ramp x ^ 2) x := noJump sq_continuous x

theorem sq_one : ∀ (i j : ℕ) u v, [(0 : ℝ), 1][j]? = some u → [(0 : ℝ), 1][j + 1]? = some v → (fun (_ : ℕ) x => ramp x ^ 2) i v - (fun (_ : ℕ) x => ramp x ^ 2) i u ≤ (fun _ : ℕ => (1 : ℝ)) i := by
  intro i j u v _ _
  have := ramp_unit u; have := ramp_unit v
  simp only
  nlinarith [sq_nonneg (ramp u)]

example {Ω : Type} [MeasurableSpace Ω] (μ : Measure Ω) [IsProbabilityMeasure μ] :=
  C154_hist (μ := μ) sqEv rampEns (fun _ x => ramp x ^ 2) 0 1 sq_within (by simp [OneIndex, rampEns, frozenOf, squeezeLeft]) (fun _ => sq_noJump) [0, 1] one_equal (fun _ => 1) sq_one

example {Ω : Type} [MeasurableSpace Ω] (μ : Measure Ω) [IsProbabilityMeasure μ] :=
  C154_fine (μ := μ) sqEv rampEns (fun _ x => ramp x ^ 2) 0 1 one_pos sq_within (by simp [OneIndex, rampEns, frozenOf, squeezeLeft]) (fun _ => sq_continuous) (1 / 100) (by norm_num)

example (ppf : ℕ → ℝ → ℝ) (U : ℕ → ℕ → ℝ) := C154_references ppf ppf ppf [2] (by simp [OneIndex, squeezeLeft]) (fun _ x => ramp x ^ 2) (fun _ => ramp) (fun _ _ => 0) (fun _ _ => 0) (fun _ _ => 0) (fun _ _ => 0)
  (fun _ => 1 / 4) (fun _ x => ⟨by positivity, by have := ramp_unit x; nlinarith⟩) (fun _ x => ramp_unit x) (fun _ x => by
    have := ramp_unit x
    rw [abs_le]; constructor <;> nlinarith [sq_nonneg (ramp x - 1 / 2)]) 2 le_rfl U

/-- **C154, a case in numbers**: two PDFs with density `2 x` on the unit interval and all of it in one bin. With probability one the Kolmogorov-Smirnov value of the second tends to one quarter. -/
theorem C154_instance {Ω : Type} [MeasurableSpace Ω] (μ : Measure Ω) [IsProbabilityMeasure μ] (f f' lc ls : ℕ → ℝ → ℝ) (U : ℕ → ℕ → Ω → ℝ) (hU : ∀ i, Draws μ unif (U i)) :
    ∃ (c : Ens ℝ) (Q : ℕ → ℝ → ℝ), convertTo (histPy sqEv) rampEns none [("bins", .arr (vec [0, 1]))] = .ok c ∧ (∀ u, 0 ≤ u → u ≤ 1 → histPpfRow c.frozen 1 u = some (Q 1 u)) ∧
      ∀ᵐ ω ∂μ, ∃ r : ℕ → List ℝ, (∀ m, 2 ≤ m → gofOf f f' Q c.frozen.shape (refsOf (fun _ x => ramp x ^ 2) lc ls 2) "ks" m (fun i j => U i j ω) = .ok (r m)) ∧
        Tendsto (fun m => (r m).getD 1 0) atTop (𝓝 (1 / 4)) := by
  obtain ⟨c, G, Q, D, h1, h2, h3, h4, h5, -⟩ :=
    C154_hist (μ := μ) sqEv rampEns (fun _ x => ramp x ^ 2) 0 1 sq_within (by simp [OneIndex, rampEns, frozenOf, squeezeLeft]) (fun _ => sq_noJump) [0, 1] one_equal (fun _ => 1) sq_one
  have hn : rampEns.frozen.shape.prod = 2 := by simp [rampEns, frozenOf]
  rw [hn] at h3 h5
  refine ⟨c, Q, h1, (h3 1 (by norm_num)).2, ?_⟩
  have hD : D 1 = 1 / 4 := by
    obtain ⟨p, G', g, e1, e2, e3, -, e5, e6, -, e8⟩ := row_cells [0, 1] 1 (fun i u v hu hv => by
      match i with
      | 0 => simp at hu hv; subst hu hv; norm_num
      | i + 1 => simp at hv) (by simp) (by norm_num) (fun x => ramp x ^ 2) (sq_within.mono 0) (fun c hc => by simp at hc; subst hc; exact sq_within.left 0 0 le_rfl)
      (fun c hc => by simp at hc; subst hc; exact sq_within.right 0 1 le_rfl)
    have hc := hist_conversion sqEv rampEns [0, 1] (by simp) (fun _ x => ramp x ^ 2) sq_within.shape (sq_within.cdf _ (by norm_num)) (fun _ => p) fun _ _ => e1
    rw [h1] at hc
    have hG : ∀ x, G 1 x = G' x := by
      intro x
      have h := (h3 1 (by norm_num)).1 x
      rw [Except.ok.inj hc] at h
      unfold histCdfRow at h
      rw [tableRow_hist [0, 1] rampEns.frozen.shape.prod (fun _ => p) rampEns.frozen.shape (fun _ _ => e2) 1 (by rw [hn]; norm_num), finites_nums, metaGrid_hist] at h
      simp only [Option.bind_some, e3] at h
      exact (Option.some.inj h).symm
    have hr0 : ramp 0 = 0 := ramp_in le_rfl zero_le_one
    have hr1 : ramp 1 = 1 := ramp_in zero_le_one le_rfl
    have hR : ∀ x, G' x = ramp x := by
      intro x
      rcases lt_or_ge x 0 with hx | hx
      · rw [e5 x (by intro v hv; simp at hv; rcases hv with rfl | rfl <;> linarith)]
        unfold ramp; rw [max_eq_left hx.le]; norm_num
      rcases lt_or_ge 1 x with hx1 | hx1
      · rw [e6 x (by intro v hv; simp at hv; rcases hv with rfl | rfl <;> linarith)]
        unfold ramp; rw [max_eq_right hx, min_eq_left hx1.le]
      · rw [(e8 0 0 1 rfl rfl).2 x ⟨hx, hx1⟩, ramp_in hx hx1, hr0, hr1]; norm_num
    refine (h4 1).2.unique ⟨?_, fun B hB => ?_⟩
    · rintro _ ⟨x, rfl⟩
      simp only [hG, hR]
      have := ramp_unit x
      rw [abs_le]; constructor <;> nlinarith [sq_nonneg (ramp x - 1 / 2)]
    · have := hB ⟨1 / 2, rfl⟩
      simp only [hG, hR, ramp_in (show (0 : ℝ) ≤ 1 / 2 by norm_num) (by norm_num)] at this
      norm_num at this ⊢
      exact this
  have := h5 f f' lc ls U hU 1 (by norm_num)
  rwa [hD] at this

end Verif.Props.GofConvert
