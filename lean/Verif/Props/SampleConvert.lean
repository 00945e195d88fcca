import Verif.Model.SampleConvert
import Verif.Props.Sampling
import Verif.Props.ConvertSamples
import Verif.Props.Kde
import Verif.Props.Mixmod

/-!
# C98: conversions through random samples

Every PDF of the result is made from the samples of the PDF at its place, whatever the number of PDFs and their arrangement, and for
histograms the expected contents of the bins are the probabilities of the bins.
-/

set_option linter.unusedSectionVars false
set_option autoImplicit false

namespace Verif.Props.SampleConvert

open Verif Verif.Np Verif.Model Verif.Spec Verif.Lemmas Verif.Props.Sampling Verif.Props.Convert

section
variable {K : Type} [Field K] [LinearOrder K] [IsStrictOrderedRing K]

/-- the samples drawn from PDF `i` -/
def samplesOf (ppf : ℕ → K → K) (U : ℕ → ℕ → K) (m i : ℕ) : List K := (List.range m).map fun j => ppf i (U i j)

/-- PDFs with one index, apart from leading axes of length one; at least one PDF -/
def OneIndex (shape : List ℕ) : Prop := (squeezeLeft shape).length ≤ 1 ∧ shape.prod ≠ 0

theorem rvs_ok (f f' ppf : ℕ → K → K) (shape : List ℕ) (hs : OneIndex shape) (m : ℕ) (U : ℕ → ℕ → K) :
    ensRvs (dispatch f f' ppf) shape (some m) U = .ok ((List.range shape.prod).map (samplesOf ppf U m)) :=
  C97_samples f f' ppf shape hs.1 hs.2 m U

open Classical in
/-- **C98, histograms**: for every number of samples (1000 unless given), the heights of PDF `i` are the counts of its own samples in the bins, normalised -/
theorem C98_hist_partial (f f' ppf : ℕ → K → K) (shape : List ℕ) (hs : OneIndex shape) (U : ℕ → ℕ → K) (bins : List K) (hb : bins ≠ [])
    (hsort : bins.Pairwise (· ≤ ·)) (size : Option ℕ) (hc : shape.prod = bins.length - 1 → size.getD 1000 = bins.length - 1) :
    ∃ rows, histFromSamples (dispatch f f' ppf) shape U (some bins) size = .ok rows ∧ rows.length = shape.prod ∧
      ∀ (i : ℕ), i < shape.prod → ∃ cs : List ℕ, cs.length = bins.length - 1 ∧
        (∀ (k c : ℕ), cs[k]? = some c → c = (samplesOf ppf U (size.getD 1000) i).countP (fun s => InBin bins k s)) ∧
        rows[i]? = some (histNormRow bins (cs.map fun (n : ℕ) => (n : K))) := by
  obtain ⟨counts, hcounts, hf⟩ := (C59_success_partial bins ((List.range shape.prod).map (samplesOf ppf U (size.getD 1000))) (size.getD 1000)).1
    ⟨hb, by simp [hs.2], hsort, by simpa using hc⟩
  refine ⟨counts.map fun c => histNormRow bins (c.map fun (n : ℕ) => (n : K)), ?_, ?_, ?_⟩
  · unfold histFromSamples sizeArg
    simp only [rvs_ok f f' ppf shape hs, bind, Except.bind, hcounts]
  · have := hf.length_eq
    simp at this
    simp [this]
  · intro i hi
    have hlen := hf.length_eq
    simp at hlen
    have hi' : i < counts.length := by omega
    have h1 := hf.get (i := i) (by simpa using hi) hi'
    simp at h1
    obtain ⟨cs, h2, h3, h4⟩ := (C59_counts bins (samplesOf ppf U (size.getD 1000) i)).1 hsort
    rw [h2] at h1
    refine ⟨cs, h3, h4, ?_⟩
    rw [List.getElem?_map, List.getElem?_eq_getElem hi', Except.ok.inj h1]
    rfl

/-- **C98, mixtures**: with at least as many samples as components and weights that are not negative, PDF `i` is the mixture fitted to its own samples
(3 components and 1000 samples unless given) -/
theorem C98_mix (f f' ppf : ℕ → K → K) (shape : List ℕ) (hs : OneIndex shape) (U : ℕ → ℕ → K)
    (fit : ℕ → ℕ → List K → List K × List K × List K) (ncomps nsamples : Option ℕ) :
    (ncomps.getD 3 ≤ nsamples.getD 1000 → (∀ i n s, ∀ w ∈ (fit i n s).1, 0 ≤ w) →
      mixFromSamples (dispatch f f' ppf) shape U fit ncomps nsamples = .ok ((List.range shape.prod).map fun i =>
        let r := fit i (ncomps.getD 3) (samplesOf ppf U (nsamples.getD 1000) i)
        (mixNormRow r.1, r.2.1, r.2.2))) ∧
    (nsamples.getD 1000 < ncomps.getD 3 → mixFromSamples (dispatch f f' ppf) shape U fit ncomps nsamples = .error .ValueError) := by
  constructor
  · intro hle hw
    unfold mixFromSamples sizeArg
    simp only [rvs_ok f f' ppf shape hs, bind, Except.bind]
    have h1 : (((List.range shape.prod).map (samplesOf ppf U (nsamples.getD 1000))).zipIdx).mapM
        (fun p => mixHelper fit (ncomps.getD 3) p.2 p.1) =
        .ok ((((List.range shape.prod).map (samplesOf ppf U (nsamples.getD 1000))).zipIdx).map fun p => fit p.2 (ncomps.getD 3) p.1) := by
      apply mapM_ok_map
      intro p hp
      have hm : p.1 ∈ (List.range shape.prod).map (samplesOf ppf U (nsamples.getD 1000)) := by
        obtain ⟨h1, h2, h3⟩ := List.mem_zipIdx hp
        rw [h3]
        exact List.getElem_mem _
      obtain ⟨i, -, hi⟩ := List.mem_map.1 hm
      have hl : p.1.length = nsamples.getD 1000 := by rw [← hi]; simp [samplesOf]
      unfold mixHelper
      rw [if_neg (by omega)]
    rw [h1]
    simp only
    unfold mixInit
    rw [if_neg]
    · simp only [List.map_map]
      congr 1
      apply List.ext_getElem
      · simp
      · intro i h1 h2
        simp
    · simp only [List.any_eq_true, not_exists, not_and, List.mem_map]
      rintro r ⟨q, ⟨p, -, rfl⟩, rfl⟩ w hwm
      simpa using hw _ _ _ w hwm
  · intro hlt
    unfold mixFromSamples sizeArg
    simp only [rvs_ok f f' ppf shape hs, bind, Except.bind]
    cases hn : shape.prod with
    | zero => exact absurd hn hs.2
    | succ n =>
      rw [List.range_succ_eq_map, List.map_cons, List.zipIdx_cons, mapM_cons]
      have : (samplesOf ppf U (nsamples.getD 1000) 0).length < ncomps.getD 3 := by simpa [samplesOf] using hlt
      simp [mixHelper, this]

/-- **C98, refusals**: without bins nothing is drawn; nested ensembles cannot be converted this way, by any of the methods; neither can any ensemble of mixtures -/
theorem C98_refused (core : Pts K → Pts ℕ → Except Err (List K)) (shape : List ℕ) (hn : shape.prod ≠ 0) (U : ℕ → ℕ → K) (bins : List K)
    (fit : ℕ → ℕ → List K → List K × List K × List K) (a b : Option ℕ) :
    histFromSamples core shape U none a = .error .ValueError ∧
    (2 ≤ (squeezeLeft shape).length ∨ (∃ inv, core = mixPpf inv) →
      histFromSamples core shape U (some bins) a = .error .ValueError ∧ mixFromSamples core shape U fit a b = .error .ValueError) := by
  refine ⟨rfl, fun h => ?_⟩
  have key : ∀ m, ensRvs core shape (some m) U = .error .ValueError := by
    intro m
    by_cases h2 : 2 ≤ (squeezeLeft shape).length
    · exact (C97_not_sampled core shape hn U).1 h2 _
    · rcases h with h | ⟨inv, rfl⟩
      · exact absurd h h2
      · have hok := (rvsSizeOk_iff shape m).2 (by omega)
        unfold ensRvs
        rw [if_neg hn]
        simp only [Option.getD_some, hok, Bool.not_true, Bool.false_eq_true, if_false]
        have : mixPpf inv (.mat (drawn U shape.prod m)) (rvsRows shape) = .error .ValueError := by
          unfold rvsRows
          split <;> simp [mixPpf, getEvalCase, Pts.ndim]
        rw [this]
  unfold histFromSamples mixFromSamples sizeArg
  simp [key, bind, Except.bind]

end

/-- **C98, splines**: without abscissae `KeyError`; otherwise the conversion succeeds exactly if there are abscissae and every PDF has two different samples, and
PDF `i` is the spline made from its own samples alone -/
theorem C98_spline (f f' ppf : ℕ → ℝ → ℝ) (shape : List ℕ) (hs : OneIndex shape) (U : ℕ → ℕ → ℝ) (splrep : List ℝ → List ℝ → SplRow ℝ)
    (xs : List ℝ) (size : Option ℕ) :
    splConvertSamples (dispatch f f' ppf) shape U splrep none size = .error .KeyError ∧
    ((∃ rows, splConvertSamples (dispatch f f' ppf) shape U splrep (some xs) size = .ok rows) ↔
      xs ≠ [] ∧ ∀ i < shape.prod, ∃ j < size.getD 1000, ∃ j' < size.getD 1000, ppf i (U i j) ≠ ppf i (U i j')) ∧
    ∀ rows, splConvertSamples (dispatch f f' ppf) shape U splrep (some xs) size = .ok rows → rows.length = shape.prod ∧
      ∀ (i : ℕ), i < shape.prod → ∃ r, rows[i]? = some r ∧ splFromSamples splrep xs [samplesOf ppf U (size.getD 1000) i] = .ok [r] := by
  have h91 := Kde.C91_rows splrep xs ((List.range shape.prod).map (samplesOf ppf U (size.getD 1000)))
  have hex : splConvertSamples (dispatch f f' ppf) shape U splrep (some xs) size =
      splFromSamples splrep xs ((List.range shape.prod).map (samplesOf ppf U (size.getD 1000))) := by
    unfold splConvertSamples sizeArg
    simp only [rvs_ok f f' ppf shape hs, bind, Except.bind]
  refine ⟨?_, ?_, ?_⟩
  · unfold splConvertSamples sizeArg
    simp only [rvs_ok f f' ppf shape hs, bind, Except.bind]
  · rw [hex, h91.1]
    constructor
    · rintro ⟨h1, -, h3⟩
      refine ⟨h1, fun i hi => ?_⟩
      obtain ⟨u, hu, v, hv, huv⟩ := h3 _ (List.mem_map_of_mem (List.mem_range.2 hi))
      obtain ⟨j, hj, rfl⟩ := List.mem_map.1 hu
      obtain ⟨j', hj', rfl⟩ := List.mem_map.1 hv
      exact ⟨j, List.mem_range.1 hj, j', List.mem_range.1 hj', huv⟩
    · rintro ⟨h1, h3⟩
      refine ⟨h1, by simp [hs.2], ?_⟩
      intro s hsm
      obtain ⟨i, hi, rfl⟩ := List.mem_map.1 hsm
      obtain ⟨j, hj, j', hj', hne⟩ := h3 i (List.mem_range.1 hi)
      exact ⟨_, List.mem_map_of_mem (List.mem_range.2 hj), _, List.mem_map_of_mem (List.mem_range.2 hj'), hne⟩
  · intro rows hr
    rw [hex] at hr
    obtain ⟨h1, h2⟩ := h91.2 rows hr
    refine ⟨by simpa using h1, fun i hi => h2 i _ ?_⟩
    rw [List.getElem?_map, List.getElem?_range hi]
    rfl

open MeasureTheory Set Verif.Props.Hist Verif.Props.Bins Verif.Props.RealIntegral in
/-- **C98, expected contents**: a sample of a histogram PDF falls into bin `k` of the new histogram with the probability that the CDF gives to this bin, which is
what the conversion without samples stores; so the counts are unbiased, and every bin including the last one is counted once -/
theorem C98_hist_unbiased (edges p : List ℝ) (hg : Grid edges p.length) (hu : Uniform edges ∨ DetectablyNonUniform edges)
    (h1 : totalMass edges p = 1) (hp : ∀ v ∈ p, 0 ≤ v) (f : ℝ → ℝ) (hf : ∀ x, histPdf edges p x = .ok (f x)) (Q : ℝ → ℝ)
    (hQ : ∀ u, 0 ≤ u → u ≤ 1 → histPpf edges p u = some (Q u)) (bins : List ℝ) (k : ℕ) (lo hi cl ch : ℝ) (e1 : bins[k]? = some lo)
    (e2 : bins[k + 1]? = some hi) (hle : lo ≤ hi) (c1 : histCdf edges p lo = some cl) (c2 : histCdf edges p hi = some ch) :
    (volume.restrict (Icc 0 1)).map Q {s | InBin bins k s} = ENNReal.ofReal (ch - cl) := by
  rw [C97_hist_law edges p hg hu h1 hp f hf Q hQ]
  obtain ⟨hint, -, hcdf⟩ := C08_lebesgue edges p hg hu h1 f hf
  have hcl : cl = ∫ t in Iic lo, f t := by have := hcdf lo; rw [c1] at this; exact Option.some.inj this
  have hch : ch = ∫ t in Iic hi, f t := by have := hcdf hi; rw [c2] at this; exact Option.some.inj this
  have hpos := hist_pdf_nonneg edges p hp f hf
  have hab : ch - cl = ∫ t in Ioc lo hi, f t := by
    rw [hcl, hch, intervalIntegral.integral_Iic_sub_Iic hint.integrableOn hint.integrableOn, intervalIntegral.integral_of_le hle]
  rw [hab, ofReal_integral_eq_lintegral_ofReal hint.integrableOn (Filter.Eventually.of_forall hpos)]
  have hset : {s | InBin bins k s} = Ico lo hi ∨ {s | InBin bins k s} = Icc lo hi := by
    by_cases hl : k + 2 = bins.length
    · right
      ext s
      simp only [InBin, e1, e2, hl, mem_ofPred_eq, mem_Icc, Option.some.injEq]
      constructor
      · rintro ⟨a, b, rfl, rfl, h3, h4 | ⟨-, h4⟩⟩
        · exact ⟨h3, h4.le⟩
        · exact ⟨h3, h4.le⟩
      · rintro ⟨h3, h4⟩
        exact ⟨lo, hi, rfl, rfl, h3, h4.lt_or_eq.imp id fun h => ⟨trivial, h⟩⟩
    · left
      ext s
      simp only [InBin, e1, e2, hl, mem_ofPred_eq, mem_Ico, Option.some.injEq]
      constructor
      · rintro ⟨a, b, rfl, rfl, h3, h4 | ⟨h5, -⟩⟩
        · exact ⟨h3, h4⟩
        · exact absurd h5 (by simp)
      · rintro ⟨h3, h4⟩
        exact ⟨lo, hi, rfl, rfl, h3, .inl h4⟩
  rcases hset with h | h
  · rw [h, withDensity_apply _ measurableSet_Ico]
    exact setLIntegral_congr Ico_ae_eq_Ioc
  · rw [h, withDensity_apply _ measurableSet_Icc]
    exact setLIntegral_congr Ioc_ae_eq_Icc.symm

/-! ### concrete cases: two PDFs with the quantile functions `q` and `1 + q`, draws `(i + j) / 4` -/

def shifted (i : ℕ) (q : ℚ) : ℚ := i + q
def draws (i j : ℕ) : ℚ := (i + j) / 4

example : OneIndex [2] ∧ OneIndex [1, 2] ∧ ¬ OneIndex [2, 2] := by
  simp [OneIndex, squeezeLeft]
/-- three samples of each PDF: 0, 1/4, 1/2 and 5/4, 3/2, 7/4 -/
example : histFromSamples (dispatch shifted shifted shifted) [2] draws (some [0, 1/2, 1, 2]) (some 3) =
    .ok [some [4/3, 2/3, 0], some [0, 0, 1]] := by decide +kernel
example := C98_hist_partial shifted shifted shifted [2] (by simp [OneIndex, squeezeLeft]) draws [0, 1/2, 1, 2] (by simp) (by decide +kernel) (some 3) (by simp)
/-- a mixture with one component: the mean of the samples is not computed here, the fit keeps the first sample -/
def firstFit (_ _ : ℕ) (s : List ℚ) : List ℚ × List ℚ × List ℚ := ([2], [s.headD 0], [1])
example : mixFromSamples (dispatch shifted shifted shifted) [2] draws firstFit (some 1) (some 3) =
    .ok [(some [1], [0], [1]), (some [1], [5/4], [1])] := by decide +kernel
example := (C98_mix shifted shifted shifted [2] (by simp [OneIndex, squeezeLeft]) draws firstFit (some 1) (some 3)).1 (by simp) (by simp [firstFit])
/-- more components than samples -/
example := (C98_mix shifted shifted shifted [2] (by simp [OneIndex, squeezeLeft]) draws firstFit none (some 2)).2 (by simp)
example := (C98_refused (mixPpf fun i (q : ℚ) => shifted i q) [2] (by simp) draws [0, 1] firstFit (some 3) none).2 (.inr ⟨_, rfl⟩)

/-- the two PDFs over the reals, on abscissae 0, 1, 2, 3: the conversion succeeds, as the samples differ -/
example (splrep : List ℝ → List ℝ → SplRow ℝ) : ∃ rows, splConvertSamples (dispatch (fun i q => (i : ℝ) + q) (fun i q => (i : ℝ) + q) (fun i q => (i : ℝ) + q)) [2]
    (fun i j => (i + j) / 4) splrep (some [0, 1, 2, 3]) (some 3) = .ok rows :=
  (C98_spline _ _ _ [2] (by simp [OneIndex, squeezeLeft]) (fun i j => (i + j) / 4) splrep [0, 1, 2, 3] (some 3)).2.1.2
    ⟨by simp, fun i _ => ⟨0, by simp, 1, by simp, by simp⟩⟩

end Verif.Props.SampleConvert
