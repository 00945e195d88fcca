import Verif.Props.PitMeta
import Verif.Props.Sampling
import Verif.Props.MixReal
import Verif.Props.ConvertInterpError
import Mathlib.MeasureTheory.Constructions.Pi
import Mathlib.MeasureTheory.Constructions.BorelSpace.Order
import Mathlib.MeasureTheory.Integral.DominatedConvergence
import Mathlib.MeasureTheory.Integral.IntegralEqImproper

/-!
# C112: PIT values of correct PDFs are independent and uniform

The true values of the objects are drawn independently, each from the density the ensemble has for its object.
-/

set_option linter.unusedSectionVars false
set_option autoImplicit false

namespace Verif.Props.Metrics

open Verif Verif.Np Verif.Model MeasureTheory Set

/-- an object of the ensemble: its density is `f`, its distribution function gives the integral of `f` at every point -/
structure Exact (f : ℝ → ℝ) (F : ℝ → Option ℝ) : Prop where
  nonneg : ∀ x, 0 ≤ f x
  integrable : Integrable f
  one : ∫ t, f t = 1
  cdf : ∀ x, F x = some (∫ t in Iic x, f t)

/-- the distribution with density `f` -/
noncomputable def lawOf (f : ℝ → ℝ) : Measure ℝ := volume.withDensity fun x => ENNReal.ofReal (f x)

/-- the uniform distribution on the unit interval -/
noncomputable def unif : Measure ℝ := volume.restrict (Icc 0 1)

/-- the PIT value of object `i` as found in the `PIT` object -/
noncomputable def pitValue {n : ℕ} (cdfs : Fin n → ℝ → Option ℝ) (grid : List ℝ) (z : Fin n → ℝ) (i : Fin n) : ℝ :=
  match pitInit (List.ofFn cdfs) (List.ofFn z) grid with
  | .ok out => out.1.getD i 0
  | .error _ => 0

theorem lawOf_Iic {f : ℝ → ℝ} (h0 : ∀ x, 0 ≤ f x) (hi : Integrable f) (x : ℝ) : lawOf f (Iic x) = ENNReal.ofReal (∫ t in Iic x, f t) := by
  unfold lawOf
  rw [withDensity_apply _ measurableSet_Iic, ofReal_integral_eq_lintegral_ofReal hi.integrableOn (Filter.Eventually.of_forall h0)]

theorem lawOf_prob {f : ℝ → ℝ} (h0 : ∀ x, 0 ≤ f x) (hi : Integrable f) (h1 : ∫ t, f t = 1) : IsProbabilityMeasure (lawOf f) := by
  constructor
  unfold lawOf
  rw [withDensity_apply _ MeasurableSet.univ, Measure.restrict_univ,
    ← ofReal_integral_eq_lintegral_ofReal hi (Filter.Eventually.of_forall h0), h1, ENNReal.ofReal_one]

theorem primitive_mono {f : ℝ → ℝ} (h0 : ∀ x, 0 ≤ f x) (hi : Integrable f) : Monotone fun x => ∫ t in Iic x, f t := by
  intro x y hxy
  exact setIntegral_mono_set hi.integrableOn (Filter.Eventually.of_forall h0) (Filter.Eventually.of_forall (Iic_subset_Iic.2 hxy))

theorem primitive_continuous {f : ℝ → ℝ} (hi : Integrable f) : Continuous fun x => ∫ t in Iic x, f t := by
  have h : (fun x => ∫ t in Iic x, f t) = fun x => (∫ t in Iic 0, f t) + ∫ t in (0:ℝ)..x, f t := by
    funext x
    rw [← intervalIntegral.integral_Iic_sub_Iic hi.integrableOn hi.integrableOn]; ring
  rw [h]
  exact continuous_const.add (intervalIntegral.continuous_primitive (fun a b => hi.intervalIntegrable) 0)

theorem primitive_one {f : ℝ → ℝ} (hi : Integrable f) (h1 : ∫ t, f t = 1) : Filter.Tendsto (fun x => ∫ t in Iic x, f t) Filter.atTop (nhds 1) := by
  rw [← h1]
  exact (aecover_Iic Filter.tendsto_id).integral_tendsto_of_countably_generated hi

theorem primitive_zero {f : ℝ → ℝ} (hi : Integrable f) : Filter.Tendsto (fun x => ∫ t in Iic x, f t) Filter.atBot (nhds 0) := by
  have h : (fun x => ∫ t in Iic x, f t) = fun x => (∫ t, f t) - ∫ t in Ioi x, f t := by
    funext x
    have := integral_add_compl (μ := volume) (measurableSet_Iic (a := x)) hi
    rw [compl_Iic] at this
    linarith
  rw [h]
  have := (aecover_Ioi (μ := volume) (Filter.tendsto_id (α := ℝ) (x := Filter.atBot))).integral_tendsto_of_countably_generated hi
  simpa using (tendsto_const_nhds (x := ∫ t, f t)).sub this

/-- every probability strictly between 0 and 1 is attained -/
theorem primitive_surj {f : ℝ → ℝ} (hi : Integrable f) (h1 : ∫ t, f t = 1) (u : ℝ) (h0 : 0 < u) (hu : u < 1) : ∃ x, ∫ t in Iic x, f t = u := by
  have hc := primitive_continuous hi
  obtain ⟨a, ha⟩ := ((primitive_zero hi).eventually (gt_mem_nhds h0)).exists
  obtain ⟨b, hb⟩ := ((primitive_one hi h1).eventually (lt_mem_nhds hu)).exists
  exact mem_range_of_exists_le_of_exists_ge hc ⟨a, ha.le⟩ ⟨b, hb.le⟩

/-- the probability that the distribution function at a drawn value is at most `u` -/
theorem law_le {f : ℝ → ℝ} (h0 : ∀ x, 0 ≤ f x) (hi : Integrable f) (h1 : ∫ t, f t = 1) (u : ℝ) :
    lawOf f {x | ∫ t in Iic x, f t ≤ u} = ENNReal.ofReal (max 0 (min u 1)) := by
  have hP := lawOf_prob h0 hi h1
  have hm := primitive_mono h0 hi
  have hle : ∀ x, ∫ t in Iic x, f t ≤ 1 := fun x => hm.ge_of_tendsto (primitive_one hi h1) x
  have hge : ∀ x, 0 ≤ ∫ t in Iic x, f t := fun x => hm.le_of_tendsto (primitive_zero hi) x
  -- strictly inside
  have inner : ∀ v, 0 < v → v < 1 → lawOf f {x | ∫ t in Iic x, f t ≤ v} = ENNReal.ofReal v := by
    intro v hv0 hv1
    obtain ⟨x, hx⟩ := primitive_surj hi h1 v hv0 hv1
    apply le_antisymm
    · apply ENNReal.le_of_forall_pos_le_add
      intro ε hε _
      have hε' : (0 : ℝ) < ε := hε
      obtain ⟨w, hw1, hw2⟩ : ∃ w, v < w ∧ w < min 1 (v + ε) := exists_between (lt_min hv1 (by linarith))
      obtain ⟨y, hy⟩ := primitive_surj hi h1 w (hv0.trans hw1) (hw2.trans_le (min_le_left _ _))
      have hsub : {x | ∫ t in Iic x, f t ≤ v} ⊆ Iic y := by
        intro z hz
        by_contra hc
        have := hm (not_le.1 hc).le
        simp only [mem_ofPred_eq] at hz this
        linarith
      calc lawOf f {x | ∫ t in Iic x, f t ≤ v} ≤ lawOf f (Iic y) := measure_mono hsub
        _ = ENNReal.ofReal w := by rw [lawOf_Iic h0 hi, hy]
        _ ≤ ENNReal.ofReal (v + ε) := ENNReal.ofReal_le_ofReal (hw2.le.trans (min_le_right _ _))
        _ = ENNReal.ofReal v + ε := by rw [ENNReal.ofReal_add hv0.le hε'.le, ENNReal.ofReal_coe_nnreal]
    · rw [← hx, ← lawOf_Iic h0 hi]
      exact measure_mono fun z hz => hm hz
  rcases lt_or_ge u 0 with hu | hu
  · rw [show {x | ∫ t in Iic x, f t ≤ u} = ∅ from ?_, measure_empty, min_eq_left (by linarith), max_eq_left hu.le, ENNReal.ofReal_zero]
    ext x; simp only [mem_ofPred_eq, mem_empty_iff_false, iff_false, not_le]; linarith [hge x]
  rcases hu.eq_or_lt with rfl | hu0
  · rw [min_eq_left zero_le_one, max_self, ENNReal.ofReal_zero, ← nonpos_iff_eq_zero]
    apply ENNReal.le_of_forall_pos_le_add
    intro ε hε _
    have hε' : (0 : ℝ) < ε := hε
    obtain ⟨w, hw1, hw2⟩ : ∃ w, 0 < w ∧ w < min (1 : ℝ) ε := exists_between (lt_min one_pos hε')
    calc _ ≤ lawOf f {x | ∫ t in Iic x, f t ≤ w} := measure_mono fun z hz => le_trans hz hw1.le
      _ = ENNReal.ofReal w := inner w hw1 (hw2.trans_le (min_le_left _ _))
      _ ≤ ENNReal.ofReal ε := ENNReal.ofReal_le_ofReal (hw2.le.trans (min_le_right _ _))
      _ = 0 + ε := by rw [ENNReal.ofReal_coe_nnreal, zero_add]
  rcases lt_or_ge u 1 with hu1 | hu1
  · rw [min_eq_left hu1.le, max_eq_right hu0.le, inner u hu0 hu1]
  · rw [show {x | ∫ t in Iic x, f t ≤ u} = univ from ?_, measure_univ, min_eq_right hu1, max_eq_right zero_le_one, ENNReal.ofReal_one]
    ext x; simp only [mem_ofPred_eq, mem_univ, iff_true]; linarith [hle x]

theorem unif_Iic (u : ℝ) : unif (Iic u) = ENNReal.ofReal (max 0 (min u 1)) := by
  unfold unif
  have hI : Iic u ∩ Icc 0 1 = Icc 0 (min u 1) := by
    ext x; simp only [mem_inter_iff, mem_Iic, mem_Icc, le_min_iff]; tauto
  rw [Measure.restrict_apply measurableSet_Iic, hI, Real.volume_Icc]
  rcases le_total 0 (min u 1) with h | h
  · rw [max_eq_right h, sub_zero]
  · rw [max_eq_left h, sub_zero, ENNReal.ofReal_eq_zero.2 h, ENNReal.ofReal_zero]

theorem law_map {f : ℝ → ℝ} (h0 : ∀ x, 0 ≤ f x) (hi : Integrable f) (h1 : ∫ t, f t = 1) :
    (lawOf f).map (fun x => ∫ t in Iic x, f t) = unif := by
  have hP := lawOf_prob h0 hi h1
  have : IsFiniteMeasure unif := by unfold unif; infer_instance
  have hmeas : Measurable fun x => ∫ t in Iic x, f t := (primitive_continuous hi).measurable
  have := Measure.isFiniteMeasure_map (lawOf f) (fun x => ∫ t in Iic x, f t)
  apply Measure.ext_of_Iic
  intro u
  rw [Measure.map_apply hmeas measurableSet_Iic, unif_Iic, ← law_le h0 hi h1 u]
  rfl

/-! ## the PIT object -/

theorem npQuantile_ok (p : ℝ) (l : List ℝ) (hp : 0 ≤ p ∧ p ≤ 1) (hl : l ≠ []) : ∃ v, npQuantile p l = .ok v := by
  unfold npQuantile
  rw [if_neg (by push Not; exact hp)]
  have hpos := List.length_pos_iff.2 hl
  have hlen : (Np.sort l).length = l.length := by simp [Np.sort]
  have hpos' : (1 : ℝ) ≤ (l.length : ℝ) := by exact_mod_cast hpos
  have h1 : ⌊p * ((l.length : ℝ) - 1)⌋.toNat < (Np.sort l).length := by
    rw [hlen]
    have : p * ((l.length : ℝ) - 1) < (l.length : ℕ) := by nlinarith
    have h2 : 0 ≤ ⌊p * ((l.length : ℝ) - 1)⌋ := Int.floor_nonneg.2 (mul_nonneg hp.1 (by linarith))
    have h3 : ⌊p * ((l.length : ℝ) - 1)⌋ < (l.length : ℤ) := by rw [Int.floor_lt]; exact_mod_cast this
    omega
  have h2 : min (⌊p * ((l.length : ℝ) - 1)⌋.toNat + 1) (l.length - 1) < (Np.sort l).length := by rw [hlen]; omega
  simp only
  rw [List.getElem?_eq_getElem h1, List.getElem?_eq_getElem h2]
  exact ⟨_, rfl⟩

theorem mapM_ok {α β : Type} (f : α → Except Err β) (l : List α) (h : ∀ a ∈ l, ∃ b, f a = .ok b) : ∃ r, l.mapM f = .ok r := by
  induction l with
  | nil => exact ⟨[], rfl⟩
  | cons a l ih =>
    obtain ⟨b, hb⟩ := h a (by simp)
    obtain ⟨r, hr⟩ := ih fun x hx => h x (by simp [hx])
    exact ⟨b :: r, by rw [List.mapM_cons, hb, hr]; rfl⟩

/-- a PIT object is made for two or more objects, and holds the values of the distribution functions at the true values -/
theorem pit_made {n : ℕ} (h2 : 2 ≤ n) (cdfs : Fin n → ℝ → Option ℝ) (grid : List ℝ) (hg : ∀ p ∈ grid, 0 ≤ p ∧ p ≤ 1) (z : Fin n → ℝ) :
    (∃ out, pitInit (List.ofFn cdfs) (List.ofFn z) grid = .ok out) ∧ ∀ i, pitValue cdfs grid z i = (cdfs i (z i)).getD 0 := by
  have hn : (List.ofFn cdfs).length = (List.ofFn z).length := by simp
  have h2' : 2 ≤ (List.ofFn z).length := by simpa using h2
  have hne : List.zipWith (fun F z => (F z : Option ℝ).getD 0) (List.ofFn cdfs) (List.ofFn z) ≠ [] := by
    intro h; have := congrArg List.length h; simp at this; omega
  have hu := pitGrid_unit (List.ofFn z).length grid hg
  have hout : ∃ out, pitInit (List.ofFn cdfs) (List.ofFn z) grid = .ok out := by
    obtain ⟨q, hq⟩ := mapM_ok (fun p => npQuantile p (List.zipWith (fun F z => (F z : Option ℝ).getD 0) (List.ofFn cdfs) (List.ofFn z)))
      (pitGrid (List.ofFn z).length grid) fun p hp => npQuantile_ok p _ (hu p hp) hne
    refine ⟨(List.zipWith (fun F z => (F z : Option ℝ).getD 0) (List.ofFn cdfs) (List.ofFn z), pitEnsemble q (pitGrid (List.ofFn z).length grid)), ?_⟩
    simp only [pitInit, pitSamples_two _ _ hn h2', arrLen, Bind.bind, Except.bind, hq]
  refine ⟨hout, fun i => ?_⟩
  obtain ⟨⟨samps, qs, ls⟩, ho⟩ := hout
  obtain ⟨-, rfl, -⟩ := pitInit_ok hn ho
  unfold pitValue
  rw [ho]
  simp

/-- **C112.** Two or more objects, whose distribution functions are the integrals of their densities. If the true values are drawn independently
from these densities then a PIT object can be made for every draw, and its values are independent and uniform on the unit interval (whatever the
PDFs): the joint distribution is the product of uniform ones. -/
theorem C112_uniform {n : ℕ} (h2 : 2 ≤ n) (f : Fin n → ℝ → ℝ) (cdfs : Fin n → ℝ → Option ℝ) (h : ∀ i, Exact (f i) (cdfs i)) (grid : List ℝ)
    (hg : ∀ p ∈ grid, 0 ≤ p ∧ p ≤ 1) :
    (∀ z : Fin n → ℝ, ∃ out, pitInit (List.ofFn cdfs) (List.ofFn z) grid = .ok out) ∧
    (Measure.pi fun i => lawOf (f i)).map (pitValue cdfs grid) = Measure.pi fun _ => unif := by
  refine ⟨fun z => (pit_made h2 cdfs grid hg z).1, ?_⟩
  have hval : pitValue cdfs grid = fun z i => ∫ t in Iic (z i), f i t := by
    funext z i
    rw [(pit_made h2 cdfs grid hg z).2 i, (h i).cdf]; rfl
  rw [hval]
  have hP := fun i => lawOf_prob (h i).nonneg (h i).integrable (h i).one
  have hsf : ∀ i, SigmaFinite ((lawOf (f i)).map fun x => ∫ t in Iic x, f i t) := by
    intro i
    have := Measure.isFiniteMeasure_map (lawOf (f i)) (fun x => ∫ t in Iic x, f i t)
    infer_instance
  rw [Measure.pi_map_pi (μ := fun i => lawOf (f i)) (f := fun i x => ∫ t in Iic x, f i t)
    fun i => (primitive_continuous (h i).integrable).measurable.aemeasurable]
  congr 1
  funext i
  exact law_map (h i).nonneg (h i).integrable (h i).one

/-- **C112, approximate distribution functions.** If the distribution function of an object is off by no more than `ε` from the integral of the
density its true value is drawn from, then the probability that its PIT value is at most `u` is off by no more than `ε` from `u`. -/
theorem C112_approx {n : ℕ} (h2 : 2 ≤ n) (cdfs : Fin n → ℝ → Option ℝ) (grid : List ℝ) (hg : ∀ p ∈ grid, 0 ≤ p ∧ p ≤ 1) (i : Fin n) (f G : ℝ → ℝ)
    (h0 : ∀ x, 0 ≤ f x) (hi : Integrable f) (h1 : ∫ t, f t = 1) (hG : ∀ x, cdfs i x = some (G x)) (ε : ℝ)
    (hε : ∀ x, |G x - ∫ t in Iic x, f t| ≤ ε) (z : Fin n → ℝ) (u : ℝ) (hu0 : 0 ≤ u) (hu1 : u ≤ 1) :
    |(lawOf f {x | pitValue cdfs grid (Function.update z i x) i ≤ u}).toReal - u| ≤ ε := by
  have hP := lawOf_prob h0 hi h1
  have hset : {x | pitValue cdfs grid (Function.update z i x) i ≤ u} = {x | G x ≤ u} := by
    ext x
    simp only [mem_ofPred_eq]
    rw [(pit_made h2 cdfs grid hg _).2 i, Function.update_self, hG]; rfl
  rw [hset]
  have hεp : 0 ≤ ε := (abs_nonneg _).trans (hε 0)
  have hreal : ∀ v, (lawOf f {x | ∫ t in Iic x, f t ≤ v}).toReal = max 0 (min v 1) := by
    intro v
    rw [law_le h0 hi h1 v, ENNReal.toReal_ofReal (le_max_left _ _)]
  have hup : (lawOf f {x | G x ≤ u}).toReal ≤ u + ε := by
    have hsub : {x | G x ≤ u} ⊆ {x | ∫ t in Iic x, f t ≤ u + ε} := by
      intro x hx
      have := (abs_le.1 (hε x)).1
      simp only [mem_ofPred_eq] at *; linarith
    have := ENNReal.toReal_mono (measure_ne_top _ _) (measure_mono (μ := lawOf f) hsub)
    rw [hreal] at this
    exact this.trans (max_le (by linarith) (min_le_left _ _))
  have hlo : u - ε ≤ (lawOf f {x | G x ≤ u}).toReal := by
    have hsub : {x | ∫ t in Iic x, f t ≤ u - ε} ⊆ {x | G x ≤ u} := by
      intro x hx
      have := (abs_le.1 (hε x)).2
      simp only [mem_ofPred_eq] at *; linarith
    have := ENNReal.toReal_mono (measure_ne_top _ _) (measure_mono (μ := lawOf f) hsub)
    rw [hreal, min_eq_left (by linarith)] at this
    exact (le_max_right _ _).trans this
  rw [abs_le]; constructor <;> linarith

/-! ## the classes -/

open Verif.Spec Verif.Props.ConvertError Verif.Lemmas Verif.Lemmas.InterpPdf Verif.Props.Hist Verif.Props.InterpPdf Verif.Props.Bins Verif.Props.RealIntegral Verif.Props.Sampling Verif.Props.MixReal

/-- histograms as the class stores them: exact -/
theorem hist_exact (edges p : List ℝ) (hg : Grid edges p.length) (hu : Uniform edges ∨ DetectablyNonUniform edges) (h1 : totalMass edges p = 1)
    (hp : ∀ v ∈ p, 0 ≤ v) (f : ℝ → ℝ) (hf : ∀ x, histPdf edges p x = .ok (f x)) : Exact f (histCdf edges p) := by
  obtain ⟨hi, h2, hc⟩ := C08_lebesgue edges p hg hu h1 f hf
  exact ⟨hist_pdf_nonneg edges p hp f hf, hi, h2, hc⟩

/-- **C112** for histograms on common bins -/
theorem C112_hist {n : ℕ} (h2 : 2 ≤ n) (edges : List ℝ) (p : Fin n → List ℝ) (hg : ∀ i, Grid edges (p i).length)
    (hu : Uniform edges ∨ DetectablyNonUniform edges) (h1 : ∀ i, totalMass edges (p i) = 1) (hp : ∀ i, ∀ v ∈ p i, 0 ≤ v) (f : Fin n → ℝ → ℝ)
    (hf : ∀ i x, histPdf edges (p i) x = .ok (f i x)) (grid : List ℝ) (hgr : ∀ q ∈ grid, 0 ≤ q ∧ q ≤ 1) :
    (Measure.pi fun i => lawOf (f i)).map (pitValue (fun i => histCdf edges (p i)) grid) = Measure.pi fun _ => unif :=
  (C112_uniform h2 f _ (fun i => hist_exact edges (p i) (hg i) hu (h1 i) (hp i) (f i) (hf i)) grid hgr).2

/-- **C112** for Gaussian mixtures -/
theorem C112_mix {n : ℕ} (h2 : 2 ≤ n) (w μs σs : Fin n → List ℝ) (h : ∀ i, MixOK (w i) (μs i) (σs i)) (grid : List ℝ)
    (hgr : ∀ q ∈ grid, 0 ≤ q ∧ q ≤ 1) :
    (Measure.pi fun i => lawOf (gmixPdf (w i) (μs i) (σs i))).map (pitValue (fun i x => some (gmixCdf (w i) (μs i) (σs i) x)) grid)
      = Measure.pi fun _ => unif := by
  refine (C112_uniform h2 (fun i => gmixPdf (w i) (μs i) (σs i)) _ (fun i => ?_) grid hgr).2
  obtain ⟨h3, h4, h5, h6, -⟩ := C90_density _ _ _ (h i)
  exact ⟨fun x => (h3 x).le, h4, h5, fun x => by rw [h6 x]⟩

/-- the distribution function of an interpolated PDF is off from the integral of the density by no more than the probability of a cell -/
theorem interp_cdf_close (xs ys c : List ℝ) (h : Constructed xs ys c) (hy : ∀ v ∈ ys, 0 ≤ v) (f : ℝ → ℝ) (hf : ∀ x, interpPdf xs ys x = some (f x))
    (ε : ℝ) (hε : ∀ (j : ℕ) a b, xs[j]? = some a → xs[j + 1]? = some b → ∫ t in Ioc a b, f t ≤ ε) :
    (∀ x, 0 ≤ f x) ∧ Integrable f ∧ (∫ t, f t = 1) ∧ ∃ G : ℝ → ℝ, (∀ x, interpCdf xs c x = some (G x)) ∧ ∀ x, |G x - ∫ t in Iic x, f t| ≤ ε := by
  have hgrid := (C13_lebesgue xs ys c h f hf).1
  have hsh := C13_cdf_shape xs ys c h hy
  have hc0 := h
  obtain ⟨a, b, t, u, v, r, rfl, rfl, hl, hs, h1, -⟩ := constructed_facts hc0
  have hg : XGrid (a :: b :: t) (u :: v :: r).length := ⟨hs, by simp [hl], by simp⟩
  obtain ⟨-, -, hout, hpos⟩ := C15_pdf_through_points _ _ hg
  have h0 : ∀ x, 0 ≤ f x := by
    intro x
    obtain ⟨d, hd, hd0⟩ := hpos hy x
    rw [hf x] at hd
    rwa [Option.some.inj hd]
  obtain ⟨hi, harea⟩ := C12_lebesgue _ _ hg f hf
  have hone : ∫ t, f t = 1 := harea.trans h1
  refine ⟨h0, hi, hone, fun x => (interpCdf (a :: b :: t) c x).getD 0, fun x => ?_, ?_⟩
  · obtain ⟨p, q, hp, -⟩ := hsh.2.2 x x le_rfl
    simp only [hp, Option.getD_some]
  have hGm : ∀ x y, x ≤ y → 0 ≤ (interpCdf (a :: b :: t) c x).getD 0 ∧ (interpCdf (a :: b :: t) c x).getD 0 ≤ (interpCdf (a :: b :: t) c y).getD 0 ∧
      (interpCdf (a :: b :: t) c y).getD 0 ≤ 1 := by
    intro x y hxy
    obtain ⟨p, q, hp, hq, h3, h4, h5⟩ := hsh.2.2 x y hxy
    rw [hp, hq]; exact ⟨h3, h4, h5⟩
  have hFm := primitive_mono h0 hi
  have hF1 : ∀ x, ∫ t in Iic x, f t ≤ 1 := fun x => hFm.ge_of_tendsto (primitive_one hi hone) x
  have hF0 : ∀ x, 0 ≤ ∫ t in Iic x, f t := fun x => hFm.le_of_tendsto (primitive_zero hi) x
  have hcell : ∀ p q : ℝ, p ≤ q → ∫ t in Iic q, f t = (∫ t in Iic p, f t) + ∫ t in Ioc p q, f t := by
    intro p q hpq
    rw [← setIntegral_union (Iic_disjoint_Ioc le_rfl) measurableSet_Ioc hi.integrableOn hi.integrableOn, Iic_union_Ioc_eq_Iic hpq]
  have hab : a < b := (List.pairwise_cons.1 hs).1 b (by simp)
  have hε0 : 0 ≤ ε := (integral_nonneg h0).trans (hε 0 a b rfl rfl)
  have hknot : ∀ (i : ℕ) x, (b :: t)[i]? = some x → (interpCdf (a :: b :: t) c x).getD 0 = ∫ t in Iic x, f t := by
    intro i x hx
    rw [hgrid i x (by simpa using hx)]; rfl
  have hFa : ∫ t in Iic a, f t = 0 := by
    rw [integral_Iic_eq_integral_Iio]
    apply setIntegral_eq_zero_of_forall_eq_zero
    intro x hx
    have : f x = 0 := by
      have h3 := hout x (Or.inl fun e he => by
        rcases List.mem_cons.1 he with rfl | he
        · exact hx
        · exact lt_trans hx ((List.pairwise_cons.1 hs).1 e he))
      rw [hf x] at h3; exact Option.some.inj h3
    exact this
  intro x
  simp only
  rcases lt_or_ge x b with hxb | hbx
  · have h3 := hGm x b hxb.le
    have h4 := hFm hxb.le
    have h5 := hknot 0 b rfl
    have h6 := hcell a b hab.le
    have h7 := hε 0 a b rfl rfl
    have h8 := hF0 x
    simp only at h4
    rw [abs_le]; constructor <;> linarith [h3.1, h3.2.1]
  have hlast : (b :: t).getLast? = some ((b :: t).getLast (by simp)) := List.getLast?_eq_getLast_of_ne_nil (by simp)
  rcases lt_or_ge x ((b :: t).getLast (by simp)) with hxl | hlx
  · obtain ⟨j, p, q, hp, hq, hpx, hxq⟩ := bracket (b :: t) x b _ rfl hlast hbx hxl
    have h3 := hGm p x hpx
    have h4 := hGm x q hxq.le
    have h5 := hFm hpx
    have h6 := hFm hxq.le
    have h7 := hknot j p hp
    have h8 := hknot (j + 1) q hq
    have h9 := hcell p q (hpx.trans hxq.le)
    have h10 := hε (j + 1) p q (by simpa using hp) (by simpa using hq)
    simp only at h5 h6
    rw [abs_le]; constructor <;> linarith [h3.2.1, h4.2.1]
  · have h3 := hGm ((b :: t).getLast (by simp)) x hlx
    have h4 := hFm hlx
    have h5 : (interpCdf (a :: b :: t) c ((b :: t).getLast (by simp))).getD 0 = 1 := by
      rw [hsh.2.1 _ fun e he => ?_]
      · rfl
      · rcases List.mem_cons.1 he with rfl | he
        · exact ((List.pairwise_cons.1 hs).1 _ (List.getLast_mem _)).le
        · exact getLast_max (List.pairwise_cons.1 hs).2 (by simp) he
    obtain ⟨k, hk, hk'⟩ := List.getElem_of_mem (List.getLast_mem (l := b :: t) (by simp))
    have h6 := hknot k _ (by rw [List.getElem?_eq_getElem hk, hk'])
    have h7 := hF1 x
    simp only at h4
    rw [abs_le]; constructor <;> linarith [h3.2.1, h3.2.2]

/-- **C112 for interpolated PDFs.** Their distribution function is not the integral of the density between the grid points (C13), so that the PIT values
are not exactly uniform; the error is at most the largest probability between two neighbouring grid points. -/
theorem C112_interp_partial {n : ℕ} (h2 : 2 ≤ n) (xs : List ℝ) (ys c : Fin n → List ℝ) (h : ∀ i, Constructed xs (ys i) (c i))
    (hy : ∀ i, ∀ v ∈ ys i, 0 ≤ v) (f : Fin n → ℝ → ℝ) (hf : ∀ i x, interpPdf xs (ys i) x = some (f i x)) (grid : List ℝ)
    (hgr : ∀ q ∈ grid, 0 ≤ q ∧ q ≤ 1) (ε : ℝ)
    (hε : ∀ i (j : ℕ) a b, xs[j]? = some a → xs[j + 1]? = some b → ∫ t in Ioc a b, f i t ≤ ε) (i : Fin n) (z : Fin n → ℝ) (u : ℝ) (hu0 : 0 ≤ u)
    (hu1 : u ≤ 1) :
    |(lawOf (f i) {x | pitValue (fun i => interpCdf xs (c i)) grid (Function.update z i x) i ≤ u}).toReal - u| ≤ ε := by
  obtain ⟨h0, hi, h1, G, hG, hclose⟩ := interp_cdf_close xs (ys i) (c i) (h i) (hy i) (f i) (hf i) ε (hε i)
  exact C112_approx h2 _ grid hgr i (f i) G h0 hi h1 hG ε hclose z u hu0 hu1

/-- **C112 is violated by interpolated PDFs**: two objects with the triangular density given at 0, 1 and 2. True values drawn from it have a PIT value of at
most 3/4 with a probability of 7/8 or more. -/
theorem C112_interp_not_uniform : ∃ (xs ys c : List ℝ) (f : ℝ → ℝ), Constructed xs ys c ∧ (∀ x, interpPdf xs ys x = some (f x)) ∧
    ∀ (z : Fin 2 → ℝ) (grid : List ℝ), (∀ q ∈ grid, 0 ≤ q ∧ q ≤ 1) → ∀ i,
      ENNReal.ofReal (7 / 8) ≤ lawOf f {x | pitValue (fun _ => interpCdf xs c) grid (Function.update z i x) i ≤ 3 / 4} := by
  have hc : Constructed ([0, 1, 2] : List ℝ) [0, 1, 0] [0, 1/2, 1] :=
    ⟨[0, 1, 0], ⟨by norm_num, rfl, by simp⟩, by norm_num [interpNormRow, interpCumul, cumsum, cumsumFrom, trapezoids]⟩
  have hg : XGrid ([0, 1, 2] : List ℝ) ([0, 1, 0] : List ℝ).length := ⟨by norm_num, rfl, by simp⟩
  have hy : ∀ v ∈ ([0, 1, 0] : List ℝ), 0 ≤ v := by simp
  have hpos := (C15_pdf_through_points _ _ hg).2.2.2 hy
  have hf : ∀ x, interpPdf ([0, 1, 2] : List ℝ) [0, 1, 0] x = some ((interpPdf ([0, 1, 2] : List ℝ) [0, 1, 0] x).getD 0) := by
    intro x
    obtain ⟨d, hd, -⟩ := hpos x
    rw [hd]; rfl
  have h0 : ∀ x, 0 ≤ (interpPdf ([0, 1, 2] : List ℝ) [0, 1, 0] x).getD 0 := by
    intro x
    obtain ⟨d, hd, hd0⟩ := hpos x
    rw [hd]; exact hd0
  have hi := (C12_lebesgue _ _ hg _ hf).1
  have hmid := (C13_lebesgue _ _ _ hc _ hf).2 0 1 2 1 0 (3/2) rfl rfl rfl rfl (by norm_num) (by norm_num)
  have hval : interpCdf ([0, 1, 2] : List ℝ) [0, 1/2, 1] (3/2) = some (3/4) := by
    norm_num [interpCdf, Np.interp, Np.npInterpGo, Np.line]
  refine ⟨[0, 1, 2], [0, 1, 0], [0, 1/2, 1], _, hc, hf, fun z grid hgr i => ?_⟩
  have h78 : ∫ t in Iic (3/2 : ℝ), (interpPdf ([0, 1, 2] : List ℝ) [0, 1, 0] t).getD 0 = 7 / 8 := by
    rw [hval] at hmid
    have := Option.some.inj hmid
    norm_num at this ⊢
    linarith
  rw [← h78, ← lawOf_Iic h0 hi]
  apply measure_mono
  intro x hx
  simp only [mem_ofPred_eq]
  rw [(pit_made (le_refl 2) _ grid hgr _).2 i, Function.update_self]
  obtain ⟨p, q, hp, hq, -, hpq, -⟩ := (C13_cdf_shape _ _ _ hc hy).2.2 x (3/2) hx
  rw [hval] at hq
  rw [hp, Option.getD_some]
  rw [← Option.some.inj hq] at hpq
  exact hpq

/-! ## cases -/

/-- two histograms on the bins with edges 0, 1, 2 -/
example (f : Fin 2 → ℝ → ℝ) (hf : ∀ i x, histPdf [0, 1, 2] ((![[1/4, 3/4], [1/2, 1/2]] : Fin 2 → List ℝ) i) x = .ok (f i x)) :=
  C112_hist (le_refl 2) [0, 1, 2] ![[1/4, 3/4], [1/2, 1/2]] (by intro i; fin_cases i <;> exact ⟨by simp, rfl, by simp⟩)
    (Or.inl ⟨1, by
      intro i u v hu hv
      match i with
      | 0 => simp at hu hv; subst hu hv; norm_num
      | 1 => simp at hu hv; subst hu hv; norm_num
      | i + 2 => simp at hv⟩)
    (by intro i; fin_cases i <;> norm_num [totalMass]) (by intro i; fin_cases i <;> norm_num) f hf [0, 1/2, 1] (by norm_num)

/-- two Gaussian mixtures -/
example := C112_mix (le_refl 2) ![[1/4, 3/4], [1/4, 3/4]] ![[-1, 2], [-1, 2]] ![[1, 1/2], [1, 1/2]]
  (by intro i; fin_cases i <;> exact ⟨rfl, rfl, by norm_num, by norm_num, by norm_num⟩) [0, 1/2, 1] (by norm_num)

/-- the triangular density on a grid of two cells, each of probability 1/2 -/
example (f : Fin 2 → ℝ → ℝ) (hf : ∀ i x, interpPdf ([0, 1, 2] : List ℝ) [0, 1, 0] x = some (f i x)) :=
  C112_interp_partial (le_refl 2) [0, 1, 2] (fun _ => [0, 1, 0]) (fun _ => [0, 1/2, 1])
    (fun _ => ⟨[0, 1, 0], ⟨by norm_num, rfl, by simp⟩, by norm_num [interpNormRow, interpCumul, cumsum, cumsumFrom, trapezoids]⟩) (by simp) f hf

end Verif.Props.Metrics
