import Verif.Props.LargeSamples
import Verif.Props.MetricClose
import Verif.Props.Stability

/-!
# C152: the KS statistic of the PIT tells calibrated catalogues from the others

For a growing catalogue: what the KS and CvM statistics of the PIT approach when the PIT values follow any common law; the KS limit is zero exactly when that
law is uniform; and correct PDFs which were stored with distribution functions off by at most `δ` end at a KS statistic of at most `δ`.
-/

set_option linter.unusedSectionVars false
set_option autoImplicit false

namespace Verif.Props.PitDetects

open Verif Verif.Np Verif.Model Verif.Spec Verif.Lemmas Verif.Props Verif.Props.Metrics Verif.Props.LargeSamples Verif.Props.MetricClose
open Verif.Lemmas.Hist Verif.Props.Hist Verif.Props.Bins
open MeasureTheory Filter Set
open scoped Topology

/-- the distribution function of the uniform law -/
theorem unif_cdf (x : ℝ) : unif.real (Iic x) = uniformCdf x := by
  rw [measureReal_def, unif_Iic, ENNReal.toReal_ofReal (le_max_left _ _), uniformCdf, min_comm]

/-- the largest distance from the uniform distribution function is zero for the uniform law only -/
theorem lub_zero_iff (ν : Measure ℝ) [IsProbabilityMeasure ν] (D : ℝ) (hD : IsLUB (range fun t => |ν.real (Iic t) - uniformCdf t|) D) : D = 0 ↔ ν = unif := by
  have hpu := unif_prob
  constructor
  · rintro rfl
    refine Measure.ext_of_Iic ν unif fun t => ?_
    have h0 : ν.real (Iic t) - uniformCdf t = 0 := abs_eq_zero.1 (le_antisymm (hD.1 ⟨t, rfl⟩) (abs_nonneg _))
    have h1 : ν.real (Iic t) = unif.real (Iic t) := by rw [unif_cdf]; linarith
    exact (measureReal_eq_measureReal_iff).1 h1
  · rintro rfl
    have : IsLUB (range fun t => |unif.real (Iic t) - uniformCdf t|) 0 := by simp only [unif_cdf]; exact lub_self _
    exact hD.unique this

/-- every law has a largest distance, which is between zero and one -/
theorem lub_exists (ν : Measure ℝ) [IsProbabilityMeasure ν] : ∃ D, IsLUB (range fun t => |ν.real (Iic t) - uniformCdf t|) D ∧ 0 ≤ D ∧ D ≤ 1 := by
  have hb : ∀ t, |ν.real (Iic t) - uniformCdf t| ≤ 1 := fun t => by
    have h1 : 0 ≤ ν.real (Iic t) := measureReal_nonneg
    have h2 : ν.real (Iic t) ≤ 1 := measureReal_le_one
    have h3 := uniform_isCdf.nonneg t
    have h4 := uniform_isCdf.le_one t
    rw [abs_le]; constructor <;> linarith
  obtain ⟨D, hD⟩ := Real.exists_isLUB (s := range fun t => |ν.real (Iic t) - uniformCdf t|) ⟨_, 0, rfl⟩ ⟨1, by rintro _ ⟨t, rfl⟩; exact hb t⟩
  refine ⟨D, hD, (abs_nonneg _).trans (hD.1 ⟨0, rfl⟩), hD.2 (by rintro _ ⟨t, rfl⟩; exact hb t)⟩

section
variable {Ω : Type} [MeasurableSpace Ω] {μ : Measure Ω} [IsProbabilityMeasure μ]

/-- the PIT of the first objects is made, its samples are the PIT values, and it has both statistics -/
theorem pit_first (F : ℕ → ℝ → ℝ) (z : ℕ → ℝ) (grid : List ℝ) (hg01 : ∀ p ∈ grid, 0 ≤ p ∧ p ≤ 1) (n : ℕ) (hn : 2 ≤ n) :
    ∃ (q l : List ℝ) (d w : ℝ), pitInit ((List.range n).map fun i x => some (F i x)) ((List.range n).map z) grid =
        .ok ((List.range n).map fun i => F i (z i), q, l) ∧
      pitKs ((List.range n).map fun i => F i (z i)) = .ok d ∧ pitCvm ((List.range n).map fun i => F i (z i)) = .ok w := by
  obtain ⟨q, l, d, w, h1, h2, h3⟩ := pit_ok ((List.range n).map fun i x => some (F i x)) ((List.range n).map z) grid (by simp) (by simpa using hn) hg01
  have e : List.zipWith (fun F z => (F z : Option ℝ).getD 0) ((List.range n).map fun i x => some (F i x)) ((List.range n).map z) =
      (List.range n).map fun i => F i (z i) := by
    apply List.ext_getElem <;> simp
  rw [e] at h1 h2 h3
  exact ⟨q, l, d, w, h1, h2, h3⟩

/-- **C152, limits.** A growing catalogue with distribution functions `F i` and independent true values `Z i` whose PIT values `F i (Z i)` follow a common law `ν`.
The PIT of the first `n` objects is made; its KS statistic approaches the largest distance of `ν` from the uniform law, which is zero exactly when `ν` is
uniform; if no value has a positive probability its CvM statistic per object approaches the mean square of that distance. -/
theorem C152_limits (F : ℕ → ℝ → ℝ) (hF : ∀ i, Measurable (F i)) (grid : List ℝ) (hg01 : ∀ p ∈ grid, 0 ≤ p ∧ p ≤ 1) (Z : ℕ → Ω → ℝ)
    (hm : ∀ i, AEMeasurable (Z i) μ) (hind : ∀ i j, i ≠ j → ProbabilityTheory.IndepFun (Z i) (Z j) μ) (ν : Measure ℝ)
    (hν : ∀ i, μ.map (fun ω => F i (Z i ω)) = ν) :
    ∃ D, IsLUB (range fun t => |ν.real (Iic t) - max 0 (min t 1)|) D ∧ (D = 0 ↔ ν = volume.restrict (Icc 0 1)) ∧
      ∀ᵐ ω ∂μ, ∃ (s q l : ℕ → List ℝ) (d w : ℕ → ℝ),
        (∀ n, 2 ≤ n → pitInit ((List.range n).map fun i x => some (F i x)) ((List.range n).map fun i => Z i ω) grid = .ok (s n, q n, l n) ∧
          pitKs (s n) = .ok (d n) ∧ pitCvm (s n) = .ok (w n)) ∧
        Tendsto d atTop (𝓝 D) ∧
        ((∀ x, ν {x} = 0) → Tendsto (fun n => w n / n) atTop (𝓝 (∫ x, (ν.real (Iic x) - max 0 (min x 1)) ^ 2 ∂ν))) := by
  let X : ℕ → Ω → ℝ := fun i ω => F i (Z i ω)
  have hX : Draws μ ν X := ⟨fun i => (hF i).comp_aemeasurable (hm i), fun i j hij => (hind i j hij).comp (hF i) (hF j), hν⟩
  have hp := hX.prob
  have hu : ∀ t : ℝ, max 0 (min t 1) = uniformCdf t := fun t => by rw [uniformCdf, min_comm]
  simp only [hu]
  obtain ⟨D, hD, -, -⟩ := lub_exists ν
  refine ⟨D, hD, lub_zero_iff ν D hD, ?_⟩
  have hcvm : ∀ᵐ ω ∂μ, (∀ x, ν {x} = 0) → ∀ w : ℕ → ℝ, (∀ᶠ n in atTop, cvmStat uniformCdf (firstOf X n ω) = .ok (w n)) →
      Tendsto (fun n => w n / n) atTop (𝓝 (∫ x, (ν.real (Iic x) - uniformCdf x) ^ 2 ∂ν)) := by
    by_cases hna : ∀ x, ν {x} = 0
    · filter_upwards [cvm_limit hX hna uniformCdf uniform_isCdf] with ω h _h
      exact h
    · exact Eventually.of_forall fun ω h => absurd h hna
  filter_upwards [ks_limit hX uniformCdf ⟨uniform_isCdf, uniform_noJump⟩ D hD, hcvm] with ω h1 h2
  have hex : ∀ n : ℕ, ∃ (q l : List ℝ) (d w : ℝ), 2 ≤ n →
      pitInit ((List.range n).map fun i x => some (F i x)) ((List.range n).map fun i => Z i ω) grid = .ok (firstOf X n ω, q, l) ∧
      pitKs (firstOf X n ω) = .ok d ∧ pitCvm (firstOf X n ω) = .ok w := by
    intro n
    by_cases hn : 2 ≤ n
    · obtain ⟨q, l, d, w, h⟩ := pit_first F (fun i => Z i ω) grid hg01 n hn
      exact ⟨q, l, d, w, fun _ => h⟩
    · exact ⟨[], [], 0, 0, fun h => absurd h hn⟩
  choose q l d w hall using hex
  refine ⟨fun n => firstOf X n ω, q, l, d, w, hall, h1 d (eventually_atTop.2 ⟨2, fun n hn => (hall n hn).2.1⟩), fun hna => ?_⟩
  refine h2 hna w (eventually_atTop.2 ⟨2, fun n hn => ?_⟩)
  have := (hall n hn).2.2
  unfold pitCvm at this
  rwa [if_neg (by simp; omega)] at this

/-- **C152, stored PDFs.** The true values are drawn independently from the densities `f i`, and the catalogue holds distribution functions `cdfs' i` which are off
by at most `δ` everywhere. The PIT of the first `n` objects is made, its KS statistic is from some number of objects on at most `δ + ε`, whatever `ε > 0`,
and its CvM statistic per object at most `2 δ + ε`. -/
theorem C152_stored (f : ℕ → ℝ → ℝ) (cdfs cdfs' : ℕ → ℝ → Option ℝ) (h : ∀ i, Exact (f i) (cdfs i)) (δ : ℝ)
    (hc : ∀ i x, ∃ v v', cdfs i x = some v ∧ cdfs' i x = some v' ∧ |v' - v| ≤ δ) (grid : List ℝ) (hg : grid.Pairwise (· < ·))
    (hg01 : ∀ p ∈ grid, 0 ≤ p ∧ p ≤ 1) (Z : ℕ → Ω → ℝ) (hm : ∀ i, AEMeasurable (Z i) μ) (hind : ∀ i j, i ≠ j → ProbabilityTheory.IndepFun (Z i) (Z j) μ)
    (hlaw : ∀ i, μ.map (Z i) = lawOf (f i)) :
    ∀ᵐ ω ∂μ, ∀ ε > 0, ∃ N, ∀ n ≥ N, ∃ (s q l : List ℝ) (d w : ℝ),
      pitInit ((List.range n).map cdfs') ((List.range n).map fun i => Z i ω) grid = .ok (s, q, l) ∧
      pitKs s = .ok d ∧ d ≤ δ + ε ∧ pitCvm s = .ok w ∧ w / n ≤ 2 * δ + ε := by
  filter_upwards [C137_pit f cdfs h grid hg hg01 Z hm hind hlaw] with ω hω ε hε
  obtain ⟨s, q, l, d, w, hall, hd, hw, -⟩ := hω
  obtain ⟨N1, hN1⟩ := eventually_atTop.1 (hd.eventually (gt_mem_nhds hε))
  obtain ⟨N2, hN2⟩ := eventually_atTop.1 (hw.eventually (gt_mem_nhds hε))
  refine ⟨max 2 (max N1 N2), fun n hn => ?_⟩
  simp only [ge_iff_le, max_le_iff] at hn
  obtain ⟨a1, a2, a3⟩ := hall n hn.1
  obtain ⟨s0, s', q0, q', l0, l', d0, d', w0, w', b1, b2, -, b3, b4, b5, b6, b7, b8, -⟩ :=
    C150_pit ((List.range n).map cdfs) ((List.range n).map cdfs') ((List.range n).map fun i => Z i ω) grid (by simp) (by simp) (by simpa using hn.1) hg01 δ (by
      intro i F F' z h1 h2 h3
      simp only [List.getElem?_map, Option.map_eq_some_iff] at h1 h2 h3
      obtain ⟨a, ha, rfl⟩ := h1
      obtain ⟨b, hb, rfl⟩ := h2
      obtain ⟨c, hc', rfl⟩ := h3
      obtain rfl : a = b := Option.some.inj (ha.symm.trans hb)
      obtain rfl : a = c := Option.some.inj (ha.symm.trans hc')
      exact hc a _)
  rw [a1] at b1
  obtain ⟨rfl, -⟩ := Prod.mk.inj (Except.ok.inj b1)
  rw [a2] at b3
  rw [a3] at b6
  obtain rfl := Except.ok.inj b3
  obtain rfl := Except.ok.inj b6
  have c1 := hN1 n hn.2.1
  have c2 := hN2 n hn.2.2
  have hn0 : (0 : ℝ) < n := by have := hn.1; exact_mod_cast (by omega : 0 < n)
  refine ⟨s', q', l', d', w', b2, b4, ?_, b7, ?_⟩
  · have := (abs_le.1 b5).2; linarith
  · have h8 := (abs_le.1 b8).2
    simp only [List.length_map, List.length_range] at h8
    rw [div_lt_iff₀ hn0] at c2
    rw [div_le_iff₀ hn0]
    nlinarith

/-- **C152, histograms.** The correct PDFs are histograms on common edges (equal, or visibly unequal, bins) with contents `rows i`; the catalogue was made of contents `rows' i` which
differ by a relative rounding of at most `ε < 1`. Both constructors normalise. From some number of objects on, the KS statistic of the PIT of the stored catalogue is at most
`ε / (2 (1 - ε)) + η`, whatever `η > 0`. -/
theorem C152_hist_rounded (edges : List ℝ) (hu : Uniform edges ∨ DetectablyNonUniform edges) (rows rows' ps : ℕ → List ℝ) (hgr : ∀ i, Grid edges (rows i).length)
    (hp : ∀ i, histNormRow edges (rows i) = some (ps i)) (hpos : ∀ i, ∀ v ∈ rows i, 0 ≤ v) (ε : ℝ) (h0 : 0 ≤ ε) (h1 : ε < 1)
    (hn : ∀ i, List.Forall₂ (fun v v' => |v' - v| ≤ ε * v) (rows i) (rows' i)) (f : ℕ → ℝ → ℝ) (hf : ∀ i x, histPdf edges (ps i) x = .ok (f i x))
    (grid : List ℝ) (hg : grid.Pairwise (· < ·)) (hg01 : ∀ p ∈ grid, 0 ≤ p ∧ p ≤ 1) (Z : ℕ → Ω → ℝ) (hm : ∀ i, AEMeasurable (Z i) μ)
    (hind : ∀ i j, i ≠ j → ProbabilityTheory.IndepFun (Z i) (Z j) μ) (hlaw : ∀ i, μ.map (Z i) = lawOf (f i)) :
    ∃ ps' : ℕ → List ℝ, (∀ i, histNormRow edges (rows' i) = some (ps' i)) ∧
      ∀ᵐ ω ∂μ, ∀ η > 0, ∃ N, ∀ n ≥ N, ∃ (s q l : List ℝ) (d : ℝ),
        pitInit ((List.range n).map fun i => histCdf edges (ps' i)) ((List.range n).map fun i => Z i ω) grid = .ok (s, q, l) ∧
        pitKs s = .ok d ∧ d ≤ ε / (2 * (1 - ε)) + η := by
  have hex := fun i => Stability.C133_hist (hgr i) (hp i) (hpos i) (hn i) h0 h1
  choose ps' e1 _e2 e3 _e4 using hex
  refine ⟨ps', e1, ?_⟩
  have hE : ∀ i, Exact (f i) (histCdf edges (ps i)) := by
    intro i
    have hmass : totalMass edges (rows i) ≠ 0 := fun h => by
      have := (C07_row_normalised edges (rows i)).1 h
      rw [hp i] at this; cases this
    obtain ⟨p, a1, a2, a3, a4⟩ := (C07_row_normalised edges (rows i)).2 hmass
    rw [hp i] at a1
    cases a1
    exact hist_exact edges (ps i) (by rw [a3, List.length_map]; exact hgr i) hu a2 (a4 (hgr i).strict (hpos i)) (f i) (hf i)
  filter_upwards [C152_stored f _ (fun i => histCdf edges (ps' i)) hE _ e3 grid hg hg01 Z hm hind hlaw] with ω hω η hη
  obtain ⟨N, hN⟩ := hω η hη
  refine ⟨N, fun n hn' => ?_⟩
  obtain ⟨s, q, l, d, w, b1, b2, b3, -⟩ := hN n hn'
  exact ⟨s, q, l, d, b1, b2, b3⟩

end

/-! ## instance: the catalogue says uniform on `[0, 1]`, the true values have the density `2 x` -/

/-- the PIT value of the true value made of the random number `x` -/
noncomputable def rootPit (x : ℝ) : ℝ := max 0 (min (√x) 1)

theorem rootPit_measurable : Measurable rootPit := by unfold rootPit; fun_prop

theorem rootPit_cdf (t : ℝ) : (unif.map rootPit).real (Iic t) = if t < 0 then 0 else min 1 (t ^ 2) := by
  have hpu := unif_prob
  rw [map_measureReal_apply rootPit_measurable measurableSet_Iic]
  by_cases h0 : t < 0
  · have : rootPit ⁻¹' Iic t = ∅ := by
      ext x
      simp only [mem_preimage, mem_Iic, mem_empty_iff_false, iff_false, not_le]
      exact lt_of_lt_of_le h0 (le_max_left _ _)
    rw [this, if_pos h0]; simp
  · rw [if_neg h0]
    push Not at h0
    rcases le_or_gt 1 t with h1 | h1
    · have : rootPit ⁻¹' Iic t = univ := by
        ext x
        simp only [mem_preimage, mem_Iic, mem_univ, iff_true]
        exact max_le h0 ((min_le_right _ _).trans h1)
      rw [this, min_eq_left (by nlinarith)]; simp
    · have : rootPit ⁻¹' Iic t = Iic (t ^ 2) := by
        ext x
        simp only [mem_preimage, mem_Iic, rootPit, max_le_iff, min_le_iff, h0, true_and, not_le.2 h1, or_false]
        exact Real.sqrt_le_left h0
      rw [this, unif_cdf, uniformCdf, max_eq_right]
      exact le_min zero_le_one (by positivity)

theorem rootPit_lub : IsLUB (range fun t => |(unif.map rootPit).real (Iic t) - max 0 (min t 1)|) (1 / 4) := by
  simp only [rootPit_cdf]
  constructor
  · rintro _ ⟨t, rfl⟩
    simp only
    by_cases h0 : t < 0
    · rw [if_pos h0, min_eq_left (by linarith), max_eq_left h0.le]; norm_num
    · rw [if_neg h0]
      push Not at h0
      rcases le_or_gt 1 t with h1 | h1
      · rw [min_eq_left (by nlinarith), min_eq_right h1]; norm_num
      · rw [min_eq_right (by nlinarith), min_eq_left h1.le, max_eq_right h0, abs_le]
        constructor <;> nlinarith [sq_nonneg (t - 1 / 2)]
  · intro b hb
    have := hb ⟨1 / 2, rfl⟩
    norm_num at this
    convert this using 1

/-- **C152, instance**: there is such a catalogue, and its KS statistic approaches 1/4. -/
theorem C152_instance : ∃ (μ : Measure (ℕ × ℕ → ℝ)) (_ : IsProbabilityMeasure μ) (Z : ℕ → (ℕ × ℕ → ℝ) → ℝ), (∀ i j, i ≠ j → ProbabilityTheory.IndepFun (Z i) (Z j) μ) ∧
    (∀ i t, 0 ≤ t → t ≤ 1 → μ.real {ω | Z i ω ≤ t} = t ^ 2) ∧
    ∀ᵐ ω ∂μ, ∃ (s q l : ℕ → List ℝ) (d : ℕ → ℝ), (∀ n, 2 ≤ n →
      pitInit ((List.range n).map fun _ x => some (max 0 (min x 1))) ((List.range n).map fun i => Z i ω) [0, 1 / 2, 1] = .ok (s n, q n, l n) ∧
      pitKs (s n) = .ok (d n)) ∧ Tendsto d atTop (𝓝 (1 / 4)) := by
  obtain ⟨μ, hμ, U, hU⟩ := draws_exist
  have hF : Measurable fun x : ℝ => max 0 (min x 1) := by fun_prop
  have hs : Measurable fun x : ℝ => √x := by fun_prop
  have hlaw : ∀ i, μ.map (fun ω => max 0 (min (√(U 0 i ω)) 1)) = unif.map rootPit := fun i => by
    rw [← (hU 0).law i, AEMeasurable.map_map_of_aemeasurable rootPit_measurable.aemeasurable ((hU 0).meas i)]
    rfl
  refine ⟨μ, hμ, fun i ω => √(U 0 i ω), fun i j hij => ((hU 0).indep i j hij).comp hs hs, fun i t h0 h1 => ?_, ?_⟩
  · have e : {ω | √(U 0 i ω) ≤ t} = U 0 i ⁻¹' Iic (t ^ 2) := by
      ext ω
      simp only [mem_ofPred_eq, mem_preimage, mem_Iic]
      exact Real.sqrt_le_left h0
    rw [e, ← map_measureReal_apply_of_aemeasurable ((hU 0).meas i) measurableSet_Iic, (hU 0).law i, unif_cdf, uniformCdf, min_eq_right (by nlinarith), max_eq_right (by positivity)]
  · obtain ⟨D, hD, -, h⟩ := C152_limits (μ := μ) (fun _ x => max 0 (min x 1)) (fun _ => hF) [0, 1 / 2, 1] (by
      intro p hp
      simp only [List.mem_cons, List.not_mem_nil, or_false] at hp
      rcases hp with rfl | rfl | rfl <;> norm_num) (fun i ω => √(U 0 i ω)) (fun i => hs.comp_aemeasurable ((hU 0).meas i))
      (fun i j hij => ((hU 0).indep i j hij).comp hs hs) (unif.map rootPit) hlaw
    obtain rfl := hD.unique rootPit_lub
    filter_upwards [h] with ω hω
    obtain ⟨s, q, l, d, w, hall, hd, -⟩ := hω
    exact ⟨s, q, l, d, fun n hn => ⟨(hall n hn).1, (hall n hn).2.1⟩, hd⟩

/-- a catalogue of histograms with contents 1 and 3, stored as 1.1 and 2.8: at most 1/18 + 0.01 -/
example (f : ℕ → ℝ → ℝ) (hf : ∀ i x, histPdf [0, 1, 2] [1 / 4, 3 / 4] x = .ok (f i x)) {Ω : Type} [MeasurableSpace Ω] (μ : Measure Ω) [IsProbabilityMeasure μ] (Z : ℕ → Ω → ℝ)
    (hm : ∀ i, AEMeasurable (Z i) μ) (hind : ∀ i j, i ≠ j → ProbabilityTheory.IndepFun (Z i) (Z j) μ) (hlaw : ∀ i, μ.map (Z i) = lawOf (f i)) :
    ∃ ps' : ℕ → List ℝ, (∀ i, histNormRow [0, 1, 2] [1.1, 2.8] = some (ps' i)) ∧
      ∀ᵐ ω ∂μ, ∃ N, ∀ n ≥ N, ∃ (s q l : List ℝ) (d : ℝ),
        pitInit ((List.range n).map fun i => histCdf [0, 1, 2] (ps' i)) ((List.range n).map fun i => Z i ω) [0, 1 / 2, 1] = .ok (s, q, l) ∧
        pitKs s = .ok d ∧ d ≤ 1 / 18 + 0.01 := by
  obtain ⟨ps', h1, h2⟩ := C152_hist_rounded (μ := μ) [0, 1, 2] (Or.inl ⟨1, by
    intro i u v hu hv
    match i with
    | 0 => simp at hu hv; subst hu hv; norm_num
    | 1 => simp at hu hv; subst hu hv; norm_num
    | i + 2 => simp at hv⟩) (fun _ => [1, 3]) (fun _ => [1.1, 2.8]) (fun _ => [1 / 4, 3 / 4]) (fun _ => ⟨by simp, rfl, by simp⟩) (fun _ => by
      obtain ⟨p, a1, -, a3, -⟩ := (C07_row_normalised [(0 : ℝ), 1, 2] [1, 3]).2 (by norm_num [totalMass])
      rw [a1, a3]; norm_num [totalMass]) (fun _ => by norm_num) (1 / 10) (by norm_num) (by norm_num)
    (fun _ => by simp only [List.forall₂_cons, List.Forall₂.nil, and_true]; constructor <;> (rw [abs_le]; constructor <;> norm_num))
    f hf [0, 1 / 2, 1] (by norm_num) (by norm_num) Z hm hind hlaw
  refine ⟨ps', h1, ?_⟩
  filter_upwards [h2] with ω hω
  obtain ⟨N, hN⟩ := hω 0.01 (by norm_num)
  refine ⟨N, fun n hn => ?_⟩
  obtain ⟨s, q, l, d, b1, b2, b3⟩ := hN n hn
  exact ⟨s, q, l, d, b1, b2, b3.trans (by norm_num)⟩

end Verif.Props.PitDetects
