import Verif.Props.MetricClose
import Verif.Props.FineConvert

/-!
# C150: PIT statistics of finer and finer histograms
-/

set_option linter.unusedSectionVars false
set_option autoImplicit false

namespace Verif.Props.PitFine

open Verif Verif.Np Verif.Model Verif.Spec Verif.Lemmas Verif.Props.Metrics Verif.Props.FineGrid Verif.Props.FineConvert Verif.Props.MetricClose Verif.Props.Bins Verif.Props.ConvertError Filter

/-- finitely many continuous functions: bins small enough hold little mass of each -/
theorem small_bins {a b : ℝ} (n : ℕ) (F : ℕ → ℝ → ℝ) (hF : ∀ i, Continuous (F i)) (ε : ℝ) (hε : 0 < ε) :
    ∃ δ > 0, ∀ i < n, ∀ u v, a ≤ u → v ≤ b → u ≤ v → v - u < δ → F i v - F i u ≤ ε := by
  induction n with
  | zero => exact ⟨1, one_pos, fun i hi => absurd hi (by omega)⟩
  | succ n ih =>
    obtain ⟨δ, hδ, h⟩ := ih
    have huc := (isCompact_Icc (a := a) (b := b)).uniformContinuousOn_of_continuous (hF n).continuousOn
    obtain ⟨δ', hδ', hd⟩ := Metric.uniformContinuousOn_iff.1 huc ε hε
    refine ⟨min δ δ', lt_min hδ hδ', ?_⟩
    intro i hi u v hu hv huv hs
    rcases Nat.lt_succ_iff_lt_or_eq.1 hi with hi | rfl
    · exact h i hi u v hu hv huv (hs.trans_le (min_le_left _ _))
    · have := hd v ⟨hu.trans huv, hv⟩ u ⟨hu, huv.trans hv⟩ (by rw [Real.dist_eq, abs_of_nonneg (by linarith)]; exact hs.trans_le (min_le_right _ _))
      rw [Real.dist_eq] at this
      exact (le_abs_self _).trans this.le

/-- **C150, finer and finer histograms.** An ensemble of any class with continuous distribution functions `F i`, whose mass lies between `a` and `b`. For every tolerance, all conversions to
histograms with enough equal bins give the PIT values, their quantiles, the Kolmogorov-Smirnov and the Cramer-von Mises statistics of the original, up to the tolerance. -/
theorem C150_hist_fine (ev : Evals ℝ) (e : Ens ℝ) (F : ℕ → ℝ → ℝ) (a b : ℝ) (h : a < b) (k : Known ev e F a b)
    (hF0 : ∀ i, F i a = 0) (hF1 : ∀ i, F i b = 1) (hc : ∀ i, Continuous (F i))
    (zs grid : List ℝ) (hz : zs.length = e.frozen.shape.prod) (hz2 : 2 ≤ zs.length) (hg : ∀ p ∈ grid, 0 ≤ p ∧ p ≤ 1) (ε : ℝ) (hε : 0 < ε) :
    ∃ m0, ∀ m ≥ m0, ∃ e', convertTo (histPy ev) e none [("bins", .arr (vec (linspace a b (m + 2))))] = .ok e' ∧
      ∃ s s' q q' l l' d d' w w', pitInit ((List.range e.frozen.shape.prod).map fun i x => some (F i x)) zs grid = .ok (s, q, l) ∧
        pitInit ((List.range e.frozen.shape.prod).map (histCdfRow e'.frozen)) zs grid = .ok (s', q', l') ∧ List.Forall₂ (fun v v' => |v' - v| ≤ ε) s s' ∧
        pitKs s = .ok d ∧ pitKs s' = .ok d' ∧ |d' - d| ≤ ε ∧ pitCvm s = .ok w ∧ pitCvm s' = .ok w' ∧ |w' - w| ≤ ε ∧
        ∀ p, 0 ≤ p → p ≤ 1 → ∃ v v', npQuantile p s = .ok v ∧ npQuantile p s' = .ok v' ∧ |v' - v| ≤ ε := by
  have hn : (0 : ℝ) < 2 * zs.length := by
    have : (2 : ℝ) ≤ zs.length := by exact_mod_cast hz2
    linarith
  have hη : 0 < min ε (ε / (2 * zs.length)) := lt_min hε (div_pos hε hn)
  obtain ⟨δ, hδ, hd⟩ := small_bins (a := a) (b := b) e.frozen.shape.prod F hc _ hη
  obtain ⟨N, hN⟩ := Metric.tendsto_atTop.1 (width_tendsto a b) δ hδ
  refine ⟨N, fun m hm => ?_⟩
  have hw : ∀ (i : ℕ) u v, (linspace a b (m + 2))[i]? = some u → (linspace a b (m + 2))[i + 1]? = some v → v - u = (b - a) / ((m + 1 : ℕ) : ℝ) := by
    intro i u v hu hv
    rw [spaced_linspace a b (m + 2) (by omega) i u v hu hv]
    push_cast
    ring
  -- the functions beyond the last PDF do not matter
  have hcl : ∀ i, min i (e.frozen.shape.prod - 1) < e.frozen.shape.prod := fun i => by omega
  have hcg : ∀ {α : Type} (f : (ℝ → ℝ) → α), ((List.range e.frozen.shape.prod).map fun i => f (F (min i (e.frozen.shape.prod - 1)))) = (List.range e.frozen.shape.prod).map fun i => f (F i) := by
    intro α f
    apply List.map_congr_left
    intro i hi
    rw [min_eq_left (by have := List.mem_range.1 hi; omega)]
  have hs := linspace_pairwise a b (m + 2) (by omega) h
  obtain ⟨e', h1, s, s', q, q', l, l', d, d', w, w', h2, h3, h4, h5, h6, h7, h8, h9, h10, h11⟩ :=
    C150_hist_conversion ev e (linspace a b (m + 2)) (by simp [length_linspace]) hs ⟨_, hw⟩ (fun i => F (min i (e.frozen.shape.prod - 1))) k.shape
      (by rw [hcg fun f => (linspace a b (m + 2)).map f]; exact k.cdf _ hs) (fun i => k.mono _) (fun i => k.unit _)
      (fun i c hc => by rw [head_linspace a b (m + 2) (by omega)] at hc; rw [← Option.some.inj hc]; exact hF0 _)
      (fun i c hc => by rw [last_linspace a b (m + 2) (by omega)] at hc; rw [← Option.some.inj hc]; exact hF1 _)
      (min ε (ε / (2 * zs.length))) (by
        intro i j u v hu hv
        have huv : u ≤ v := by
          have := hw j u v hu hv
          have h0 : (0 : ℝ) ≤ (b - a) / ((m + 1 : ℕ) : ℝ) := div_nonneg (by linarith) (Nat.cast_nonneg _)
          linarith
        refine hd _ (hcl i) u v (mem_linspace h (by omega) (List.mem_of_getElem? hu)).1 (mem_linspace h (by omega) (List.mem_of_getElem? hv)).2 huv ?_
        rw [hw j u v hu hv]
        have := hN m hm
        rw [Real.dist_eq, sub_zero] at this
        exact (le_abs_self _).trans_lt this) zs grid hz hz2 hg
  rw [hcg fun f x => some (f x)] at h2
  refine ⟨e', h1, s, s', q, q', l, l', d, d', w, w', h2, h3, h4.imp fun _ _ h => h.trans (min_le_left _ _), h5, h6, h7.trans (min_le_left _ _), h8, h9, h10.trans ?_, ?_⟩
  · calc 2 * (zs.length : ℝ) * min ε (ε / (2 * zs.length)) ≤ 2 * (zs.length : ℝ) * (ε / (2 * zs.length)) := mul_le_mul_of_nonneg_left (min_le_right _ _) hn.le
      _ = ε := by field_simp
  · intro p p0 p1
    obtain ⟨v, v', e1, e2, e3⟩ := h11 p p0 p1
    exact ⟨v, v', e1, e2, e3.trans (min_le_left _ _)⟩

/-! two uniform PDFs, one galaxy at 0.3 and one at 0.8 -/

example := C150_hist_fine rampEv rampEns (fun _ => ramp) 0 1 one_pos (ramp_known 0 1 (by norm_num [ramp])) (fun _ => by norm_num [ramp]) (fun _ => by norm_num [ramp])
  (fun _ => by unfold ramp; fun_prop) [3 / 10, 4 / 5] [0, 1 / 2, 1] rfl (by simp) (by intro p hp; simp at hp; rcases hp with rfl | rfl | rfl <;> norm_num) (1 / 100) (by norm_num)

example := C150_hist_conversion rampEv rampEns [0, 1 / 2, 1] (by simp) (by norm_num)
  ⟨1 / 2, fun i a b ha hb => by
    match i with
    | 0 | 1 => simp at ha hb; subst ha hb; norm_num
    | i + 2 => simp at hb⟩
  (fun _ => ramp) (by simp [rampEns, frozenOf]) ((ramp_known 0 1 (by norm_num [ramp])).cdf _ (by norm_num)) (ramp_known 0 1 (by norm_num [ramp])).mono (ramp_known 0 1 (by norm_num [ramp])).unit
  (fun _ a ha => by simp at ha; subst ha; norm_num [ramp]) (fun _ a ha => by simp at ha; subst ha; norm_num [ramp]) (1 / 2)
  (fun _ j u v hu hv => by
    match j with
    | 0 | 1 => simp at hu hv; subst hu hv; norm_num [ramp]
    | j + 2 => simp at hv)
  [3 / 10, 4 / 5] [0, 1 / 2, 1] rfl (by simp) (by intro p hp; simp at hp; rcases hp with rfl | rfl | rfl <;> norm_num)

end Verif.Props.PitFine
