import Verif.Props.FineGrid
import Verif.Props.ConvertExpect
import Verif.Props.Front
import Verif.Props.ConvertInterpError

/-!
# C147: conversions on finer and finer grids

An ensemble of any class is converted to histograms with more and more bins, or to interpolated PDFs on finer and finer grids. What the converted
ensembles answer is compared with the original in the limit.
-/

set_option linter.unusedSectionVars false
set_option autoImplicit false

namespace Verif.Props.FineConvert

open Verif Verif.Np Verif.Model Verif.Spec Verif.Lemmas Verif.Lemmas.Riemann MeasureTheory Filter Set Topology
open Verif.Props.Convert Verif.Props.Bins Verif.Props.Hist Verif.Props.ConvertError Verif.Props.Metrics Verif.Props.FineGrid

/-- `_ppf` of PDF `i` of a histogram ensemble, `hist_pdf.py` 119-130 -/
noncomputable def histPpfRow (fr : Frozen ℝ) (i : ℕ) (q : ℝ) : Option ℝ := (finites (tableRow fr i "pdfs")).bind fun r => histPpf (metaGrid fr.metadata "bins") r q

/-- one PDF put into `m` equal bins -/
theorem fine_row {a b : ℝ} (h : a < b) (F : ℝ → ℝ) (hF : Monotone F) (h01 : ∀ x, 0 ≤ F x ∧ F x ≤ 1) (hF0 : F a = 0) (hF1 : F b = 1) (m : ℕ) (hm : 1 ≤ m) :
    ∃ (p : List ℝ) (G g Q : ℝ → ℝ), converted (linspace a b (m + 1)) F = some p ∧ p.length = (linspace a b (m + 1)).length - 1 ∧
      (∀ x, histCdf (linspace a b (m + 1)) p x = some (G x)) ∧ (∀ x, histPdf (linspace a b (m + 1)) p x = .ok (g x)) ∧
      (∀ q, 0 ≤ q → q ≤ 1 → histPpf (linspace a b (m + 1)) p q = some (Q q) ∧ Q q ∈ Icc a b ∧ G (Q q) = q) ∧ Monotone G ∧
      (∀ x, x ∉ Ico a b → G x = F x ∧ g x = 0) ∧
      ∀ x ∈ Ico a b, ∃ u v, u ≤ x ∧ x < v ∧ v - u = (b - a) / m ∧ F u ≤ G x ∧ G x ≤ F v ∧ g x = (F v - F u) / (v - u) := by
  set e := linspace a b (m + 1) with he
  have hlen : e.length = m + 1 := length_linspace _ _ _
  have h2 : 2 ≤ e.length := by omega
  have hs : e.Pairwise (· < ·) := linspace_pairwise a b (m + 1) (by omega) h
  have hw : ∀ (i : ℕ) u v, e[i]? = some u → e[i + 1]? = some v → v - u = (b - a) / m := by
    intro i u v hu hv
    have := spaced_linspace a b (m + 1) (by omega) i u v hu hv
    rw [this]
    push_cast
    ring
  have hu : Uniform e := ⟨_, hw⟩
  have hhead : e.head? = some a := head_linspace a b (m + 1) (by omega)
  have hlast : e.getLast? = some b := last_linspace a b (m + 1) (by omega)
  have hF0' : ∀ z, e.head? = some z → F z = 0 := by intro z hz; rw [hhead] at hz; obtain rfl := Option.some.inj hz; exact hF0
  have hF1' : ∀ z, e.getLast? = some z → F z = 1 := by intro z hz; rw [hlast] at hz; obtain rfl := Option.some.inj hz; exact hF1
  obtain ⟨p, hp, hk⟩ := C57_equal_bins_partial e F h2 hs hu hF0' hF1'
  have hpl : p.length = e.length - 1 := by
    rw [(histNormRow_idem e _ _ hp).2, Np.length_diff, List.length_map]
  have hd : (Np.diff (e.map F)).length = e.length - 1 := by rw [Np.length_diff, List.length_map]
  have hne : totalMass e (Np.diff (e.map F)) ≠ 0 := by
    intro h0
    rw [show converted e F = none from (C07_row_normalised e _).1 h0] at hp
    simp at hp
  obtain ⟨p', hp', h1, -, hpos⟩ := (C07_row_normalised e _).2 hne
  obtain rfl : p' = p := by rw [show converted e F = some p' from hp'] at hp; exact Option.some.inj hp
  have hdiff : ∀ v ∈ Np.diff (e.map F), 0 ≤ v := by
    intro v hv
    obtain ⟨i, hi'⟩ := List.mem_iff_getElem?.1 hv
    obtain ⟨p, q, e1, e2, e3⟩ := (diff_getElem? _ i _).1 hi'
    rw [List.getElem?_map] at e1 e2
    obtain ⟨x, hx, rfl⟩ := Option.map_eq_some_iff.1 e1
    obtain ⟨y, hy, rfl⟩ := Option.map_eq_some_iff.1 e2
    rw [e3]
    have := hw i x y hx hy
    have hm0 : (0 : ℝ) < m := by exact_mod_cast hm
    have : 0 < (b - a) / m := div_pos (sub_pos.2 h) hm0
    exact sub_nonneg.2 (hF (by linarith))
  have hg' : Grid e p'.length := ⟨hs, by omega, by omega⟩
  have hp0 := hpos hs hdiff
  obtain ⟨hl, hr, hmono⟩ := C08_cdf_shape e p' hg' h1 hp0
  have hG : ∀ x, ∃ y, histCdf e p' x = some y := fun x => by
    obtain ⟨y, -, hy, -⟩ := hmono x x le_rfl
    exact ⟨y, hy⟩
  choose G hG1 using hG
  have hGm : Monotone G := by
    intro x y hxy
    obtain ⟨u, v, e1, e2, -, e3, -⟩ := hmono x y hxy
    rw [hG1] at e1 e2
    rw [Option.some.inj e1, Option.some.inj e2]
    exact e3
  have hGe : ∀ x ∈ e, G x = F x := by
    intro x hx
    have := hk x hx
    rw [hG1] at this
    exact Option.some.inj this
  have hppf : ∀ q, ∃ x, 0 ≤ q → q ≤ 1 → histPpf e p' q = some x ∧ x ∈ Icc a b ∧ G x = q := by
    intro q
    by_cases hq : 0 ≤ q ∧ q ≤ 1
    · obtain ⟨x, hx1, hx2, ⟨y, hy, hyx⟩, z, hz, hxz⟩ := C09_cdf_ppf e p' hg' h1 hp0 q hq.1 hq.2
      refine ⟨x, fun _ _ => ⟨hx1, ⟨(mem_linspace h (by omega) hy).1.trans hyx, hxz.trans (mem_linspace h (by omega) hz).2⟩, ?_⟩⟩
      rw [hG1 x] at hx2
      exact Option.some.inj hx2
    · exact ⟨0, fun h0 h1 => absurd ⟨h0, h1⟩ hq⟩
  choose Q hQ using hppf
  have hmw : totalMass e (Np.diff (e.map F)) = (b - a) / m := by
    rw [meanWidth_uniform e _ hw _ hd]
    have : Np.sum (Np.diff (e.map F)) = F b - F a := by
      match e, h2, hhead, hlast with
      | c :: t, _, hhead, hlast => exact sum_diff ((c :: t).map F) (F a) (F b) (by rw [List.head?_map, hhead]; rfl) (by rw [List.getLast?_map, hlast]; rfl)
    rw [this, hF0, hF1]
    ring
  refine ⟨p', G, stepLeft e p', Q, hp, by omega, hG1, EndToEnd.hist_left e p' hg' hu, hQ, hGm, ?_, ?_⟩
  · intro x hx
    rw [mem_Ico, not_and_or, not_le, not_lt] at hx
    have hout : stepLeft e p' x = 0 := by
      refine EndToEnd.stepLeft_out e p' x fun i u v hu hv huv => ?_
      rcases hx with hx | hx
      · exact absurd ((mem_linspace h (by omega) (List.mem_of_getElem? hu)).1.trans huv.1) (not_le.2 hx)
      · exact absurd (huv.2.trans_le (mem_linspace h (by omega) (List.mem_of_getElem? hv)).2) (not_lt.2 hx)
    refine ⟨?_, hout⟩
    rcases hx with hx | hx
    · have e1 := hl x fun v hv => hx.le.trans (mem_linspace h (by omega) hv).1
      rw [hG1] at e1
      have e2 := hF hx.le
      have e3 := (h01 x).1
      rw [Option.some.inj e1]
      linarith
    · have e1 := hr x fun v hv => (mem_linspace h (by omega) hv).2.trans hx
      rw [hG1] at e1
      have e2 := hF hx
      have e3 := (h01 x).2
      rw [Option.some.inj e1]
      linarith
  · intro x hx
    obtain ⟨j, u, v, hju, hjv, hux, hxv⟩ := bracket e x a b hhead hlast hx.1 hx.2
    have huv := hw j u v hju hjv
    refine ⟨u, v, hux, hxv, huv, ?_, ?_, ?_⟩
    · rw [← hGe u (List.mem_of_getElem? hju)]
      exact hGm hux
    · rw [← hGe v (List.mem_of_getElem? hjv)]
      exact hGm hxv.le
    · have hrow : (Np.diff (e.map F))[j]? = some (F v - F u) := (diff_getElem? _ j _).2 ⟨F u, F v, by rw [List.getElem?_map, hju]; rfl, by rw [List.getElem?_map, hjv]; rfl, rfl⟩
      refine EndToEnd.stepLeft_in e p' x j u v _ hs hju hjv ?_ hux hxv
      have hpe : p' = (Np.diff (e.map F)).map (· / totalMass e (Np.diff (e.map F))) := by
        have := hp
        unfold converted histNormRow at this
        split at this
        · simp at this
        · rw [show histSum e (Np.diff (e.map F)) = totalMass e (Np.diff (e.map F)) from Lemmas.Hist.histSum_eq _ _] at this; exact (Option.some.inj this).symm
      rw [hpe, List.getElem?_map, hrow, hmw, huv]
      rfl

/-! ### the limits -/

theorem width_tendsto (a b : ℝ) : Tendsto (fun m : ℕ => (b - a) / ((m + 1 : ℕ) : ℝ)) atTop (𝓝 0) :=
  (tendsto_const_div_atTop_nhds_zero_nat (b - a)).comp (tendsto_add_atTop_nat 1)

/-- intervals around a point that shrink have slopes that tend to the derivative -/
theorem straddle {F : ℝ → ℝ} {d x : ℝ} (h : HasDerivAt F d x) {w : ℕ → ℝ} (hw : Tendsto w atTop (𝓝 0)) {u v : ℕ → ℝ} (hu : ∀ m, u m ≤ x) (hv : ∀ m, x < v m)
    (huv : ∀ m, v m - u m = w m) : Tendsto (fun m => (F (v m) - F (u m)) / (v m - u m)) atTop (𝓝 d) := by
  rw [Metric.tendsto_atTop]
  intro ε hε
  have h1 := (hasDerivAt_iff_isLittleO.1 h).def (half_pos hε)
  obtain ⟨δ, hδ, h2⟩ := Metric.eventually_nhds_iff.1 h1
  obtain ⟨N, hN⟩ := Metric.tendsto_atTop.1 hw δ hδ
  refine ⟨N, fun m hm => ?_⟩
  have h3 := hN m hm
  rw [Real.dist_eq, sub_zero, ← huv m, abs_of_pos (by linarith [hu m, hv m])] at h3
  have e1 := h2 (y := v m) (by rw [Real.dist_eq, abs_of_pos (by linarith [hv m])]; linarith [hu m])
  have e2 := h2 (y := u m) (by rw [Real.dist_eq, abs_sub_comm, abs_of_nonneg (by linarith [hu m])]; linarith [hv m])
  simp only [Real.norm_eq_abs, smul_eq_mul] at e1 e2
  rw [abs_of_pos (show 0 < v m - x by linarith [hv m])] at e1
  rw [abs_sub_comm (u m) x, abs_of_nonneg (show 0 ≤ x - u m by linarith [hu m])] at e2
  have hp : 0 < v m - u m := by linarith [hu m, hv m]
  rw [Real.dist_eq, show (F (v m) - F (u m)) / (v m - u m) - d = ((F (v m) - F x - (v m - x) * d) - (F (u m) - F x - (u m - x) * d)) / (v m - u m) by field_simp; ring,
    abs_div, abs_of_pos hp, div_lt_iff₀ hp]
  calc _ ≤ |F (v m) - F x - (v m - x) * d| + |F (u m) - F x - (u m - x) * d| := abs_sub _ _
    _ ≤ ε / 2 * (v m - x) + ε / 2 * (x - u m) := add_le_add e1 e2
    _ = ε / 2 * (v m - u m) := by ring
    _ < ε * (v m - u m) := by nlinarith

/-- a distribution function is flat beyond the ends of the mass -/
theorem flat_deriv {a b : ℝ} {F : ℝ → ℝ} (hF : Monotone F) (h01 : ∀ x, 0 ≤ F x ∧ F x ≤ 1) (hF0 : F a = 0) (hF1 : F b = 1) {x d : ℝ} (hx : x ∉ Ico a b) (h : HasDerivAt F d x) : d = 0 := by
  rw [mem_Ico, not_and_or, not_le, not_lt] at hx
  rcases hx with hx | hx
  · have h0 : ∀ y ∈ Iic x, F y = 0 := fun y hy => le_antisymm (by rw [← hF0]; exact hF ((mem_Iic.1 hy).trans hx.le)) (h01 y).1
    have := (h.hasDerivWithinAt (s := Iic x)).congr (f₁ := fun _ => (0 : ℝ)) (fun y hy => (h0 y hy).symm) (h0 x self_mem_Iic).symm
    exact (uniqueDiffOn_Iic x x self_mem_Iic).eq_deriv _ this (hasDerivWithinAt_const _ _ _)
  · have h0 : ∀ y ∈ Ici x, F y = 1 := fun y hy => le_antisymm (h01 y).2 (by rw [← hF1]; exact hF (hx.trans (mem_Ici.1 hy)))
    have := (h.hasDerivWithinAt (s := Ici x)).congr (f₁ := fun _ => (1 : ℝ)) (fun y hy => (h0 y hy).symm) (h0 x self_mem_Ici).symm
    exact (uniqueDiffOn_Ici x x self_mem_Ici).eq_deriv _ this (hasDerivWithinAt_const _ _ _)

/-- the distribution function of the part of the mass between `a` and `b` -/
noncomputable def restricted (a b : ℝ) (F : ℝ → ℝ) (x : ℝ) : ℝ := if x < a then 0 else if b ≤ x then 1 else (F x - F a) / (F b - F a)

theorem restricted_in {a b : ℝ} {F : ℝ → ℝ} (hm : F a < F b) {x : ℝ} (hx : x ∈ Icc a b) : restricted a b F x = (F x - F a) / (F b - F a) := by
  unfold restricted
  rw [if_neg (not_lt.2 hx.1)]
  split
  · next hb => rw [le_antisymm hx.2 hb, div_self (sub_pos.2 hm).ne']
  · rfl

theorem restricted_unit {a b : ℝ} {F : ℝ → ℝ} (hF : Monotone F) (hm : F a < F b) (x : ℝ) : 0 ≤ restricted a b F x ∧ restricted a b F x ≤ 1 := by
  have hp := sub_pos.2 hm
  unfold restricted
  split
  · exact ⟨le_rfl, zero_le_one⟩
  · next h1 =>
    split
    · exact ⟨zero_le_one, le_rfl⟩
    · next h2 =>
      exact ⟨div_nonneg (sub_nonneg.2 (hF (not_lt.1 h1))) hp.le, (div_le_one hp).2 (by linarith [hF (not_le.1 h2).le])⟩

theorem restricted_mono {a b : ℝ} {F : ℝ → ℝ} (h : a < b) (hF : Monotone F) (hm : F a < F b) : Monotone (restricted a b F) := by
  intro x y hxy
  have hx := restricted_unit (a := a) (b := b) hF hm x
  have hy := restricted_unit (a := a) (b := b) hF hm y
  by_cases h1 : x < a
  · rw [show restricted a b F x = 0 from if_pos h1]; exact hy.1
  by_cases h2 : b ≤ y
  · rw [show restricted a b F y = 1 by unfold restricted; rw [if_neg (not_lt.2 (h.le.trans h2)), if_pos h2]]; exact hx.2
  rw [restricted_in hm ⟨not_lt.1 h1, hxy.trans (not_le.1 h2).le⟩, restricted_in hm ⟨(not_lt.1 h1).trans hxy, (not_le.1 h2).le⟩]
  exact div_le_div_of_nonneg_right (by linarith [hF hxy]) (sub_pos.2 hm).le

/-- with all the mass between `a` and `b` nothing changes -/
theorem restricted_all {a b : ℝ} {F : ℝ → ℝ} (hF : Monotone F) (h01 : ∀ x, 0 ≤ F x ∧ F x ≤ 1) (hF0 : F a = 0) (hF1 : F b = 1) : restricted a b F = F := by
  funext x
  unfold restricted
  split
  · next h => exact le_antisymm (h01 x).1 (by rw [← hF0]; exact hF h.le)
  · split
    · next h => exact le_antisymm (by rw [← hF1]; exact hF h) (h01 x).2
    · rw [hF0, hF1]; ring

theorem diff_affine (c d : ℝ) : ∀ l : List ℝ, Np.diff (l.map fun v => (v - c) / d) = (Np.diff l).map (· / d)
  | [] => rfl
  | [_] => rfl
  | x :: y :: l => by
    have := diff_affine c d (y :: l)
    simp only [List.map_cons, Np.diff] at this ⊢
    rw [this]
    congr 1
    ring

/-- the constructor normalises, so that the conversion sees only the part of the mass between the edges -/
theorem converted_restricted {a b : ℝ} {F : ℝ → ℝ} (hm : F a < F b) (e : List ℝ) (he : ∀ x ∈ e, x ∈ Icc a b) : converted e (restricted a b F) = converted e F := by
  have hd : F b - F a ≠ 0 := (sub_pos.2 hm).ne'
  unfold converted
  rw [show e.map (restricted a b F) = (e.map F).map fun v => (v - F a) / (F b - F a) by
    rw [List.map_map]; exact List.map_congr_left fun x hx => restricted_in hm (he x hx), diff_affine]
  unfold histNormRow
  rw [Lemmas.Hist.histSum_eq, Lemmas.Hist.histSum_eq, Lemmas.Hist.totalMass_div]
  by_cases h0 : totalMass e (Np.diff (e.map F)) = 0
  · rw [h0, zero_div, if_pos rfl, if_pos rfl]
  · rw [if_neg (div_ne_zero h0 hd), if_neg h0, List.map_map]
    congr 1
    apply List.map_congr_left
    intro v _
    simp only [Function.comp]
    field_simp

/-- the distribution functions `F i` of an ensemble: what its `cdf` answers at increasing points; there is some mass between `a` and `b` -/
structure Known (ev : Evals ℝ) (e : Ens ℝ) (F : ℕ → ℝ → ℝ) (a b : ℝ) : Prop where
  shape : e.frozen.shape ≠ []
  cdf : ∀ t : List ℝ, t.Pairwise (· < ·) →
    ev.cdf e.frozen (.arr (vec t)) = .ok ⟨e.frozen.shape ++ [t.length], nums ((List.range e.frozen.shape.prod).map fun i => t.map (F i)).flatten⟩
  mono : ∀ i, Monotone (F i)
  unit : ∀ i x, 0 ≤ F i x ∧ F i x ≤ 1
  mass : ∀ i, F i a < F i b

/-- everything about the histograms made of one ensemble -/
theorem fine_ens {ev : Evals ℝ} {e : Ens ℝ} {F : ℕ → ℝ → ℝ} {a b : ℝ} (h : a < b) (k : Known ev e F a b) :
    ∃ (c : ℕ → Ens ℝ) (G g Q : ℕ → ℕ → ℝ → ℝ),
      (∀ m, convertTo (histPy ev) e none [("bins", .arr (vec (linspace a b (m + 2))))] = .ok (c m)) ∧
      (∀ m (t : List ℝ), t.Pairwise (· < ·) → ensArr histCdfElem (c m).frozen (.arr (vec t))
        = .ok ⟨e.frozen.shape ++ [t.length], nums ((List.range e.frozen.shape.prod).map fun i => t.map (G m i)).flatten⟩) ∧
      (∀ m (t : List ℝ), t.Pairwise (· < ·) → ensEval histEval (c m).frozen t
        = .ok ((List.range e.frozen.shape.prod).map fun i => t.map fun v => some (.ok (g m i v)))) ∧
      (∀ m (t : List ℝ), t.Pairwise (· < ·) → (∀ q ∈ t, 0 < q ∧ q < 1) →
        ensPpf (dispatch (histPpfRow (c m).frozen) (histPpfRow (c m).frozen) (histPpfRow (c m).frozen)) (List.replicate e.frozen.shape.prod t)
        = .ok ((List.range e.frozen.shape.prod).map fun i => t.map fun q => .fin (Q m i q))) ∧
      (∀ m i x, x ∉ Ico a b → G m i x = restricted a b (F i) x ∧ g m i x = 0) ∧
      (∀ i x, ContinuousAt (restricted a b (F i)) x → Tendsto (fun m => G m i x) atTop (𝓝 (restricted a b (F i) x))) ∧
      (∀ i, Continuous (restricted a b (F i)) → TendstoUniformly (fun m => G m i) (restricted a b (F i)) atTop) ∧
      (∀ i x d, HasDerivAt (restricted a b (F i)) d x → Tendsto (fun m => g m i x) atTop (𝓝 d)) ∧
      (∀ i q y, 0 < q → q < 1 → (∀ x < y, restricted a b (F i) x < q) → (∀ x > y, q < restricted a b (F i) x) → Tendsto (fun m => Q m i q) atTop (𝓝 y)) := by
  set R : ℕ → ℝ → ℝ := fun i => restricted a b (F i) with hR
  have hRF : ∀ i, restricted a b (F i) = R i := fun _ => rfl
  simp only [hRF]
  have hRm : ∀ i, Monotone (R i) := fun i => restricted_mono h (k.mono i) (k.mass i)
  have hRu : ∀ i x, 0 ≤ R i x ∧ R i x ≤ 1 := fun i => restricted_unit (k.mono i) (k.mass i)
  have hRa : ∀ i, R i a = 0 := fun i => by simp [hR, restricted_in (k.mass i) (left_mem_Icc.2 h.le)]
  have hRb : ∀ i, R i b = 1 := fun i => by simp [hR, restricted_in (k.mass i) (right_mem_Icc.2 h.le), (sub_pos.2 (k.mass i)).ne']
  have hr := fun (m i : ℕ) => fine_row h (R i) (hRm i) (hRu i) (hRa i) (hRb i) (m + 1) (by omega)
  choose P G g Q hP hlen hG hg hQ hmono hout hin using hr
  have hin' : ∀ i, ∀ x ∈ Ico a b, ∃ u v : ℕ → ℝ, (∀ m, u m ≤ x) ∧ (∀ m, x < v m) ∧ (∀ m, v m - u m = (b - a) / ((m + 1 : ℕ) : ℝ)) ∧ (∀ m, R i (u m) ≤ G m i x) ∧
      (∀ m, G m i x ≤ R i (v m)) ∧ ∀ m, g m i x = (R i (v m) - R i (u m)) / (v m - u m) := by
    intro i x hx
    choose u v h1 h2 h3 h4 h5 h6 using fun m => hin m i x hx
    exact ⟨u, v, h1, h2, h3, h4, h5, h6⟩
  have hw := width_tendsto a b
  have hconv := fun m : ℕ => hist_conversion ev e (linspace a b (m + 2)) (by simp [length_linspace]) F k.shape (k.cdf _ (linspace_pairwise a b (m + 2) (by omega) h)) (P m) fun i _ => by
    rw [← converted_restricted (k.mass i) _ fun x hx => mem_linspace h (by omega) hx]; exact hP m i
  refine ⟨_, G, g, Q, hconv, ?_, ?_, ?_, hout, ?_, ?_, ?_, ?_⟩
  · intro m t ht
    exact histCdf_at _ t ht _ (P m) (G m) (fun i _ => hlen m i) fun i _ => hG m i
  · intro m t ht
    exact histPdf_at _ t ht _ (P m) (g m) (fun i _ => hlen m i) fun i _ => hg m i
  · intro m t ht hq
    rw [Props.Front.C80_ppf_shared_partial _ _ _ (Or.inl ht)]
    congr 1
    apply List.map_congr_left
    intro i hi
    apply List.map_congr_left
    intro q hqt
    obtain ⟨q0, q1⟩ := hq q hqt
    rw [ppfFront, if_neg q0.ne', if_neg q1.ne, if_pos ⟨q0, q1⟩]
    unfold histPpfRow
    rw [tableRow_hist _ _ (P m) _ (fun i _ => hlen m i) i (List.mem_range.1 hi), finites_nums, metaGrid_hist]
    simp [(hQ m i q q0.le q1.le).1, Ext.ofOption]
  · intro i x hc
    by_cases hx : x ∈ Ico a b
    · obtain ⟨u, v, h1, h2, h3, h4, h5, -⟩ := hin' i x hx
      have hu : Tendsto u atTop (𝓝 x) := by
        refine tendsto_of_tendsto_of_tendsto_of_le_of_le (g := fun m => x - (b - a) / ((m + 1 : ℕ) : ℝ)) (h := fun _ => x) ?_ tendsto_const_nhds (fun m => by linarith [h3 m, h2 m]) h1
        simpa using tendsto_const_nhds.sub hw
      have hv : Tendsto v atTop (𝓝 x) := by
        refine tendsto_of_tendsto_of_tendsto_of_le_of_le (g := fun _ => x) (h := fun m => x + (b - a) / ((m + 1 : ℕ) : ℝ)) tendsto_const_nhds ?_ (fun m => (h2 m).le) (fun m => by linarith [h3 m, h1 m])
        simpa using tendsto_const_nhds.add hw
      exact tendsto_of_tendsto_of_tendsto_of_le_of_le (hc.tendsto.comp hu) (hc.tendsto.comp hv) h4 h5
    · rw [show (fun m => G m i x) = fun _ => R i x from funext fun m => (hout m i x hx).1]
      exact tendsto_const_nhds
  · intro i hc
    rw [Metric.tendstoUniformly_iff]
    intro ε hε
    have huc := (isCompact_Icc (a := a - (b - a)) (b := b + (b - a))).uniformContinuousOn_of_continuous hc.continuousOn
    obtain ⟨δ, hδ, hd⟩ := Metric.uniformContinuousOn_iff.1 huc ε hε
    obtain ⟨N, hN⟩ := Metric.tendsto_atTop.1 hw δ hδ
    refine eventually_atTop.2 ⟨N, fun m hm x => ?_⟩
    by_cases hx : x ∈ Ico a b
    · obtain ⟨u, v, h1, h2, h3, h4, h5, -⟩ := hin' i x hx
      have e3 := hN m hm
      rw [Real.dist_eq, sub_zero, ← h3 m, abs_of_pos (by linarith [h1 m, h2 m])] at e3
      have hw1 : (b - a) / ((m + 1 : ℕ) : ℝ) ≤ b - a := div_le_self (by linarith) (by push_cast; linarith [(Nat.cast_nonneg m : (0 : ℝ) ≤ m)])
      have hxx : x ∈ Icc (a - (b - a)) (b + (b - a)) := ⟨by linarith [hx.1], by linarith [hx.2]⟩
      have e1 := hd (u m) ⟨by linarith [h2 m, hx.1, h3 m], by linarith [h1 m, hx.2]⟩ x hxx (by rw [Real.dist_eq, abs_sub_comm, abs_of_nonneg (by linarith [h1 m])]; linarith [h2 m])
      have e2 := hd (v m) ⟨by linarith [h2 m, hx.1], by linarith [h1 m, hx.2, h3 m]⟩ x hxx (by rw [Real.dist_eq, abs_of_pos (by linarith [h2 m])]; linarith [h1 m])
      rw [Real.dist_eq] at e1 e2 ⊢
      have e1 := abs_lt.1 e1
      have e2 := abs_lt.1 e2
      have := h4 m
      have := h5 m
      rw [abs_lt]
      constructor <;> linarith [e1.1, e2.2]
    · rw [(hout m i x hx).1, dist_self]
      exact hε
  · intro i x d hd
    by_cases hx : x ∈ Ico a b
    · obtain ⟨u, v, h1, h2, h3, -, -, h6⟩ := hin' i x hx
      rw [show (fun m => g m i x) = _ from funext h6]
      exact straddle hd hw h1 h2 h3
    · rw [show (fun m => g m i x) = fun _ => 0 from funext fun m => (hout m i x hx).2, flat_deriv (hRm i) (hRu i) (hRa i) (hRb i) hx hd]
      exact tendsto_const_nhds
  · intro i q y hq0 hq1 hlo hhi
    rw [Metric.tendsto_atTop]
    intro ε hε
    obtain ⟨N, hN⟩ := Metric.tendsto_atTop.1 hw (ε / 2) (half_pos hε)
    refine ⟨N, fun m hm => ?_⟩
    obtain ⟨-, hQab, hGQ⟩ := hQ m i q hq0.le hq1.le
    have e3 := hN m hm
    rw [Real.dist_eq, sub_zero, abs_of_pos (div_pos (sub_pos.2 h) (by positivity))] at e3
    have hQb : Q m i q ∈ Ico a b := by
      refine ⟨hQab.1, lt_of_le_of_ne hQab.2 fun hb => ?_⟩
      rw [hb, (hout m i b (by simp)).1, hRb i] at hGQ
      exact hq1.ne' hGQ
    obtain ⟨u, v, h1, h2, h3, h4, h5, -⟩ := hin' i _ hQb
    have h4 := h4 m
    have h5 := h5 m
    rw [hGQ] at h4 h5
    have hu : u m ≤ y := by
      by_contra hc
      exact absurd (hhi _ (not_le.1 hc)) (not_lt.2 h4)
    have hv : y ≤ v m := by
      by_contra hc
      exact absurd (hlo _ (not_le.1 hc)) (not_lt.2 h5)
    rw [Real.dist_eq, abs_lt]
    constructor <;> linarith [h1 m, h2 m, h3 m]

theorem restricted_near {a b : ℝ} {F : ℝ → ℝ} {x : ℝ} (h0 : a < x) (h1 : x < b) : (fun y => (F y - F a) / (F b - F a)) =ᶠ[𝓝 x] restricted a b F := by
  filter_upwards [Ioo_mem_nhds h0 h1] with y hy
  unfold restricted
  rw [if_neg (not_lt.2 hy.1.le), if_neg (not_le.2 hy.2)]

/-- **C147, the `cdf` of histograms with more and more bins.** Convert an ensemble of any class to histograms with `m + 1` equal bins between `a` and `b`, where each PDF has some
mass. All the conversions succeed. As the number of bins grows the `cdf` tends, wherever that of the original is continuous, to the distribution function of the part of the mass
between `a` and `b`; if all the mass is there and the original `cdf` is continuous, uniformly to the original `cdf`. -/
theorem C147_hist_cdf {ev : Evals ℝ} {e : Ens ℝ} {F : ℕ → ℝ → ℝ} {a b : ℝ} (h : a < b) (k : Known ev e F a b) :
    ∃ (c : ℕ → Ens ℝ) (G : ℕ → ℕ → ℝ → ℝ),
      (∀ m, convertTo (histPy ev) e none [("bins", .arr (vec (linspace a b (m + 2))))] = .ok (c m)) ∧
      (∀ m (t : List ℝ), t.Pairwise (· < ·) → ensArr histCdfElem (c m).frozen (.arr (vec t))
        = .ok ⟨e.frozen.shape ++ [t.length], nums ((List.range e.frozen.shape.prod).map fun i => t.map (G m i)).flatten⟩) ∧
      (∀ i x, a < x → x < b → ContinuousAt (F i) x → Tendsto (fun m => G m i x) atTop (𝓝 ((F i x - F i a) / (F i b - F i a)))) ∧
      (∀ m i x, x < a → G m i x = 0) ∧ (∀ m i x, b ≤ x → G m i x = 1) ∧
      ∀ i, F i a = 0 → F i b = 1 → Continuous (F i) → TendstoUniformly (fun m => G m i) (F i) atTop := by
  obtain ⟨c, G, g, Q, h1, h2, -, -, h3, h4, h5, -⟩ := fine_ens h k
  refine ⟨c, G, h1, h2, ?_, ?_, ?_, ?_⟩
  · intro i x h0 h1 hc
    rw [← restricted_in (k.mass i) ⟨h0.le, h1.le⟩]
    refine h4 i x (ContinuousAt.congr ?_ (restricted_near h0 h1))
    exact (hc.sub continuousAt_const).div_const _
  · intro m i x hx
    rw [(h3 m i x fun hc => absurd hc.1 (not_le.2 hx)).1, restricted, if_pos hx]
  · intro m i x hx
    rw [(h3 m i x fun hc => absurd hc.2 (not_lt.2 hx)).1, restricted, if_neg (not_lt.2 (h.le.trans hx)), if_pos hx]
  · intro i e0 e1 hc
    have := h5 i
    rw [restricted_all (k.mono i) (k.unit i) e0 e1] at this
    exact this hc

/-- **C147, the `pdf`.** Where the original distribution function has a derivative `d` (the density there) the densities of the histograms tend to `d` over the mass between `a` and `b`;
outside they are zero. With all the mass between `a` and `b` this holds at every point of the line: no continuity of the density is asked for. -/
theorem C147_hist_pdf {ev : Evals ℝ} {e : Ens ℝ} {F : ℕ → ℝ → ℝ} {a b : ℝ} (h : a < b) (k : Known ev e F a b) :
    ∃ (c : ℕ → Ens ℝ) (g : ℕ → ℕ → ℝ → ℝ),
      (∀ m, convertTo (histPy ev) e none [("bins", .arr (vec (linspace a b (m + 2))))] = .ok (c m)) ∧
      (∀ m (t : List ℝ), t.Pairwise (· < ·) → ensEval histEval (c m).frozen t
        = .ok ((List.range e.frozen.shape.prod).map fun i => t.map fun v => some (.ok (g m i v)))) ∧
      (∀ i x d, a < x → x < b → HasDerivAt (F i) d x → Tendsto (fun m => g m i x) atTop (𝓝 (d / (F i b - F i a)))) ∧
      (∀ m i x, x < a ∨ b ≤ x → g m i x = 0) ∧
      ∀ i, F i a = 0 → F i b = 1 → ∀ x d, HasDerivAt (F i) d x → Tendsto (fun m => g m i x) atTop (𝓝 d) := by
  obtain ⟨c, G, g, Q, h1, -, h2, -, h3, -, -, h6, -⟩ := fine_ens h k
  refine ⟨c, g, h1, h2, ?_, ?_, ?_⟩
  · intro i x d h0 h1 hd
    exact h6 i x _ (((hd.sub_const _).div_const _).congr_of_eventuallyEq (restricted_near h0 h1).symm)
  · intro m i x hx
    refine (h3 m i x fun hc => ?_).2
    rcases hx with hx | hx
    · exact absurd hc.1 (not_le.2 hx)
    · exact absurd hc.2 (not_lt.2 hx)
  · intro i e0 e1 x d hd
    have := h6 i
    rw [restricted_all (k.mono i) (k.unit i) e0 e1] at this
    exact this x d hd

/-- **C147, the `ppf`.** For a probability `q` strictly between 0 and 1, let `y` be the only point where the original distribution function passes from below to above
`F a + q (F b - F a)` (for `F a = 0`, `F b = 1` the quantile `q`). The quantiles of the histograms tend to `y`. No continuity is asked for: the distribution function may jump at `y`. -/
theorem C147_hist_ppf {ev : Evals ℝ} {e : Ens ℝ} {F : ℕ → ℝ → ℝ} {a b : ℝ} (h : a < b) (k : Known ev e F a b) :
    ∃ (c : ℕ → Ens ℝ) (Q : ℕ → ℕ → ℝ → ℝ),
      (∀ m, convertTo (histPy ev) e none [("bins", .arr (vec (linspace a b (m + 2))))] = .ok (c m)) ∧
      (∀ m (t : List ℝ), t.Pairwise (· < ·) → (∀ q ∈ t, 0 < q ∧ q < 1) →
        ensPpf (dispatch (histPpfRow (c m).frozen) (histPpfRow (c m).frozen) (histPpfRow (c m).frozen)) (List.replicate e.frozen.shape.prod t)
        = .ok ((List.range e.frozen.shape.prod).map fun i => t.map fun q => .fin (Q m i q))) ∧
      ∀ i q y, 0 < q → q < 1 → (∀ x < y, F i x < F i a + q * (F i b - F i a)) → (∀ x > y, F i a + q * (F i b - F i a) < F i x) → Tendsto (fun m => Q m i q) atTop (𝓝 y) := by
  obtain ⟨c, G, g, Q, h1, -, -, h2, -, -, -, -, h7⟩ := fine_ens h k
  refine ⟨c, Q, h1, h2, ?_⟩
  intro i q y hq0 hq1 hlo hhi
  have hp := sub_pos.2 (k.mass i)
  refine h7 i q y hq0 hq1 ?_ ?_
  · intro x hx
    unfold restricted
    split
    · exact hq0
    · split
      · next hb =>
        have := hlo x hx
        have := k.mono i hb
        nlinarith
      · rw [div_lt_iff₀ hp]
        linarith [hlo x hx]
  · intro x hx
    unfold restricted
    split
    · next ha =>
      have := hhi x hx
      have := k.mono i ha.le
      nlinarith
    · split
      · exact hq1
      · rw [lt_div_iff₀ hp]
        linarith [hhi x hx]

/-! ## interpolated PDFs -/

open Verif.Props.ConvertInterpError (Mesh)

theorem tame_of_continuousOn {a b : ℝ} {f : ℝ → ℝ} (h : ContinuousOn f (Icc a b)) : Tame a b f where
  bound := by
    obtain ⟨B, hB⟩ := isCompact_Icc.exists_bound_of_continuousOn h
    exact ⟨B, fun x hx => hB x hx⟩
  cont := Eventually.of_forall fun x hx => h.continuousAt (Icc_mem_nhds hx.1 hx.2)

theorem area_trapz : ∀ xs ys : List ℝ, area xs ys = trapz xs ys
  | a :: b :: xs, u :: v :: ys => by rw [trapz_cons₂, area, area_trapz (b :: xs) (v :: ys)]
  | [], _ => rfl
  | [_], _ => rfl
  | _ :: _ :: _, [] => rfl
  | _ :: _ :: _, [_] => rfl

theorem mesh_linspace {a b : ℝ} (h : a < b) (m : ℕ) : Mesh (linspace a b (m + 2)) a b ((b - a) / ((m + 1 : ℕ) : ℝ)) where
  strict := linspace_pairwise a b (m + 2) (by omega) h
  two := by simp [length_linspace]
  first := head_linspace a b (m + 2) (by omega)
  last := last_linspace a b (m + 2) (by omega)
  gaps := by
    intro i u v hu hv
    rw [spaced_linspace a b (m + 2) (by omega) i u v hu hv]
    push_cast
    apply le_of_eq
    congr 1
    ring

/-- the broken line stays between the values of the function at two neighbouring grid points -/
theorem line_near {xs : List ℝ} {a b w : ℝ} (m : Mesh xs a b w) (g : ℝ → ℝ) (x : ℝ) (hx : x ∈ Icc a b) : ∃ u ∈ Icc a b, ∃ v ∈ Icc a b, |u - x| ≤ w ∧ |v - x| ≤ w ∧
    |brokenLine xs (xs.map g) x - g x| ≤ max |g u - g x| |g v - g x| := by
  obtain ⟨j, u, v, hu, hv, huv, h3, h4⟩ := m.cell x hx.1 hx.2
  have hg := m.grid (xs.map g) (by simp)
  obtain ⟨d, hd, he, -⟩ := (InterpPdf.C15_pdf_through_points xs (xs.map g) hg).2.1 j u v (g u) (g v) x hu hv (by simp [hu]) (by simp [hv]) h3 h4
  rw [EndToEnd.interp_line xs _ hg x] at hd
  obtain rfl := Option.some.inj hd
  have hgap := m.gaps j u v hu hv
  refine ⟨u, m.range u (List.mem_of_getElem? hu), v, m.range v (List.mem_of_getElem? hv), by rw [abs_sub_comm, abs_of_nonneg (by linarith)]; linarith,
    by rw [abs_of_nonneg (by linarith)]; linarith, ?_⟩
  set d := brokenLine xs (xs.map g) x
  set M := max |g u - g x| |g v - g x|
  have hw : 0 < v - u := sub_pos.2 huv
  have key : (d - g x) * (v - u) = (g u - g x) * (v - x) + (g v - g x) * (x - u) := by linear_combination he
  have hb : |(d - g x) * (v - u)| ≤ M * (v - u) := by
    rw [key]
    refine (abs_add_le _ _).trans ?_
    rw [abs_mul, abs_mul, abs_of_nonneg (show 0 ≤ v - x by linarith), abs_of_nonneg (show 0 ≤ x - u by linarith)]
    have e1 := mul_le_mul_of_nonneg_right (le_max_left |g u - g x| |g v - g x|) (show 0 ≤ v - x by linarith)
    have e2 := mul_le_mul_of_nonneg_right (le_max_right |g u - g x| |g v - g x|) (show 0 ≤ x - u by linarith)
    calc _ ≤ M * (v - x) + M * (x - u) := add_le_add e1 e2
      _ = M * (v - u) := by ring
  rw [abs_mul, abs_of_pos hw] at hb
  exact le_of_mul_le_mul_right hb hw

/-- the row of values that a conversion to an interpolated PDF stores for the density `g` on `m + 2` evenly spaced points -/
noncomputable def fineRow (a b : ℝ) (g : ℝ → ℝ) (m : ℕ) : List ℝ :=
  ((linspace a b (m + 2)).map g).map (· / area (linspace a b (m + 2)) ((linspace a b (m + 2)).map g))

/-- the ensemble that stores these rows -/
noncomputable def fineInterp (e : Ens ℝ) (a b : ℝ) (g : ℕ → ℝ → ℝ) (m : ℕ) : Ens ℝ :=
  ⟨rowCreate interpCls, rowCreate interpCls, frozenOf interpCls [("xvals", vec (linspace a b (m + 2)))] [(linspace a b (m + 2)).length]
    ((List.range e.frozen.shape.prod).map fun i => [nums (fineRow a b (g i) m)]) e.frozen.shape, none⟩

/-- everything about the conversions to interpolated PDFs -/
theorem interp_fine {ev : Evals ℝ} {e : Ens ℝ} {g : ℕ → ℝ → ℝ} {a b : ℝ} (h : a < b)
    (hpdf : ∀ t : List ℝ, t.Pairwise (· < ·) →
      ev.pdf e.frozen (.arr (vec t)) = .ok ⟨e.frozen.shape ++ [t.length], nums ((List.range e.frozen.shape.prod).map fun i => t.map (g i)).flatten⟩)
    (hg : ∀ i < e.frozen.shape.prod, Tame a b (g i)) (μ : ℕ → ℝ) (hμ : ∀ i < e.frozen.shape.prod, ∫ x in a..b, g i x = μ i) (h0 : ∀ i < e.frozen.shape.prod, μ i ≠ 0) :
      (∀ᶠ m in atTop, convertTo (interpPy ev) e none [("xvals", .arr (vec (linspace a b (m + 2))))] = .ok (fineInterp e a b g m) ∧
        ∀ t : List ℝ, t.Pairwise (· < ·) → ensArr interpPdfElem (fineInterp e a b g m).frozen (.arr (vec t))
          = .ok ⟨e.frozen.shape ++ [t.length], nums ((List.range e.frozen.shape.prod).map fun i => t.map (brokenLine (linspace a b (m + 2)) (fineRow a b (g i) m))).flatten⟩) ∧
      (∀ i < e.frozen.shape.prod, ∀ x ∈ Icc a b, ContinuousWithinAt (g i) (Icc a b) x → Tendsto (fun m => brokenLine (linspace a b (m + 2)) (fineRow a b (g i) m) x) atTop (𝓝 (g i x / μ i))) ∧
      (∀ i < e.frozen.shape.prod, ContinuousOn (g i) (Icc a b) → TendstoUniformlyOn (fun m => brokenLine (linspace a b (m + 2)) (fineRow a b (g i) m)) (fun x => g i x / μ i) atTop (Icc a b)) ∧
      ∀ m i x, x < a ∨ b < x → brokenLine (linspace a b (m + 2)) (fineRow a b (g i) m) x = 0 := by
  set n := e.frozen.shape.prod
  have hT : ∀ i < n, Tendsto (fun m : ℕ => area (linspace a b (m + 2)) ((linspace a b (m + 2)).map (g i))) atTop (𝓝 (μ i)) := by
    intro i hi
    simp only [area_trapz]
    rw [← hμ i hi]
    exact (tendsto_add_atTop_iff_nat 1).2 (trapz_tendsto h (hg i hi))
  set X : ℕ → List ℝ := fun m => linspace a b (m + 2) with hX
  set T : ℕ → ℕ → ℝ := fun m i => area (X m) ((X m).map (g i)) with hTd
  set P : ℕ → ℕ → List ℝ := fun m i => ((X m).map (g i)).map (· / T m i) with hPd
  have hl : ∀ m i, (P m i).length = (X m).length := fun m i => by simp [hPd]
  have hG : ∀ m i x, brokenLine (X m) (P m i) x = brokenLine (X m) ((X m).map (g i)) x / T m i := fun m i x =>
    ConvertInterpError.line_div (mesh_linspace h m) _ (by simp [hX]) _ x
  have hw := width_tendsto a b
  have hev : ∀ᶠ m in atTop, ∀ i < n, T m i ≠ 0 := by
    have : ∀ᶠ m in atTop, ∀ i ∈ Finset.range n, T m i ≠ 0 :=
      (Filter.eventually_all_finset _).2 fun i hi => (hT i (Finset.mem_range.1 hi)).eventually_ne (h0 i (Finset.mem_range.1 hi))
    filter_upwards [this] with m hm i hi using hm i (Finset.mem_range.2 hi)
  have hPX : ∀ m i, brokenLine (linspace a b (m + 2)) (fineRow a b (g i) m) = brokenLine (X m) (P m i) := fun _ _ => rfl
  have hEX : ∀ m, fineInterp e a b g m = ⟨rowCreate interpCls, rowCreate interpCls,
      frozenOf interpCls [("xvals", vec (X m))] [(X m).length] ((List.range n).map fun i => [nums (P m i)]) e.frozen.shape, none⟩ := fun _ => rfl
  simp only [hPX, hEX]
  refine ⟨?_, ?_, ?_, ?_⟩
  · filter_upwards [hev] with m hm
    refine ⟨?_, ?_⟩
    · refine ConvertInterpError.interp_conversion ev e (X m) (mesh_linspace h m).two g (hpdf _ (mesh_linspace h m).strict) (P m) fun i hi => ?_
      obtain ⟨ys, c, h1, -, h3, -⟩ := (InterpPdf.C12_interp_normalises (X m) ((X m).map (g i)) ((mesh_linspace h m).grid _ (by simp [hX]))).2 (hm i hi)
      unfold interpNorm
      rw [h1]
      simp only [h3, hPd, hTd]
    · intro t ht
      refine ConvertInterpError.ensArr_at _ _ (by simp [frozenOf, n]) t ht _ ?_
      intro i hi v _
      simp only [interpPdfElem, interpEval]
      rw [ConvertInterpError.tableRow_interp (X m) n (P m) e.frozen.shape (fun i _ => hl m i) i hi, finites_nums, metaGrid_interp]
      simp [EndToEnd.interp_line (X m) (P m i) ((mesh_linspace h m).grid _ (hl m i)) v]
  · intro i hi x hx hc
    simp only [hG]
    refine Tendsto.div ?_ (hT i hi) (h0 i hi)
    rw [Metric.tendsto_atTop]
    intro ε hε
    obtain ⟨δ, hδ, hd⟩ := Metric.continuousWithinAt_iff.1 hc ε hε
    obtain ⟨N, hN⟩ := Metric.tendsto_atTop.1 hw δ hδ
    refine ⟨N, fun m hm => ?_⟩
    have e3 := hN m hm
    rw [Real.dist_eq, sub_zero, abs_of_pos (div_pos (sub_pos.2 h) (by positivity))] at e3
    obtain ⟨u, hu, v, hv, hux, hvx, hb⟩ := line_near (mesh_linspace h m) (g i) x hx
    have e1 := hd hu (by rw [Real.dist_eq]; linarith)
    have e2 := hd hv (by rw [Real.dist_eq]; linarith)
    rw [Real.dist_eq] at e1 e2 ⊢
    exact hb.trans_lt (max_lt e1 e2)
  · intro i hi hc
    have hline : TendstoUniformlyOn (fun m => brokenLine (X m) ((X m).map (g i))) (g i) atTop (Icc a b) := by
      rw [Metric.tendstoUniformlyOn_iff]
      intro ε hε
      obtain ⟨δ, hδ, hd⟩ := Metric.uniformContinuousOn_iff.1 (isCompact_Icc.uniformContinuousOn_of_continuous hc) ε hε
      obtain ⟨N, hN⟩ := Metric.tendsto_atTop.1 hw δ hδ
      refine eventually_atTop.2 ⟨N, fun m hm x hx => ?_⟩
      have e3 := hN m hm
      rw [Real.dist_eq, sub_zero, abs_of_pos (div_pos (sub_pos.2 h) (by positivity))] at e3
      obtain ⟨u, hu, v, hv, hux, hvx, hb⟩ := line_near (mesh_linspace h m) (g i) x hx
      have e1 := hd u hu x hx (by rw [Real.dist_eq]; linarith)
      have e2 := hd v hv x hx (by rw [Real.dist_eq]; linarith)
      rw [Real.dist_eq] at e1 e2
      rw [dist_comm, Real.dist_eq]
      exact hb.trans_lt (max_lt e1 e2)
    obtain ⟨B, hB⟩ := (hg i hi).bound
    have hμ0 := abs_pos.2 (h0 i hi)
    rw [Metric.tendstoUniformlyOn_iff] at hline ⊢
    intro ε hε
    have hB0 : 0 ≤ B := (abs_nonneg _).trans (hB a (left_mem_Icc.2 h.le))
    have e1 := hline (ε * |μ i| / 4) (by positivity)
    have e2 := Metric.tendsto_nhds.1 (hT i hi) (|μ i| / 2) (half_pos hμ0)
    have e3 := Metric.tendsto_nhds.1 (hT i hi) (ε * |μ i| ^ 2 / (4 * (B + 1))) (by positivity)
    filter_upwards [e1, e2, e3] with m h1 h2 h3 x hx
    have h1 := h1 x hx
    rw [dist_comm, Real.dist_eq] at h1
    rw [Real.dist_eq] at h2 h3
    have h4 : |μ i| / 2 ≤ |T m i| := by
      have := abs_sub_abs_le_abs_sub (μ i) (T m i)
      rw [abs_sub_comm] at this
      linarith
    have hT0 : 0 < |T m i| := by linarith
    rw [dist_comm, Real.dist_eq, hG]
    have hne : T m i ≠ 0 := abs_pos.1 hT0
    have hne' := h0 i hi
    rw [show brokenLine (X m) ((X m).map (g i)) x / T m i - g i x / μ i
      = ((brokenLine (X m) ((X m).map (g i)) x - g i x) * μ i - g i x * (T m i - μ i)) / (T m i * μ i) by field_simp; ring, abs_div, abs_mul, div_lt_iff₀ (mul_pos hT0 hμ0)]
    have h5 : |(brokenLine (X m) ((X m).map (g i)) x - g i x) * μ i| < ε * |μ i| / 4 * |μ i| := by
      rw [abs_mul]
      exact mul_lt_mul_of_pos_right h1 hμ0
    have h6 : |g i x * (T m i - μ i)| ≤ ε * |μ i| ^ 2 / 4 := by
      rw [abs_mul]
      calc _ ≤ (B + 1) * (ε * |μ i| ^ 2 / (4 * (B + 1))) := mul_le_mul ((hB x hx).trans (by linarith)) h3.le (abs_nonneg _) (by linarith)
        _ = ε * |μ i| ^ 2 / 4 := by field_simp
    calc _ ≤ |(brokenLine (X m) ((X m).map (g i)) x - g i x) * μ i| + |g i x * (T m i - μ i)| := abs_sub _ _
      _ < ε * |μ i| / 4 * |μ i| + ε * |μ i| ^ 2 / 4 := add_lt_add_of_lt_of_le h5 h6
      _ = ε * (|μ i| / 2 * |μ i|) := by ring
      _ ≤ ε * (|T m i| * |μ i|) := by gcongr
  · intro m i x hx
    exact ConvertInterpError.line_outside (mesh_linspace h m) _ (hl m i) x hx

/-- **C147, interpolated PDFs on finer and finer grids.** The densities `g i` of an ensemble of any class (what its `pdf` answers at increasing points) are bounded on `[a, b]` and continuous
at almost every point, with integral `μ i`, not zero, over `[a, b]`. On all grids with enough equally spaced points the conversion succeeds. As the grid gets finer the converted
`pdf` tends to `g / μ` at every point of `[a, b]` where `g` is continuous, uniformly if `g` is continuous on `[a, b]`; outside it is zero. -/
theorem C147_interp {ev : Evals ℝ} {e : Ens ℝ} {g : ℕ → ℝ → ℝ} {a b : ℝ} (h : a < b)
    (hpdf : ∀ t : List ℝ, t.Pairwise (· < ·) →
      ev.pdf e.frozen (.arr (vec t)) = .ok ⟨e.frozen.shape ++ [t.length], nums ((List.range e.frozen.shape.prod).map fun i => t.map (g i)).flatten⟩)
    (hg : ∀ i < e.frozen.shape.prod, Tame a b (g i)) (μ : ℕ → ℝ) (hμ : ∀ i < e.frozen.shape.prod, ∫ x in a..b, g i x = μ i) (h0 : ∀ i < e.frozen.shape.prod, μ i ≠ 0) :
    ∃ (c : ℕ → Ens ℝ) (G : ℕ → ℕ → ℝ → ℝ),
      (∀ᶠ m in atTop, convertTo (interpPy ev) e none [("xvals", .arr (vec (linspace a b (m + 2))))] = .ok (c m) ∧
        ∀ t : List ℝ, t.Pairwise (· < ·) → ensArr interpPdfElem (c m).frozen (.arr (vec t))
          = .ok ⟨e.frozen.shape ++ [t.length], nums ((List.range e.frozen.shape.prod).map fun i => t.map (G m i)).flatten⟩) ∧
      (∀ i < e.frozen.shape.prod, ∀ x ∈ Icc a b, ContinuousWithinAt (g i) (Icc a b) x → Tendsto (fun m => G m i x) atTop (𝓝 (g i x / μ i))) ∧
      (∀ i < e.frozen.shape.prod, ContinuousOn (g i) (Icc a b) → TendstoUniformlyOn (fun m => G m i) (fun x => g i x / μ i) atTop (Icc a b)) ∧
      ∀ m i x, x < a ∨ b < x → G m i x = 0 :=
  ⟨fineInterp e a b g, fun m i => brokenLine (linspace a b (m + 2)) (fineRow a b (g i) m), interp_fine h hpdf hg μ hμ h0⟩

/-! ## cases: two uniform PDFs on the unit interval, of a class known only through its answers -/

noncomputable def ramp (x : ℝ) : ℝ := min 1 (max 0 x)

/-- a class whose `cdf` is the ramp and whose `pdf` is one, whatever is stored -/
noncomputable def rampEv : Evals ℝ := ⟨ensArr fun _ _ _ => .num (some 1), ensArr fun _ _ v => .num (some (ramp v)), fun _ _ => .error .Unmodelled⟩

noncomputable def rampEns : Ens ℝ := ⟨rowCreate histCls, rowCreate histCls, frozenOf histCls [("bins", vec [0, 1])] [1] ((List.range [2].prod).map fun _ => [nums [1]]) [2], none⟩

theorem ramp_known (a b : ℝ) (h : ramp a < ramp b) : Known rampEv rampEns (fun _ => ramp) a b where
  shape := by simp [rampEns, frozenOf]
  cdf := fun t ht => ConvertInterpError.ensArr_at _ rampEns.frozen (by simp [rampEns, frozenOf]) t ht _ fun _ _ _ _ => rfl
  mono := fun _ x y hxy => min_le_min_left _ (max_le_max_left _ hxy)
  unit := fun _ x => ⟨le_min zero_le_one (le_max_left _ _), min_le_left _ _⟩
  mass := fun _ => h

theorem ramp_in {x : ℝ} (h0 : 0 ≤ x) (h1 : x ≤ 1) : ramp x = x := by
  unfold ramp
  rw [max_eq_right h0, min_eq_right h1]

example := C147_hist_cdf (show (0 : ℝ) < 1 by norm_num) (ramp_known 0 1 (by norm_num [ramp]))
/-- half of the mass: the median of what is kept is one quarter -/
example : ∃ (c : ℕ → Ens ℝ) (Q Q' : ℕ → ℝ), (∀ m, convertTo (histPy rampEv) rampEns none [("bins", .arr (vec (linspace 0 (1 / 2) (m + 2))))] = .ok (c m)) ∧
    (∀ m, ensPpf (dispatch (histPpfRow (c m).frozen) (histPpfRow (c m).frozen) (histPpfRow (c m).frozen)) [[1 / 2], [1 / 2]] = .ok [[.fin (Q m)], [.fin (Q' m)]]) ∧
    Tendsto Q atTop (𝓝 (1 / 4)) ∧ Tendsto Q' atTop (𝓝 (1 / 4)) := by
  obtain ⟨c, Q, h1, h2, h3⟩ := C147_hist_ppf (show (0 : ℝ) < 1 / 2 by norm_num) (ramp_known 0 (1 / 2) (by norm_num [ramp]))
  have r0 : ramp 0 = 0 := ramp_in le_rfl zero_le_one
  have r1 : ramp (1 / 2) = 1 / 2 := ramp_in (by norm_num) (by norm_num)
  have hlo : ∀ x < (1 / 4 : ℝ), ramp x < ramp 0 + 1 / 2 * (ramp (1 / 2) - ramp 0) := by
    intro x hx
    rw [r0, r1]
    unfold ramp
    refine (min_le_right _ _).trans_lt (max_lt (by norm_num) (by linarith))
  have hhi : ∀ x > (1 / 4 : ℝ), ramp 0 + 1 / 2 * (ramp (1 / 2) - ramp 0) < ramp x := by
    intro x hx
    rw [r0, r1]
    exact lt_min (by norm_num) (lt_max_of_lt_right (by linarith))
  refine ⟨c, fun m => Q m 0 (1 / 2), fun m => Q m 1 (1 / 2), h1, fun m => ?_, h3 0 _ _ (by norm_num) (by norm_num) hlo hhi, h3 1 _ _ (by norm_num) (by norm_num) hlo hhi⟩
  have := h2 m [1 / 2] (by simp) (by simp; norm_num)
  simpa [rampEns, frozenOf, List.range_succ, List.replicate_succ] using this

example := C147_hist_pdf (show (0 : ℝ) < 1 / 2 by norm_num) (ramp_known 0 (1 / 2) (by norm_num [ramp]))

example := C147_interp (ev := rampEv) (e := rampEns) (g := fun _ _ => 1) (show (0 : ℝ) < 1 / 2 by norm_num)
  (fun t ht => ConvertInterpError.ensArr_at _ rampEns.frozen (by simp [rampEns, frozenOf]) t ht _ fun _ _ _ _ => rfl)
  (fun _ _ => tame_of_continuous continuous_const) (fun _ => 1 / 2) (fun _ _ => by simp) (fun _ _ => by norm_num)

end Verif.Props.FineConvert
