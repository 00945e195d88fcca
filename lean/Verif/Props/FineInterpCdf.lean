import Verif.Props.FineConvert
import Verif.Props.PitLaw
import Verif.Model.EnsCurves

/-!
# C147: `cdf` and `ppf` of conversions to interpolated PDFs on finer and finer grids
-/

set_option linter.unusedSectionVars false
set_option autoImplicit false

namespace Verif.Props.FineConvert

open Verif Verif.Np Verif.Model Verif.Spec Verif.Lemmas Verif.Lemmas.Riemann MeasureTheory Filter Set Topology
open Verif.Props.Convert Verif.Props.ConvertError Verif.Props.Metrics Verif.Props.FineGrid Verif.Props.InterpPdf

/-- `_ppf` of PDF `i` of an ensemble of interpolated PDFs, `interp_pdf.py` 132-144; the cumulated values are those computed when the object was built -/
noncomputable def interpPpfRow (fr : Frozen ℝ) (i : ℕ) (q : ℝ) : Option ℝ :=
  (finites (tableRow fr i "yvals")).bind fun r => match interpNormRow (metaGrid fr.metadata "xvals") r with
    | .ok (some (_, c)) => interpPpf (metaGrid fr.metadata "xvals") c q
    | _ => none

/-- the distribution function of one converted row, near the integral of the original density -/
theorem cdf_limit {a b : ℝ} (h : a < b) {f : ℝ → ℝ} (hc : ContinuousOn f (Icc a b)) {μ : ℝ} (hμ : 0 < μ)
    (hu : TendstoUniformlyOn (fun m => brokenLine (linspace a b (m + 2)) (fineRow a b f m)) (fun x => f x / μ) atTop (Icc a b)) (C : ℕ → ℝ → ℝ)
    (hC : ∀ᶠ m in atTop, ∃ c, Constructed (linspace a b (m + 2)) (fineRow a b f m) c ∧ (∀ v ∈ fineRow a b f m, 0 ≤ v) ∧
      ∀ x, interpCdf (linspace a b (m + 2)) c x = some (C m x)) :
    TendstoUniformlyOn C (fun x => (∫ t in a..x, f t) / μ) atTop (Icc a b) := by
  obtain ⟨B, hB⟩ := (tame_of_continuousOn hc).bound
  have hB0 : 0 ≤ B := (abs_nonneg _).trans (hB a (left_mem_Icc.2 h.le))
  rw [Metric.tendstoUniformlyOn_iff] at hu ⊢
  intro ε hε
  have hba := sub_pos.2 h
  have e1 := hu (min 1 (ε / (2 * (b - a)))) (lt_min one_pos (by positivity))
  have e2 := Metric.tendsto_nhds.1 (width_tendsto a b) (ε / (2 * (B / μ + 1))) (by positivity)
  filter_upwards [e1, e2, hC] with m h1 h2 h3 x hx
  obtain ⟨c, hcon, hpos, hCx⟩ := h3
  set X := linspace a b (m + 2) with hX
  set l := brokenLine X (fineRow a b f m) with hl
  have mesh : ConvertInterpError.Mesh X a b ((b - a) / ((m + 1 : ℕ) : ℝ)) := mesh_linspace h m
  have hlen : (fineRow a b f m).length = X.length := by simp [fineRow, hX]
  obtain ⟨hint, -, hIic⟩ := ConvertInterpError.line_integral mesh _ hlen
  rw [Real.dist_eq, sub_zero, abs_of_pos (div_pos hba (by positivity))] at h2
  set w := (b - a) / ((m + 1 : ℕ) : ℝ) with hw
  have hdist : ∀ t ∈ Icc a b, |l t - f t / μ| ≤ min 1 (ε / (2 * (b - a))) := by
    intro t ht
    have := h1 t ht
    rw [Real.dist_eq, abs_sub_comm] at this
    exact this.le
  have hlb : ∀ t ∈ Icc a b, l t ≤ B / μ + 1 := by
    intro t ht
    have e3 := (abs_le.1 ((hdist t ht).trans (min_le_left _ _))).2
    have e4 : f t / μ ≤ B / μ := div_le_div_of_nonneg_right ((le_abs_self _).trans (hB t ht)) hμ.le
    linarith
  obtain ⟨-, -, -, G, hG, hclose⟩ := interp_cdf_close X (fineRow a b f m) c hcon hpos l
    (fun t => EndToEnd.interp_line X _ (mesh.grid _ hlen) t) ((B / μ + 1) * w) (by
      intro j u v hu hv
      have hr := mesh.range u (List.mem_of_getElem? hu)
      have hr' := mesh.range v (List.mem_of_getElem? hv)
      have hgap := mesh.gaps j u v hu hv
      have huv : u ≤ v := by
        obtain ⟨h5, rfl⟩ := List.getElem?_eq_some_iff.1 hu
        obtain ⟨h6, rfl⟩ := List.getElem?_eq_some_iff.1 hv
        exact (List.pairwise_iff_getElem.1 mesh.strict j (j + 1) h5 h6 (by omega)).le
      rw [← intervalIntegral.integral_of_le huv]
      have hm := intervalIntegral.integral_mono_on huv (hint.intervalIntegrable) (intervalIntegrable_const (c := B / μ + 1))
        fun t ht => hlb t ⟨hr.1.trans ht.1, ht.2.trans hr'.2⟩
      rw [intervalIntegral.integral_const, smul_eq_mul] at hm
      have : (v - u) * (B / μ + 1) ≤ w * (B / μ + 1) := mul_le_mul_of_nonneg_right hgap (by positivity)
      linarith)
  have hGC : G x = C m x := Option.some.inj ((hG x).symm.trans (hCx x))
  have hb := hclose x
  rw [hGC, hIic x hx.1] at hb
  have hfi : IntervalIntegrable (fun t => f t / μ) volume a x := by
    apply ContinuousOn.intervalIntegrable
    rw [uIcc_of_le hx.1]
    exact (hc.mono (Icc_subset_Icc_right hx.2)).div_const _
  have hdiff : |(∫ t in a..x, l t) - (∫ t in a..x, f t) / μ| ≤ ε / 2 := by
    rw [← intervalIntegral.integral_div, ← intervalIntegral.integral_sub hint.intervalIntegrable hfi]
    have := intervalIntegral.norm_integral_le_of_norm_le_const (f := fun t => l t - f t / μ) (a := a) (b := x) (C := ε / (2 * (b - a))) (by
      intro t ht
      rw [uIoc_of_le hx.1] at ht
      exact (hdist t ⟨ht.1.le, ht.2.trans hx.2⟩).trans (min_le_right _ _))
    rw [Real.norm_eq_abs, abs_of_nonneg (by linarith [hx.1] : 0 ≤ x - a)] at this
    refine this.trans ?_
    calc ε / (2 * (b - a)) * (x - a) ≤ ε / (2 * (b - a)) * (b - a) := by gcongr; exact hx.2
      _ = ε / 2 := by field_simp
  have hcell : (B / μ + 1) * w < ε / 2 := by
    calc (B / μ + 1) * w < (B / μ + 1) * (ε / (2 * (B / μ + 1))) := mul_lt_mul_of_pos_left h2 (by positivity)
      _ = ε / 2 := by field_simp
  rw [dist_comm, Real.dist_eq]
  calc _ = |(C m x - ∫ t in a..x, l t) + ((∫ t in a..x, l t) - (∫ t in a..x, f t) / μ)| := by ring_nf
    _ ≤ _ := abs_add_le _ _
    _ < ε / 2 + ε / 2 := add_lt_add_of_lt_of_le (hb.trans_lt hcell) hdiff
    _ = ε := by ring

/-- what the rows of the converted ensembles answer -/
theorem fine_rows {a b : ℝ} (h : a < b) {f : ℝ → ℝ} (hc : ContinuousOn f (Icc a b)) (hf : ∀ x ∈ Icc a b, 0 ≤ f x) {μ : ℝ} (hm : ∫ x in a..b, f x = μ) (hμ : 0 < μ)
    (hu : TendstoUniformlyOn (fun m => brokenLine (linspace a b (m + 2)) (fineRow a b f m)) (fun x => f x / μ) atTop (Icc a b)) :
    ∃ (c : ℕ → List ℝ) (C Q : ℕ → ℝ → ℝ), (∀ᶠ m in atTop, interpNormRow (linspace a b (m + 2)) (fineRow a b f m) = .ok (some (fineRow a b f m, c m)) ∧
        (∀ x, interpCdf (linspace a b (m + 2)) (c m) x = some (C m x)) ∧ (∀ q, 0 ≤ q → q ≤ 1 → interpPpf (linspace a b (m + 2)) (c m) q = some (Q m q)) ∧
        Monotone (C m) ∧ (∀ x < a, C m x = 0) ∧ ∀ x ≥ b, C m x = 1) ∧
      TendstoUniformlyOn C (fun x => (∫ t in a..x, f t) / μ) atTop (Icc a b) ∧
      ∀ q y, 0 < q → q < 1 → (∀ x ∈ Icc a b, x < y → ∫ t in a..x, f t < q * μ) → (∀ x ∈ Icc a b, y < x → q * μ < ∫ t in a..x, f t) →
        Tendsto (fun m => Q m q) atTop (𝓝 y) := by
  have hT : Tendsto (fun m : ℕ => area (linspace a b (m + 2)) ((linspace a b (m + 2)).map f)) atTop (𝓝 μ) := by
    simp only [area_trapz]
    rw [← hm]
    exact (tendsto_add_atTop_iff_nat 1).2 (trapz_tendsto h (tame_of_continuousOn hc))
  have hpos := hT.eventually (lt_mem_nhds hμ)
  have hrow : ∀ᶠ m in atTop, ∃ c, interpNormRow (linspace a b (m + 2)) (fineRow a b f m) = .ok (some (fineRow a b f m, c)) ∧
      Constructed (linspace a b (m + 2)) (fineRow a b f m) c ∧ ∀ v ∈ fineRow a b f m, 0 ≤ v := by
    filter_upwards [hpos] with m hm0
    obtain ⟨ys, c, h1, h2, h3, h4⟩ := (C12_interp_normalises (linspace a b (m + 2)) ((linspace a b (m + 2)).map f) ((mesh_linspace h m).grid _ (by simp))).2 hm0.ne'
    obtain rfl : ys = fineRow a b f m := h3
    refine ⟨c, h4, ⟨_, (mesh_linspace h m).grid _ (by simp), h1⟩, ?_⟩
    intro v hv
    obtain ⟨u, hu', rfl⟩ := List.mem_map.1 hv
    obtain ⟨x, hx, rfl⟩ := List.mem_map.1 hu'
    exact div_nonneg (hf x ((mesh_linspace h m).range x hx)) hm0.le
  classical
  choose! c hc1 hc2 hc3 using fun m (hm' : ∃ c, interpNormRow (linspace a b (m + 2)) (fineRow a b f m) = .ok (some (fineRow a b f m, c)) ∧
      Constructed (linspace a b (m + 2)) (fineRow a b f m) c ∧ ∀ v ∈ fineRow a b f m, 0 ≤ v) => hm'
  set C : ℕ → ℝ → ℝ := fun m x => (interpCdf (linspace a b (m + 2)) (c m) x).getD 0 with hC
  set Q : ℕ → ℝ → ℝ := fun m q => (interpPpf (linspace a b (m + 2)) (c m) q).getD 0 with hQ
  have hall : ∀ᶠ m in atTop, interpNormRow (linspace a b (m + 2)) (fineRow a b f m) = .ok (some (fineRow a b f m, c m)) ∧
        (∀ x, interpCdf (linspace a b (m + 2)) (c m) x = some (C m x)) ∧ (∀ q, 0 ≤ q → q ≤ 1 → interpPpf (linspace a b (m + 2)) (c m) q = some (Q m q)) ∧
        Monotone (C m) ∧ (∀ x < a, C m x = 0) ∧ (∀ x ≥ b, C m x = 1) ∧ Constructed (linspace a b (m + 2)) (fineRow a b f m) (c m) ∧ (∀ v ∈ fineRow a b f m, 0 ≤ v) ∧
        ∀ q, 0 ≤ q → q ≤ 1 → C m (Q m q) = max q (C m a) ∧ Q m q ∈ Icc a b := by
    filter_upwards [hrow] with m hr
    obtain ⟨s1, s2, s3⟩ := C13_cdf_shape _ _ _ (hc2 m hr) (hc3 m hr)
    have hCs : ∀ x, interpCdf (linspace a b (m + 2)) (c m) x = some (C m x) := by
      intro x
      obtain ⟨p, q, hp, -⟩ := s3 x x le_rfl
      simp only [hC, hp, Option.getD_some]
    have hrange := (mesh_linspace h m).range
    obtain ⟨x0, x1, t, hxs⟩ : ∃ x0 x1 t, linspace a b (m + 2) = x0 :: x1 :: t := by
      match linspace a b (m + 2), (mesh_linspace h m).two with
      | u :: v :: t, _ => exact ⟨u, v, t, rfl⟩
    obtain ⟨y0, ys, hys⟩ := List.exists_cons_of_ne_nil (l := fineRow a b f m) (by
      intro h0
      have : (fineRow a b f m).length = m + 2 := by simp [fineRow, length_linspace]
      rw [h0] at this
      simp at this)
    have hx0 : x0 = a := by
      have := (mesh_linspace h m).first
      rw [hxs] at this
      simpa using this
    have hCa : C m a = y0 * (x1 - x0) / 2 := by
      have := (C13_cdf_at_grid _ _ _ (hc2 m hr)).2 x0 x1 y0 (by simp [hxs]) (by simp [hxs]) (by simp [hys])
      rw [hx0, hCs] at this
      rw [hx0]
      exact Option.some.inj this
    have hq : ∀ q, 0 ≤ q → q ≤ 1 → interpPpf (linspace a b (m + 2)) (c m) q = some (Q m q) ∧ C m (Q m q) = max q (C m a) ∧ Q m q ∈ Icc a b := by
      intro q q0 q1
      obtain ⟨x, h1, h2, h3, z, hz, h4⟩ := C14_cdf_ppf_exact _ _ _ (hc2 m hr) (hc3 m hr) x0 x1 y0 (by simp [hxs]) (by simp [hxs]) (by simp [hys]) q q0 q1
      have : Q m q = x := by simp only [hQ, h1, Option.getD_some]
      rw [this]
      refine ⟨h1, ?_, hx0 ▸ h3, h4.trans (hrange z hz).2⟩
      rw [hCs] at h2
      rw [hCa]
      exact Option.some.inj h2
    refine ⟨hc1 m hr, hCs, fun q q0 q1 => (hq q q0 q1).1, ?_, ?_, ?_, hc2 m hr, hc3 m hr, fun q q0 q1 => (hq q q0 q1).2⟩
    · intro x y hxy
      obtain ⟨p, q, hp, hq, -, hpq, -⟩ := s3 x y hxy
      rw [hCs] at hp hq
      rw [Option.some.inj hp, Option.some.inj hq]
      exact hpq
    · intro x hx
      have := s1 x fun z hz => hx.trans_le (hrange z hz).1
      rw [hCs] at this
      exact Option.some.inj this
    · intro x hx
      have := s2 x fun z hz => (hrange z hz).2.trans hx
      rw [hCs] at this
      exact Option.some.inj this
  have hlim := cdf_limit h hc hμ hu C (hall.mono fun m hm' => ⟨c m, hm'.2.2.2.2.2.2.1, hm'.2.2.2.2.2.2.2.1, hm'.2.1⟩)
  refine ⟨c, C, Q, hall.mono fun m hm' => ⟨hm'.1, hm'.2.1, hm'.2.2.1, hm'.2.2.2.1, hm'.2.2.2.2.1, hm'.2.2.2.2.2.1⟩, hlim, ?_⟩
  intro q y q0 q1 hlo hhi
  have hat : ∀ x ∈ Icc a b, Tendsto (fun m => C m x) atTop (𝓝 ((∫ t in a..x, f t) / μ)) := fun x hx => hlim.tendsto_at hx
  have hCa : ∀ᶠ m in atTop, C m a < q := by
    refine (hat a (left_mem_Icc.2 h.le)).eventually (gt_mem_nhds ?_)
    simpa using q0
  rw [tendsto_order]
  constructor
  · intro z hz
    by_cases hza : z < a
    · filter_upwards [hall] with m hm'
      exact hza.trans_le ((hm'.2.2.2.2.2.2.2.2 q q0.le q1.le).2.1)
    · by_cases hzb : b < z
      · exfalso
        have := hlo b (right_mem_Icc.2 h.le) (hzb.trans hz)
        rw [hm] at this
        nlinarith
      push Not at hza hzb
      have hz' : (∫ t in a..z, f t) / μ < q := (div_lt_iff₀ hμ).2 (hlo z ⟨hza, hzb⟩ hz)
      filter_upwards [hall, hCa, (hat z ⟨hza, hzb⟩).eventually (gt_mem_nhds hz')] with m hm' h1 h2
      by_contra hcon
      push Not at hcon
      have h3 := hm'.2.2.2.1 hcon
      rw [(hm'.2.2.2.2.2.2.2.2 q q0.le q1.le).1, max_eq_left h1.le] at h3
      linarith
  · intro z hz
    by_cases hzb : b < z
    · filter_upwards [hall] with m hm'
      exact ((hm'.2.2.2.2.2.2.2.2 q q0.le q1.le).2.2).trans_lt hzb
    · by_cases hza : z < a
      · exfalso
        have := hhi a (left_mem_Icc.2 h.le) (hz.trans hza)
        rw [intervalIntegral.integral_same] at this
        nlinarith
      push Not at hza hzb
      have hz' : q < (∫ t in a..z, f t) / μ := (lt_div_iff₀ hμ).2 (hhi z ⟨hza, hzb⟩ hz)
      filter_upwards [hall, hCa, (hat z ⟨hza, hzb⟩).eventually (lt_mem_nhds hz')] with m hm' h1 h2
      by_contra hcon
      push Not at hcon
      have h3 := hm'.2.2.2.1 hcon
      rw [(hm'.2.2.2.2.2.2.2.2 q q0.le q1.le).1, max_eq_left h1.le] at h3
      linarith

/-- **C147, `cdf` and `ppf` of interpolated PDFs on finer and finer grids.** The densities `g i` of an ensemble of any class (what its `pdf` answers at increasing points) are continuous and
not negative on `[a, b]`, with integral `μ i > 0`. On all grids with enough equally spaced points the conversion succeeds. As the grid gets finer the converted `cdf` tends, uniformly on
`[a, b]`, to the integral of the density from `a`, divided by `μ`; it is 0 left of `a` and 1 from `b` on. The quantile for `q` strictly between 0 and 1 tends to the point `y` where the
integral passes from below to above `q μ`. -/
theorem C147_interp_cdf {ev : Evals ℝ} {e : Ens ℝ} {g : ℕ → ℝ → ℝ} {a b : ℝ} (h : a < b)
    (hpdf : ∀ t : List ℝ, t.Pairwise (· < ·) →
      ev.pdf e.frozen (.arr (vec t)) = .ok ⟨e.frozen.shape ++ [t.length], nums ((List.range e.frozen.shape.prod).map fun i => t.map (g i)).flatten⟩)
    (hg : ∀ i < e.frozen.shape.prod, ContinuousOn (g i) (Icc a b)) (hg0 : ∀ i < e.frozen.shape.prod, ∀ x ∈ Icc a b, 0 ≤ g i x)
    (μ : ℕ → ℝ) (hμ : ∀ i < e.frozen.shape.prod, ∫ x in a..b, g i x = μ i) (h0 : ∀ i < e.frozen.shape.prod, 0 < μ i) :
    ∃ (c : ℕ → Ens ℝ) (C Q : ℕ → ℕ → ℝ → ℝ),
      (∀ᶠ m in atTop, convertTo (interpPy ev) e none [("xvals", .arr (vec (linspace a b (m + 2))))] = .ok (c m) ∧
        (∀ t : List ℝ, t.Pairwise (· < ·) → ensEval interpCdfEval (c m).frozen t = .ok ((List.range e.frozen.shape.prod).map fun i => t.map fun x => some (C m i x))) ∧
        (∀ t : List ℝ, t.Pairwise (· < ·) → (∀ q ∈ t, 0 < q ∧ q < 1) →
          ensPpf (dispatch (interpPpfRow (c m).frozen) (interpPpfRow (c m).frozen) (interpPpfRow (c m).frozen)) (List.replicate e.frozen.shape.prod t)
          = .ok ((List.range e.frozen.shape.prod).map fun i => t.map fun q => .fin (Q m i q))) ∧
        ∀ i < e.frozen.shape.prod, Monotone (C m i) ∧ (∀ x < a, C m i x = 0) ∧ ∀ x ≥ b, C m i x = 1) ∧
      (∀ i < e.frozen.shape.prod, TendstoUniformlyOn (fun m => C m i) (fun x => (∫ t in a..x, g i t) / μ i) atTop (Icc a b)) ∧
      ∀ i < e.frozen.shape.prod, ∀ q y, 0 < q → q < 1 → (∀ x ∈ Icc a b, x < y → ∫ t in a..x, g i t < q * μ i) → (∀ x ∈ Icc a b, y < x → q * μ i < ∫ t in a..x, g i t) →
        Tendsto (fun m => Q m i q) atTop (𝓝 y) := by
  obtain ⟨hconv, -, hunif, -⟩ := interp_fine h hpdf (fun i hi => tame_of_continuousOn (hg i hi)) μ hμ fun i hi => (h0 i hi).ne'
  have hr := fun i (hi : i < e.frozen.shape.prod) => fine_rows h (hg i hi) (hg0 i hi) (hμ i hi) (h0 i hi) (hunif i hi (hg i hi))
  choose! c C Q hall hlim hq using hr
  refine ⟨fineInterp e a b g, fun m i => C i m, fun m i => Q i m, ?_, fun i hi => hlim i hi, fun i hi => hq i hi⟩
  have hev : ∀ᶠ m in atTop, ∀ i ∈ Finset.range e.frozen.shape.prod, _ :=
    (Filter.eventually_all_finset _).2 fun i hi => hall i (Finset.mem_range.1 hi)
  have hl : ∀ m i, (fineRow a b (g i) m).length = (linspace a b (m + 2)).length := fun m i => by simp [fineRow]
  filter_upwards [hconv, hev] with m hm1 hm2
  have htab : ∀ i < e.frozen.shape.prod, tableRow (fineInterp e a b g m).frozen i "yvals" = nums (fineRow a b (g i) m) := fun i hi =>
    ConvertInterpError.tableRow_interp (linspace a b (m + 2)) e.frozen.shape.prod (fun i => fineRow a b (g i) m) e.frozen.shape (fun i _ => hl m i) i hi
  have hmeta : metaGrid (fineInterp e a b g m).frozen.metadata "xvals" = linspace a b (m + 2) := metaGrid_interp _ _ _ _
  have hnp : (fineInterp e a b g m).frozen.npdf = e.frozen.shape.prod := by simp [fineInterp, frozenOf]
  refine ⟨hm1.1, ?_, ?_, fun i hi => (hm2 i (Finset.mem_range.2 hi)).2.2.2⟩
  · intro t ht
    unfold ensEval
    rw [Evaluation.C01_shared_grid_partial _ _ _ (Or.inl ht), Evaluation.SharedSpec, hnp]
    congr 1
    apply List.map_congr_left
    intro i hi
    have hi := List.mem_range.1 hi
    apply List.map_congr_left
    intro x _
    unfold interpCdfEval
    rw [htab i hi, finites_nums, hmeta]
    obtain ⟨h1, h2, -⟩ := hm2 i (Finset.mem_range.2 hi)
    simp only [Option.bind_some, h1, h2]
  · intro t ht hqt
    rw [Props.Front.C80_ppf_shared_partial _ _ _ (Or.inl ht)]
    congr 1
    apply List.map_congr_left
    intro i hi
    have hi := List.mem_range.1 hi
    apply List.map_congr_left
    intro q hq'
    obtain ⟨q0, q1⟩ := hqt q hq'
    rw [ppfFront, if_neg q0.ne', if_neg q1.ne, if_pos ⟨q0, q1⟩]
    unfold interpPpfRow
    rw [htab i hi, finites_nums, hmeta]
    obtain ⟨h1, -, h3, -⟩ := hm2 i (Finset.mem_range.2 hi)
    simp only [Option.bind_some, h1, h3 q q0.le q1.le, Ext.ofOption]

/-- two uniform PDFs, the lower half of which is kept: the median of what is kept tends to one quarter -/
example : ∃ (c : ℕ → Ens ℝ) (Q Q' : ℕ → ℝ), (∀ᶠ m in atTop, convertTo (interpPy rampEv) rampEns none [("xvals", .arr (vec (linspace 0 (1 / 2) (m + 2))))] = .ok (c m) ∧
    ensPpf (dispatch (interpPpfRow (c m).frozen) (interpPpfRow (c m).frozen) (interpPpfRow (c m).frozen)) [[1 / 2], [1 / 2]] = .ok [[.fin (Q m)], [.fin (Q' m)]]) ∧
    Tendsto Q atTop (𝓝 (1 / 4)) ∧ Tendsto Q' atTop (𝓝 (1 / 4)) := by
  obtain ⟨c, C, Q, h1, -, h3⟩ := C147_interp_cdf (ev := rampEv) (e := rampEns) (g := fun _ _ => 1) (show (0 : ℝ) < 1 / 2 by norm_num)
    (fun t ht => ConvertInterpError.ensArr_at _ rampEns.frozen (by simp [rampEns, frozenOf]) t ht _ fun _ _ _ _ => rfl)
    (fun _ _ => continuousOn_const) (fun _ _ _ _ => zero_le_one) (fun _ => 1 / 2) (fun _ _ => by simp) (fun _ _ => by norm_num)
  have hq := fun i hi => h3 i hi (1 / 2) (1 / 4) (by norm_num) (by norm_num) (by intro x hx hxy; simp; linarith) (by intro x hx hxy; simp; linarith)
  refine ⟨c, fun m => Q m 0 (1 / 2), fun m => Q m 1 (1 / 2), ?_, hq 0 (by simp [rampEns, frozenOf]), hq 1 (by simp [rampEns, frozenOf])⟩
  filter_upwards [h1] with m hm
  refine ⟨hm.1, ?_⟩
  have := hm.2.2.1 [1 / 2] (by simp) (by simp; norm_num)
  simpa [rampEns, frozenOf, List.range_succ, List.replicate_succ] using this

end Verif.Props.FineConvert
