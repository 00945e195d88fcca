import Verif.Props.Sampling
import Verif.Props.PackedCurves
import Verif.Props.QuadSpline
import Mathlib.Probability.Independence.InfinitePi

/-!
# C97: random variates of interpolated, packed and quantile PDFs

Samples of interpolated and packed PDFs fall into each cell of the grid with the probability of the cell, but inside a cell they do not follow the density.
The locations of a quantile PDF are quantiles of its samples as long as its PPF does not decrease.
-/

set_option linter.unusedSectionVars false
set_option autoImplicit false

namespace Verif.Props.SamplingMore

open Verif Verif.Np Verif.Model Verif.Spec Verif.Lemmas Verif.Props.Sampling
open MeasureTheory Set Verif.Props.InterpPdf Verif.Props.RealIntegral Verif.Props.PackedPdf Verif.Props.PackedCurves

/-- the probability that a sample `Q u`, for a draw `u` uniform on the unit interval, has the property `P` -/
noncomputable def chance (Q : ℝ → Option ℝ) (P : ℝ → Prop) : ENNReal := volume {u : ℝ | (0 ≤ u ∧ u ≤ 1) ∧ ∃ s, Q u = some s ∧ P s}

/-- `Q` does not decrease on the unit interval, where it is defined -/
def Rising (Q : ℝ → Option ℝ) : Prop := ∀ u v, 0 ≤ u → u ≤ v → v ≤ 1 → ∃ s t, Q u = some s ∧ Q v = some t ∧ s ≤ t

theorem measurable_below {Q : ℝ → Option ℝ} (hQ : Rising Q) (x : ℝ) : MeasurableSet {u : ℝ | (0 ≤ u ∧ u ≤ 1) ∧ ∃ s, Q u = some s ∧ s ≤ x} := by
  apply Set.OrdConnected.measurableSet
  refine ⟨fun u hu v hv w hw => ?_⟩
  obtain ⟨⟨hu0, hu1⟩, -⟩ := hu
  obtain ⟨⟨hv0, hv1⟩, s, hs, hsx⟩ := hv
  obtain ⟨r, t, hr, ht, hrt⟩ := hQ w v (hu0.trans hw.1) hw.2 hv1
  rw [hs] at ht
  obtain rfl := Option.some.inj ht
  exact ⟨⟨hu0.trans hw.1, hw.2.trans hv1⟩, r, hr, hrt.trans hsx⟩

theorem chance_between {Q : ℝ → Option ℝ} {F : ℝ → ℝ} (h : Samples Q F) (hQ : Rising Q) {a b : ℝ} (hab : a ≤ b) (h0 : 0 ≤ F a) :
    chance Q (fun s => a < s ∧ s ≤ b) = ENNReal.ofReal (F b - F a) := by
  have hset : {u : ℝ | (0 ≤ u ∧ u ≤ 1) ∧ ∃ s, Q u = some s ∧ a < s ∧ s ≤ b} =
      {u : ℝ | (0 ≤ u ∧ u ≤ 1) ∧ ∃ s, Q u = some s ∧ s ≤ b} \ {u : ℝ | (0 ≤ u ∧ u ≤ 1) ∧ ∃ s, Q u = some s ∧ s ≤ a} := by
    ext u
    constructor
    · rintro ⟨hu, s, hs, h1, h2⟩
      refine ⟨⟨hu, s, hs, h2⟩, ?_⟩
      rintro ⟨-, t, ht, hta⟩
      rw [hs] at ht
      obtain rfl := Option.some.inj ht
      linarith
    · rintro ⟨⟨hu, s, hs, h2⟩, hn⟩
      exact ⟨hu, s, hs, by by_contra hc; exact hn ⟨hu, s, hs, le_of_not_gt hc⟩, h2⟩
  unfold chance
  rw [hset, measure_sdiff _ (measurable_below hQ a).nullMeasurableSet, h b, h a, ← ENNReal.ofReal_sub _ h0]
  · rw [h a]; exact ENNReal.ofReal_ne_top
  · rintro u ⟨hu, s, hs, hsa⟩
    exact ⟨hu, s, hs, hsa.trans hab⟩

theorem interp_rising {xs ys c : List ℝ} (h : Constructed xs ys c) : Rising (interpPpf xs c) := fun u v _ huv _ => C14_ppf_mono xs ys c h u v huv

/-- **C97, interpolated PDFs, cell by cell**: a sample falls into a cell of the grid with the probability that the density gives to the cell; the lower end belongs to the first
cell only. Missing: the distribution inside a cell, which is not that of the density (`C97_interp_density_wrong`). -/
theorem C97_interp_cells_partial (xs ys c : List ℝ) (h : Constructed xs ys c) (hy : ∀ v ∈ ys, 0 ≤ v) (f : ℝ → ℝ) (hf : ∀ x, interpPdf xs ys x = some (f x))
    (i : ℕ) (a b : ℝ) (ha : xs[i]? = some a) (hb : xs[i + 1]? = some b) :
    chance (interpPpf xs c) (fun s => (a < s ∨ i = 0 ∧ s = a) ∧ s ≤ b) = ENNReal.ofReal (∫ t in a..b, f t) := by
  obtain ⟨row, hgr, hcr⟩ := h
  have h : Constructed xs ys c := ⟨row, hgr, hcr⟩
  have hlen : 2 ≤ xs.length := hgr.size ▸ hgr.two
  obtain ⟨x0, e0⟩ : ∃ x, xs[0]? = some x := ⟨_, List.getElem?_eq_getElem (by omega)⟩
  obtain ⟨x1, e1⟩ : ∃ x, xs[1]? = some x := ⟨_, List.getElem?_eq_getElem (by omega)⟩
  have hys : ys.length = xs.length := by
    obtain ⟨a, b, t, u, v, r, rfl, rfl, hl, -⟩ := constructed_facts h
    simp [hl]
  obtain ⟨y0, e2⟩ : ∃ y, ys[0]? = some y := ⟨_, List.getElem?_eq_getElem (by omega)⟩
  obtain ⟨⟨F, hF, hS, -⟩, -⟩ := C97_interp_partial xs ys c h hy x0 x1 y0 e0 e1 e2
  have hR := interp_rising h
  obtain ⟨l1, -⟩ := C13_lebesgue xs ys c h f hf
  have hg : XGrid xs ys.length := by rw [hys]; exact ⟨hgr.strict, rfl, hlen⟩
  obtain ⟨hint, -⟩ := C12_lebesgue xs ys hg f hf
  have hat : ∀ (k : ℕ) x, xs[k + 1]? = some x → F x = ∫ t in Iic x, f t := by
    intro k x hx
    have := l1 k x hx
    rw [hF] at this
    exact Option.some.inj this
  have hlt : a < b := by
    obtain ⟨h1, rfl⟩ := List.getElem?_eq_some_iff.1 ha
    obtain ⟨h2, rfl⟩ := List.getElem?_eq_some_iff.1 hb
    exact List.pairwise_iff_getElem.1 hgr.strict i (i + 1) h1 h2 (by omega)
  obtain ⟨-, -, hsh⟩ := C13_cdf_shape xs ys c h hy
  have hF0 : ∀ x, 0 ≤ F x := by
    intro x
    obtain ⟨u, v, hu, -, h0, -⟩ := hsh x x le_rfl
    rw [hF] at hu
    rw [Option.some.inj hu]; exact h0
  match i with
  | 0 =>
    have hlow : ∀ u, 0 ≤ u → u ≤ 1 → ∀ s, interpPpf xs c u = some s → x0 ≤ s := by
      intro u hu0 hu1 s hs
      obtain ⟨s', hs', -, hlo, -⟩ := C14_cdf_ppf_exact xs ys c h hy x0 x1 y0 e0 e1 e2 u hu0 hu1
      rw [hs] at hs'
      rw [Option.some.inj hs']; exact hlo
    obtain rfl : x0 = a := by rw [e0] at ha; exact Option.some.inj ha
    have hset : {u : ℝ | (0 ≤ u ∧ u ≤ 1) ∧ ∃ s, interpPpf xs c u = some s ∧ (x0 < s ∨ 0 = 0 ∧ s = x0) ∧ s ≤ b} =
        {u : ℝ | (0 ≤ u ∧ u ≤ 1) ∧ ∃ s, interpPpf xs c u = some s ∧ s ≤ b} := by
      ext u
      constructor
      · rintro ⟨hu, s, hs, -, hsb⟩; exact ⟨hu, s, hs, hsb⟩
      · rintro ⟨hu, s, hs, hsb⟩
        exact ⟨hu, s, hs, (hlow u hu.1 hu.2 s hs).lt_or_eq.imp id fun h => ⟨rfl, h.symm⟩, hsb⟩
    unfold chance
    rw [hset, hS b, hat 0 b hb, ← intervalIntegral.integral_Iic_sub_Iic hint.integrableOn hint.integrableOn]
    have hz : (∫ t in Iic x0, f t) = 0 := by
      have hzero : ∀ t ∈ Iio x0, f t = 0 := by
        intro t ht
        have := (C15_pdf_through_points xs ys hg).2.2.1 t (Or.inl fun e he => by
          obtain ⟨k, hk⟩ := List.getElem?_of_mem he
          obtain ⟨h1, rfl⟩ := List.getElem?_eq_some_iff.1 hk
          obtain ⟨h2, h3⟩ := List.getElem?_eq_some_iff.1 e0
          rcases Nat.eq_zero_or_pos k with rfl | hk0
          · rw [h3]; exact ht
          · have := List.pairwise_iff_getElem.1 hgr.strict 0 k h2 h1 hk0
            rw [h3] at this
            exact lt_trans ht this)
        rw [hf] at this
        exact Option.some.inj this
      rw [integral_Iic_eq_integral_Iio]
      exact setIntegral_eq_zero_of_forall_eq_zero hzero
    rw [hz, sub_zero]
  | k + 1 =>
    have hset : (fun s : ℝ => (a < s ∨ k + 1 = 0 ∧ s = a) ∧ s ≤ b) = fun s => a < s ∧ s ≤ b := by
      funext s; simp
    rw [hset, chance_between hS hR hlt.le (hF0 a), hat k a ha, hat (k + 1) b hb,
      intervalIntegral.integral_Iic_sub_Iic hint.integrableOn hint.integrableOn]

/-- **C97, packed PDFs**: the same, for linear and logarithmic packing, all codes that are not all zero and every positive maximum. -/
theorem C97_packed_partial (t : PackingType) (lf rm : ℝ) (hrm : 0 < rm) (xs : List ℝ) (codes : List ℕ) (hg : XGrid xs codes.length) (hc : ∃ c ∈ codes, c ≠ 0) :
    ∃ (st : List ℝ × List ℝ) (f : ℝ → ℝ), packedState t lf xs codes rm = .ok (some st) ∧ (∀ x, packedPdf xs st x = some (f x)) ∧
      (∃ F : ℝ → ℝ, (∀ x, packedCdf xs st x = some (F x)) ∧ Samples (packedPpf xs st) F) ∧
      ∀ (i : ℕ) a b, xs[i]? = some a → xs[i + 1]? = some b →
        chance (packedPpf xs st) (fun s => (a < s ∨ i = 0 ∧ s = a) ∧ s ≤ b) = ENNReal.ofReal (∫ t in a..b, f t) := by
  obtain ⟨hu0, hup, hul⟩ := unpackRow_facts t lf codes rm hrm hc
  have hgu : XGrid xs (unpackRow t lf codes rm).length := by rw [hul]; exact hg
  have hA := area_pos xs _ hg.strict (by rw [hul]; exact hg.size) hgu.two hu0 hup
  obtain ⟨ys, c, hn, ha, hys, -⟩ := (C12_interp_normalises xs _ hgu).2 hA.ne'
  have hcons : Constructed xs ys c := ⟨_, hgu, hn⟩
  have hy0 : ∀ v ∈ ys, 0 ≤ v := by
    rw [hys]; intro v hv; obtain ⟨w, hw, rfl⟩ := List.mem_map.1 hv; exact div_nonneg (hu0 w hw) hA.le
  have hgy : XGrid xs ys.length := by rw [hys, List.length_map]; exact hgu
  have h15 := C15_pdf_through_points xs ys hgy
  choose f hf hf0 using h15.2.2.2 hy0
  have h2 : 2 ≤ xs.length := hg.size ▸ hg.two
  obtain ⟨y, hy⟩ : ∃ y, ys[0]? = some y := ⟨_, List.getElem?_eq_getElem (by have := hgy.size; omega)⟩
  obtain ⟨⟨F, hF, hS, -⟩, -⟩ := C97_interp_partial xs ys c hcons hy0 _ _ y (List.getElem?_eq_getElem (by omega : 0 < xs.length))
    (List.getElem?_eq_getElem (by omega : 1 < xs.length)) hy
  refine ⟨(ys, c), f, hn, hf, ⟨F, hF, by rw [packedPpf_eq]; exact hS⟩, fun i a b h1 h2 => ?_⟩
  rw [packedPpf_eq]
  exact C97_interp_cells_partial xs ys c hcons hy0 f hf i a b h1 h2

/-- **C97, a wrong law**: the density `2 t` on `[0, 1]`, given at its ends. Half of the samples are below 1/2, where the density has a quarter of its mass: the samples are uniform. -/
theorem C97_interp_density_wrong : ∃ (xs ys c : List ℝ) (f : ℝ → ℝ), Constructed xs ys c ∧ (∀ v ∈ ys, 0 ≤ v) ∧ (∀ x, interpPdf xs ys x = some (f x)) ∧
    (∀ u, 0 ≤ u → u ≤ 1 → interpPpf xs c u = some u) ∧ chance (interpPpf xs c) (fun s => 0 < s ∧ s ≤ 1 / 2) = ENNReal.ofReal (1 / 2) ∧ (∫ t in (0 : ℝ)..(1 / 2), f t) = 1 / 4 := by
  have hc : Constructed (K := ℝ) [0, 1] [0, 2] [0, 1] := ⟨[0, 2], ⟨by norm_num, rfl, by simp⟩, by
    norm_num [interpNormRow, interpCumul, cumsum, cumsumFrom, trapezoids]⟩
  have hy : ∀ v ∈ ([0, 2] : List ℝ), 0 ≤ v := by norm_num
  have hQ : ∀ u : ℝ, 0 ≤ u → u ≤ 1 → interpPpf [0, 1] [0, 1] u = some u := by
    intro u h0 h1
    simp only [interpPpf, List.zip_cons_cons, List.zip_nil_left, interp]
    rw [if_neg (by linarith)]
    rcases h1.lt_or_eq with h1 | rfl
    · simp only [npInterpGo, List.getLast_cons_cons, List.getLast_singleton, if_neg (not_lt.2 h1.le), if_neg (not_le.2 h1), line]
      split_ifs with h
      · rw [h]
      · norm_num
    · simp [npInterpGo]
  choose f hf hf0 using (C15_pdf_through_points [0, 1] [0, 2] ⟨by norm_num, rfl, by simp⟩).2.2.2 hy
  refine ⟨[0, 1], [0, 2], [0, 1], f, hc, hy, hf, hQ, ?_, ?_⟩
  · have : {u : ℝ | (0 ≤ u ∧ u ≤ 1) ∧ ∃ s, interpPpf [0, 1] [0, 1] u = some s ∧ 0 < s ∧ s ≤ 1 / 2} = Ioc 0 (1 / 2) := by
      ext u
      constructor
      · rintro ⟨⟨h0, h1⟩, s, hs, h2, h3⟩
        rw [hQ u h0 h1] at hs
        obtain rfl := Option.some.inj hs
        exact ⟨h2, h3⟩
      · rintro ⟨h2, h3⟩
        exact ⟨⟨h2.le, by linarith⟩, u, hQ u h2.le (by linarith), h2, h3⟩
    unfold chance
    rw [this, Real.volume_Ioc, sub_zero]
  · have : ∀ t ∈ uIcc (0 : ℝ) (1 / 2), f t = 2 * t := by
      intro t ht
      rw [uIcc_of_le (by norm_num)] at ht
      have h := hf t
      simp only [interpPdf, List.zip_cons_cons, List.zip_nil_left, interp] at h
      rw [if_neg (by linarith [ht.1])] at h
      have h1 : t < 1 := by linarith [ht.2]
      simp only [npInterpGo, List.getLast_cons_cons, List.getLast_singleton, if_neg (not_lt.2 h1.le), if_neg (not_le.2 h1), line, Option.some.injEq] at h
      rw [← h]
      split_ifs with h'
      · rw [← h']; ring
      · ring
    rw [intervalIntegral.integral_congr this, intervalIntegral.integral_const_mul, integral_id]
    norm_num

/-- **C97, quantiles**: where the PPF of a quantile PDF does not decrease, every stored location is a quantile of the samples: at most the stated fraction is below it, and at least
that fraction not above it. `lo`, `hi` are the smallest and the largest location given to the constructor.
Missing: a PPF that decreases somewhere, where it is false (`C97_quant_wrong`). -/
theorem C97_quant_partial (lo hi : ℝ) (quants locs : List ℝ) (hq : quants.Pairwise (· < ·)) (hlen : quants.length = locs.length) (h01 : ∀ q ∈ quants, 0 ≤ q ∧ q ≤ 1)
    (hR : Rising (quantPpf quadSpline lo hi quants locs)) (i : ℕ) (q l : ℝ) (hqi : quants[i]? = some q) (hli : locs[i]? = some l) :
    chance (quantPpf quadSpline lo hi quants locs) (fun s => s < l) ≤ ENNReal.ofReal q ∧
    ENNReal.ofReal q ≤ chance (quantPpf quadSpline lo hi quants locs) (fun s => s ≤ l) := by
  have hmem : q ∈ quants := List.mem_of_getElem? hqi
  obtain ⟨hq0, hq1⟩ := h01 q hmem
  have hval : quantPpf quadSpline lo hi quants locs q = some l := by
    have hne : quants ≠ [] := by rintro rfl; simp at hqi
    obtain ⟨a, ha⟩ : ∃ a, quants.head? = some a := ⟨_, List.head?_eq_some_head hne⟩
    obtain ⟨b, hb⟩ : ∃ b, quants.getLast? = some b := ⟨_, List.getLast?_eq_some_getLast hne⟩
    have hle : a ≤ q ∧ q ≤ b := by
      obtain ⟨h1, rfl⟩ := List.getElem?_eq_some_iff.1 hqi
      rw [List.head?_eq_getElem?] at ha
      rw [List.getLast?_eq_getElem?] at hb
      obtain ⟨h2, rfl⟩ := List.getElem?_eq_some_iff.1 ha
      obtain ⟨h3, rfl⟩ := List.getElem?_eq_some_iff.1 hb
      constructor
      · rcases Nat.eq_zero_or_pos i with rfl | h
        · exact le_rfl
        · exact (List.pairwise_iff_getElem.1 hq 0 i h2 h1 h).le
      · rcases Nat.lt_or_ge i (quants.length - 1) with h | h
        · exact (List.pairwise_iff_getElem.1 hq i _ h1 h3 h).le
        · have : i = quants.length - 1 := by omega
          subst this; exact le_rfl
    rw [QuadSpline.ppf_inside _ _ _ _ _ a b q ha hb hle.1 hle.2]
    have hz : (q, l) ∈ quants.zip locs := by
      apply List.mem_of_getElem? (i := i)
      rw [List.getElem?_zip_eq_some]
      exact ⟨hqi, hli⟩
    rw [QuadSpline.through _ (by rw [List.map_fst_zip hlen.le]; exact hq) (q, l) hz]
  constructor
  · calc _ ≤ volume (Icc 0 q) := by
          apply measure_mono
          rintro u ⟨⟨h0, h1⟩, s, hs, hsl⟩
          refine ⟨h0, ?_⟩
          by_contra hc
          obtain ⟨s1, s2, e1, e2, h12⟩ := hR q u hq0 (le_of_not_ge hc) h1
          rw [hval] at e1
          rw [hs] at e2
          rw [← Option.some.inj e1, ← Option.some.inj e2] at h12
          linarith
      _ = _ := by rw [Real.volume_Icc, sub_zero]
  · calc ENNReal.ofReal q = volume (Icc 0 q) := by rw [Real.volume_Icc, sub_zero]
      _ ≤ _ := by
          apply measure_mono
          rintro u ⟨h0, h1⟩
          obtain ⟨s1, s2, e1, e2, h12⟩ := hR u q h0 h1 hq1
          rw [hval] at e2
          rw [← Option.some.inj e2] at h12
          exact ⟨⟨h0, h1.trans hq1⟩, s1, e1, h12⟩

/-- **C97, quantiles, a wrong law**: the quantiles 0, 1/2 and 1 at 0, 9/10 and 1. Three eighths of the samples are larger than 1, the location of the quantile 1. -/
theorem C97_quant_wrong : ∃ quants locs : List ℝ, quants.Pairwise (· < ·) ∧ locs.Pairwise (· < ·) ∧ quants.length = locs.length ∧
    quantInit quants [locs] true = .ok (quants, [locs]) ∧ quants.getLast? = some 1 ∧ locs.getLast? = some 1 ∧
    chance (quantPpf quadSpline 0 1 quants locs) (fun s => 1 < s) = ENNReal.ofReal (3 / 8) := by
  have hQ : ∀ u : ℝ, 0 ≤ u → u ≤ 1 → quantPpf quadSpline 0 1 [0, 1 / 2, 1] [0, 9 / 10, 1] u = some (13 / 5 * u - 8 / 5 * u ^ 2) := by
    intro u h0 h1
    have := (QuadSpline.C139_reproduces (K := ℝ) [0, 1 / 2, 1] [0, 9 / 10, 1] (by norm_num) (by norm_num) rfl (by simp) 0 (13 / 5) (-(8 / 5))).2
      (by norm_num) 0 1 rfl rfl u h0 h1 0 1
    rw [this]; congr 1; ring
  refine ⟨[0, 1 / 2, 1], [0, 9 / 10, 1], by norm_num, by norm_num, rfl, ?_, rfl, rfl, ?_⟩
  · norm_num [quantInit, padQuantiles, floatEps]
  · have : {u : ℝ | (0 ≤ u ∧ u ≤ 1) ∧ ∃ s, quantPpf quadSpline 0 1 [0, 1 / 2, 1] [0, 9 / 10, 1] u = some s ∧ 1 < s} = Ioo (5 / 8) 1 := by
      ext u
      constructor
      · rintro ⟨⟨h0, h1⟩, s, hs, h2⟩
        rw [hQ u h0 h1] at hs
        obtain rfl := Option.some.inj hs
        constructor
        · by_contra hc
          nlinarith [mul_nonneg (sub_nonneg.2 (le_of_not_gt hc)) (sub_nonneg.2 h1)]
        · rcases h1.lt_or_eq with h | rfl
          · exact h
          · norm_num at h2
      · rintro ⟨h2, h3⟩
        refine ⟨⟨by linarith, h3.le⟩, _, hQ u (by linarith) h3.le, ?_⟩
        nlinarith [mul_pos (sub_pos.2 h2) (sub_pos.2 h3)]
    unfold chance
    rw [this, Real.volume_Ioo]
    norm_num

/-- **C97, independence**: if the draws are independent and uniform on the unit interval, then `rvs` returns independent samples, those of different PDFs included, and every
sample of PDF `i` has the law of `ppf i` at a uniform draw. -/
theorem C97_independent {Ω : Type} [MeasurableSpace Ω] (μ : Measure Ω) [IsProbabilityMeasure μ] (f f' ppf : ℕ → ℝ → ℝ) (shape : List ℕ) (hs : (squeezeLeft shape).length ≤ 1)
    (hn : shape.prod ≠ 0) (m : ℕ) (U : ℕ → ℕ → Ω → ℝ) (hm : ∀ i j, AEMeasurable (U i j) μ) (hlaw : ∀ i j, μ.map (U i j) = volume.restrict (Icc 0 1))
    (hind : ProbabilityTheory.iIndepFun (fun p : ℕ × ℕ => U p.1 p.2) μ) (hppf : ∀ i, MonotoneOn (ppf i) (Icc 0 1)) :
    ∃ S : ℕ → ℕ → Ω → ℝ, (∀ ω, ensRvs (dispatch f f' ppf) shape (some m) (fun i j => U i j ω) =
        .ok ((List.range shape.prod).map fun i => (List.range m).map fun j => S i j ω)) ∧
      ProbabilityTheory.iIndepFun (fun p : ℕ × ℕ => S p.1 p.2) μ ∧
      ∀ i j, μ.map (S i j) = (volume.restrict (Icc 0 1)).map (ppf i) := by
  have hae : ∀ i, AEMeasurable (ppf i) (volume.restrict (Icc 0 1)) := fun i => aemeasurable_restrict_of_monotoneOn measurableSet_Icc (hppf i)
  refine ⟨fun i j ω => ppf i (U i j ω), fun ω => C97_samples f f' ppf shape hs hn m fun i j => U i j ω, ?_, fun i j => ?_⟩
  · exact hind.comp₀ (fun p => ppf p.1) (fun p => hm p.1 p.2) fun p => by rw [hlaw]; exact hae p.1
  · have h := hae i
    rw [← hlaw i j] at h
    rw [← hlaw i j, AEMeasurable.map_map_of_aemeasurable h (hm i j)]
    rfl

/-! ### concrete cases -/

/-- the uniform density on `[0, 1]`, given at 0, 1/2 and 1: the second cell -/
example (f : ℝ → ℝ) (hf : ∀ x, interpPdf [0, 1/2, 1] [1, 1, 1] x = some (f x)) :
    chance (interpPpf [0, 1/2, 1] [1/4, 1/2, 1]) (fun s => (1 / 2 < s ∨ 1 = 0 ∧ s = 1 / 2) ∧ s ≤ 1) = ENNReal.ofReal (∫ t in (1 / 2 : ℝ)..1, f t) :=
  C97_interp_cells_partial [0, 1/2, 1] [1, 1, 1] [1/4, 1/2, 1] ⟨[1, 1, 1], ⟨by norm_num, rfl, by simp⟩, by
    norm_num [interpNormRow, interpCumul, cumsum, cumsumFrom, trapezoids]⟩ (by simp) f hf 1 (1 / 2) 1 rfl rfl
example := C97_packed_partial .log_from_rowmax (-3) 2 (by norm_num) [0, 1, 3] [0, 255, 100] ⟨by norm_num, rfl, by simp⟩ ⟨255, by simp, by norm_num⟩

/-- quantiles 0, 1/2, 1 at 0, 1, 3: the PPF is `p + 2 p²`, which rises -/
example : Rising (quantPpf quadSpline 0 3 [0, 1 / 2, 1] [0, 1, 3]) := by
  have hQ : ∀ u : ℝ, 0 ≤ u → u ≤ 1 → quantPpf quadSpline 0 3 [0, 1 / 2, 1] [0, 1, 3] u = some (0 + 1 * u + 2 * u ^ 2) := fun u h0 h1 =>
    (QuadSpline.C139_reproduces (K := ℝ) [0, 1 / 2, 1] [0, 1, 3] (by norm_num) (by norm_num) rfl (by simp) 0 1 2).2 (by norm_num) 0 1 rfl rfl u h0 h1 0 3
  intro u v h0 huv h1
  exact ⟨_, _, hQ u h0 (huv.trans h1), hQ v (h0.trans huv) h1, by nlinarith⟩

/-- independent draws exist: two PDFs with the quantile functions `q` and `1 + q` -/
example : ∃ (μ : Measure (ℕ × ℕ → ℝ)) (_ : IsProbabilityMeasure μ) (U : ℕ → ℕ → (ℕ × ℕ → ℝ) → ℝ), (∀ i j, AEMeasurable (U i j) μ) ∧
    (∀ i j, μ.map (U i j) = volume.restrict (Icc 0 1)) ∧ ProbabilityTheory.iIndepFun (fun p : ℕ × ℕ => U p.1 p.2) μ ∧ (squeezeLeft [2]).length ≤ 1 ∧
    ∀ i : ℕ, MonotoneOn (fun q : ℝ => (i : ℝ) + q) (Icc 0 1) := by
  have : IsProbabilityMeasure (volume.restrict (Icc (0 : ℝ) 1)) := ⟨by simp⟩
  refine ⟨Measure.infinitePi fun _ => volume.restrict (Icc (0 : ℝ) 1), inferInstance, fun i j ω => ω (i, j), fun i j => (measurable_pi_apply (i, j)).aemeasurable,
    fun i j => Measure.infinitePi_map_eval (fun _ : ℕ × ℕ => volume.restrict (Icc (0 : ℝ) 1)) (i, j), ?_, by simp [squeezeLeft], fun i u _ v _ h => by simpa using h⟩
  exact ProbabilityTheory.iIndepFun_infinitePi (P := fun _ : ℕ × ℕ => volume.restrict (Icc (0 : ℝ) 1)) (X := fun _ x => x) fun _ => measurable_id

end Verif.Props.SamplingMore
