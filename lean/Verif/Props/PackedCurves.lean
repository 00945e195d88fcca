import Verif.Props.PackedPdf
import Verif.Props.Variance
import Verif.Props.RealIntegral

/-!
# C79 for logarithmic packing, and C108: packed PDFs as distributions
-/

set_option linter.unusedSectionVars false
set_option autoImplicit false

namespace Verif.Props.PackedCurves

open Verif Verif.Np Verif.Model Verif.Spec Verif.Props.InterpPdf Verif.Props.Packing Verif.Props.PackedPdf Verif.Lemmas.InterpPdf MeasureTheory Set
  Verif.Props.Variance Verif.Props.RealIntegral

/-- **C79: conversion to the packed class, logarithmic packing.** Values of a PDF on a grid, non-negative, with largest value `rm > 0`, packed with the floor
`lf < 0`. Put `g = 10^(-lf/510)`, the ratio of half a step, and let `δ` be at least `g - 1 + g 10^(3 lf) / rm` (a value above the floor, relative to the
largest) and at least `g 10^lf` (a value below the floor, which becomes zero). Then the interpolated PDF and the packed one both exist, have area one, are
never negative, and if `δ P L < 1` for the peak density `P` and the length `L` of the grid, the densities differ by at most `δ P (1 + P L) / (1 - δ P L)`
at every point and the CDFs by at most `L` times that. -/
theorem C79_log_packed_error (lf : ℝ) (hlf : lf < 0) (xs row : List ℝ) (hg : XGrid xs row.length) (h0 : ∀ v ∈ row, 0 ≤ v) (rm : ℝ) (hrm : 0 < rm)
    (hmem : rm ∈ row) (hmax : ∀ v ∈ row, v ≤ rm) (δ : ℝ)
    (hδ : (10 : ℝ) ^ (-lf / 510) - 1 + (10 : ℝ) ^ (-lf / 510) * (10 : ℝ) ^ (3 * lf) / rm ≤ δ) (hδ' : (10 : ℝ) ^ (-lf / 510) * (10 : ℝ) ^ lf ≤ δ) :
    ∃ y0 c0 ys c P, interpNormRow xs row = .ok (some (y0, c0)) ∧ logPackedFromVals lf xs row = .ok (some (ys, c)) ∧ area xs y0 = 1 ∧ area xs ys = 1 ∧
      (∀ v ∈ ys, 0 ≤ v) ∧ P ∈ y0 ∧ (∀ v ∈ y0, v ≤ P) ∧
      ∀ a b L, xs.head? = some a → xs.getLast? = some b → L = b - a → δ * P * L < 1 →
        ∀ x, (∃ p p0, interpPdf xs ys x = some p ∧ interpPdf xs y0 x = some p0 ∧ |p - p0| ≤ δ * P * (1 + P * L) / (1 - δ * P * L)) ∧
          (∃ F F0, interpCdf xs c x = some F ∧ interpCdf xs c0 x = some F0 ∧ |F - F0| ≤ δ * P * (1 + P * L) / (1 - δ * P * L) * L) := by
  have hg0 : (0 : ℝ) < (10 : ℝ) ^ (-lf / 510) := by positivity
  have hg1 : (1 : ℝ) ≤ (10 : ℝ) ^ (-lf / 510) := Real.one_le_rpow (by norm_num) (by linarith [show 0 ≤ -lf / 510 by linarith])
  have he0 : (0 : ℝ) < (10 : ℝ) ^ (3 * lf) := by positivity
  have hδ0 : 0 ≤ δ := le_trans (by positivity) hδ'
  obtain ⟨codes, rm', hpack, hmem', hmax', hlen, -, -, herr⟩ := C26_log_packing_partial hlf row h0 ⟨rm, hmem, hrm⟩
  obtain rfl : rm = rm' := le_antisymm (hmax' _ hmem) (hmax _ hmem')
  have hrmax : rowMax row = .ok rm := (rowMax_ok_iff _ _).2 ⟨hmem, hmax⟩
  have hcodes : codes = row.map (logCode lf rm) := by
    have : logPackRow lf row = .ok (row.map (logCode lf rm), rm) := logPackRow_ok hlf h0 hrmax hrm
    rw [this] at hpack
    simp only [Except.ok.injEq, Prod.mk.injEq] at hpack
    exact hpack.1.symm
  set u := logUnpackRow lf codes rm with hu
  have hum : u = row.map fun v => logValue lf rm (logCode lf rm v) := by rw [hu, logUnpackRow, hcodes, List.map_map]; rfl
  have hclose : List.Forall₂ (fun u y => |u - y| ≤ δ * rm) u row := by
    rw [hum, List.forall₂_map_left_iff, List.forall₂_same]
    intro v hv
    obtain ⟨e1, e2, e3⟩ := C26_log_error hlf hrm (h0 v hv) (hmax v hv)
    by_cases hc : logCode lf rm v = 0
    · rw [e2 hc, zero_sub, abs_neg, abs_of_nonneg (h0 v hv)]
      have h1 := e1.1 hc
      have h2 : (10 : ℝ) ^ (lf * (1 - 1 / 510)) = (10 : ℝ) ^ (-lf / 510) * (10 : ℝ) ^ lf := by
        rw [← Real.rpow_add (by norm_num)]; congr 1; ring
      rw [h2] at h1
      calc v ≤ rm * ((10 : ℝ) ^ (-lf / 510) * (10 : ℝ) ^ lf) := by linarith
        _ ≤ rm * δ := mul_le_mul_of_nonneg_left hδ' hrm.le
        _ = δ * rm := mul_comm _ _
    · obtain ⟨h1, h2⟩ := e3 hc
      have hb : ((10 : ℝ) ^ (-lf / 510) - 1) * rm + (10 : ℝ) ^ (-lf / 510) * (10 : ℝ) ^ (3 * lf) ≤ δ * rm := by
        have := mul_le_mul_of_nonneg_right hδ hrm.le
        rw [add_mul, div_mul_cancel₀ _ hrm.ne'] at this
        exact this
      have hv0 := h0 v hv
      have hv1 := hmax v hv
      have hinv : (10 : ℝ) ^ (lf / 510) = ((10 : ℝ) ^ (-lf / 510))⁻¹ := by
        rw [neg_div, Real.rpow_neg (by norm_num), inv_inv]
      rw [hinv] at h1
      generalize (10 : ℝ) ^ (-lf / 510) = g at *
      generalize (10 : ℝ) ^ (3 * lf) = ε at *
      have h3 : v * (g - 1) ≤ rm * (g - 1) := mul_le_mul_of_nonneg_right hv1 (by linarith)
      rw [abs_le]
      constructor
      · have h4 : 1 - g⁻¹ ≤ g - 1 := by
          have : g * g⁻¹ = 1 := mul_inv_cancel₀ hg0.ne'
          nlinarith [sq_nonneg (g - 1), inv_pos.2 hg0, mul_nonneg (sq_nonneg (g - 1)) (inv_pos.2 hg0).le]
        have h5 : v * (1 - g⁻¹) ≤ v * (g - 1) := mul_le_mul_of_nonneg_left h4 hv0
        nlinarith [mul_pos hg0 he0]
      · nlinarith
  have hu0 : ∀ v ∈ u, 0 ≤ v := by
    intro v hv
    rw [hum] at hv
    obtain ⟨w, _, rfl⟩ := List.mem_map.1 hv
    unfold logValue
    split_ifs
    · simp
    · positivity
  have hupos : ∃ v ∈ u, 0 < v := by
    obtain ⟨i, hi, hie⟩ := List.mem_iff_getElem.1 hmem
    have hul : u.length = row.length := by rw [hum]; simp
    have := ((herr i rm _ _ (by rw [List.getElem?_eq_getElem hi, hie]) (List.getElem?_eq_getElem (by rw [hlen]; exact hi))
      (List.getElem?_eq_getElem (by rw [hul]; exact hi))).2.1 rfl).2
    exact ⟨_, List.getElem_mem (by rw [hul]; exact hi), by rw [this]; exact hrm⟩
  obtain ⟨y0, c0, ys, c, P, hn0, hn, rest⟩ := normalised_close δ rm hδ0 xs row u hg h0 hrm hmem hmax hclose hu0 hupos
  refine ⟨y0, c0, ys, c, P, hn0, ?_, rest⟩
  simp only [logPackedFromVals, hpack, bind, Except.bind]
  exact hn

/-- an unpacked row has no negative value, and a positive one where the code is not zero -/
theorem unpackRow_facts (t : PackingType) (lf : ℝ) (codes : List ℕ) (rm : ℝ) (hrm : 0 < rm) (hc : ∃ c ∈ codes, c ≠ 0) :
    (∀ v ∈ unpackRow t lf codes rm, 0 ≤ v) ∧ (∃ v ∈ unpackRow t lf codes rm, 0 < v) ∧ (unpackRow t lf codes rm).length = codes.length := by
  obtain ⟨c, hc, hc0⟩ := hc
  have hcp : (0 : ℝ) < c := by exact_mod_cast Nat.pos_of_ne_zero hc0
  cases t with
  | linear_from_rowmax =>
    simp only [unpackRow, linearUnpackRow]
    refine ⟨?_, ⟨_, List.mem_map_of_mem hc, by positivity⟩, by simp⟩
    intro v hv
    obtain ⟨w, _, rfl⟩ := List.mem_map.1 hv
    positivity
  | log_from_rowmax =>
    simp only [unpackRow, logUnpackRow]
    refine ⟨?_, ⟨_, List.mem_map_of_mem hc, by simp only [logValue]; rw [if_neg hc0]; positivity⟩, by simp⟩
    intro v hv
    obtain ⟨w, _, rfl⟩ := List.mem_map.1 hv
    unfold logValue
    split_ifs
    · simp
    · positivity

theorem packedPpf_eq (xs : List ℝ) (st : List ℝ × List ℝ) : packedPpf xs st = interpPpf xs st.2 := by
  funext q
  cases xs <;> rfl

theorem packedMoment_eq (xs : List ℝ) (st : List ℝ × List ℝ) : packedMoment xs st = interpMoment xs st.1 := by
  funext m
  match xs with
  | [] => rfl
  | [_] => rfl
  | _ :: _ :: _ => rfl

/-- **C108: a packed PDF is a probability distribution.** For every increasing grid, every row of codes that are not all zero, every positive largest value and
both kinds of packing: the density `f` is defined everywhere, never negative, proportional to the unpacked values at the grid points, zero outside the grid and
integrates to one; the CDF is zero before the grid, one after it, never decreases, and at every grid point after the first it is the integral of the density up
to there; the PPF does not decrease, stays in the grid, and the CDF takes it back to the probability, except that probabilities below
`f(x0) (x1 - x0) / 2`, the value of the CDF at the first grid point, become that value. -/
theorem C108_distribution (t : PackingType) (lf rm : ℝ) (hrm : 0 < rm) (xs : List ℝ) (codes : List ℕ) (hg : XGrid xs codes.length) (hc : ∃ c ∈ codes, c ≠ 0) :
    ∃ st f, packedState t lf xs codes rm = .ok (some st) ∧ (∀ x, packedPdf xs st x = some (f x)) ∧
      (∀ x, 0 ≤ f x) ∧ (∀ x, (∀ e ∈ xs, x < e) ∨ (∀ e ∈ xs, e < x) → f x = 0) ∧
      (∃ k > 0, ∀ (i : ℕ) x v, xs[i]? = some x → (unpackRow t lf codes rm)[i]? = some v → f x = k * v) ∧
      Integrable f ∧ (∫ x, f x) = 1 ∧
      (∀ x, (∀ e ∈ xs, x < e) → packedCdf xs st x = some 0) ∧ (∀ x, (∀ e ∈ xs, e ≤ x) → packedCdf xs st x = some 1) ∧
      (∀ x x', x ≤ x' → ∃ p q, packedCdf xs st x = some p ∧ packedCdf xs st x' = some q ∧ 0 ≤ p ∧ p ≤ q ∧ q ≤ 1) ∧
      (∀ (i : ℕ) x, xs[i+1]? = some x → packedCdf xs st x = some (∫ s in Iic x, f s)) ∧
      (∀ q q', q ≤ q' → ∃ x x', packedPpf xs st q = some x ∧ packedPpf xs st q' = some x' ∧ x ≤ x') ∧
      (∀ x0 x1 q, xs[0]? = some x0 → xs[1]? = some x1 → 0 ≤ q → q ≤ 1 →
        ∃ x, packedPpf xs st q = some x ∧ x0 ≤ x ∧ (∃ e ∈ xs, x ≤ e) ∧ packedCdf xs st x = some (max q (f x0 * (x1 - x0) / 2))) := by
  obtain ⟨hu0, hup, hul⟩ := unpackRow_facts t lf codes rm hrm hc
  have hgu : XGrid xs (unpackRow t lf codes rm).length := by rw [hul]; exact hg
  have hA := area_pos xs _ hg.strict (by rw [hul]; exact hg.size) hgu.two hu0 hup
  obtain ⟨ys, c, hn, ha, hys, -⟩ := (C12_interp_normalises xs _ hgu).2 hA.ne'
  have hcons : Constructed xs ys c := ⟨_, hgu, hn⟩
  have hy0 : ∀ v ∈ ys, 0 ≤ v := by
    rw [hys]; intro v hv; obtain ⟨w, hw, rfl⟩ := List.mem_map.1 hv; exact div_nonneg (hu0 w hw) hA.le
  have hgy : XGrid xs ys.length := by rw [hys, List.length_map]; exact hgu
  have h15 := C15_pdf_through_points xs ys hgy
  choose f hf hf0 using h15.2.2.2 hy0
  obtain ⟨s1, s2, s3⟩ := C13_cdf_shape xs ys c hcons hy0
  obtain ⟨l1, -⟩ := C13_lebesgue xs ys c hcons f hf
  obtain ⟨i0, e0⟩ := C12_lebesgue xs ys hgy f hf
  refine ⟨(ys, c), f, hn, hf, hf0, ?_, ⟨(area xs (unpackRow t lf codes rm))⁻¹, inv_pos.2 hA, ?_⟩, i0, e0.trans ha, s1, s2, s3, l1, ?_, ?_⟩
  · intro x hx
    have := h15.2.2.1 x hx
    rw [hf] at this
    exact Option.some.inj this
  · intro i x v hx hv
    have : ys[i]? = some (v / area xs (unpackRow t lf codes rm)) := by rw [hys, List.getElem?_map, hv]; rfl
    have := h15.1 i x _ hx this
    rw [hf] at this
    rw [Option.some.inj this, div_eq_inv_mul]
  · rw [packedPpf_eq]; exact C14_ppf_mono xs ys c hcons
  · intro x0 x1 q hx0 hx1 hq0 hq1
    rw [packedPpf_eq]
    obtain ⟨y, hy⟩ : ∃ y, ys[0]? = some y := ⟨_, List.getElem?_eq_getElem (by have := hgy.two; omega)⟩
    have hfy := h15.1 0 x0 y hx0 hy
    rw [hf] at hfy
    obtain ⟨x, h1, h2, h3, h4⟩ := C14_cdf_ppf_exact xs ys c hcons hy0 x0 x1 y hx0 hx1 hy q hq0 hq1
    exact ⟨x, h1, h3, h4, by rw [Option.some.inj hfy]; exact h2⟩

/-- **C108: mean and variance of a packed PDF (partial).** On a grid with constant spacing `w`, when the first and the last code are zero, `mean()` and
`moment(1)` are the mean of the density and `var()` is its variance minus `w² / 6`. Missing: that the variance is right, and other grids or codes, where the
code is wrong (`C89_mean_and_variance_wrong`). -/
theorem C108_mean_variance_partial (t : PackingType) (lf rm : ℝ) (hrm : 0 < rm) (xs : List ℝ) (codes : List ℕ) (hg : XGrid xs codes.length) (hc : ∃ c ∈ codes, c ≠ 0)
    (w : ℝ) (hw : Spaced xs w) (h0 : codes.head? = some 0) (h1 : codes.getLast? = some 0) :
    ∃ st f μ v, packedState t lf xs codes rm = .ok (some st) ∧ (∀ x, packedPdf xs st x = some (f x)) ∧ IsMeanVar f μ v ∧
      statsMean (packedMoment xs st) = .ok μ ∧ statsMoment (packedMoment xs st) 1 = .ok μ ∧ statsVar (packedMoment xs st) = .ok (v - w ^ 2 / 6) := by
  obtain ⟨hu0, hup, hul⟩ := unpackRow_facts t lf codes rm hrm hc
  have hgu : XGrid xs (unpackRow t lf codes rm).length := by rw [hul]; exact hg
  have hA := area_pos xs _ hg.strict (by rw [hul]; exact hg.size) hgu.two hu0 hup
  obtain ⟨ys, c, hn, ha, hys, -⟩ := (C12_interp_normalises xs _ hgu).2 hA.ne'
  have hcons : Constructed xs ys c := ⟨_, hgu, hn⟩
  have hy0 : ∀ v ∈ ys, 0 ≤ v := by
    rw [hys]; intro v hv; obtain ⟨w, hw, rfl⟩ := List.mem_map.1 hv; exact div_nonneg (hu0 w hw) hA.le
  have hgy : XGrid xs ys.length := by rw [hys, List.length_map]; exact hgu
  have h15 := C15_pdf_through_points xs ys hgy
  choose f hf hf0 using h15.2.2.2 hy0
  have e0 : ys.head? = some 0 := by
    rw [hys, List.head?_map]
    cases t <;> simp [unpackRow, linearUnpackRow, logUnpackRow, List.head?_map, h0, logValue]
  have e1 : ys.getLast? = some 0 := by
    rw [hys, List.getLast?_map]
    cases t <;> simp [unpackRow, linearUnpackRow, logUnpackRow, List.getLast?_map, h1, logValue]
  obtain ⟨μ, v, m1, m2, m3, m4, -⟩ := C89_interp_partial xs ys c hcons w hw e0 e1 f hf
  refine ⟨(ys, c), f, μ, v, hn, hf, m1, ?_⟩
  rw [packedMoment_eq]
  exact ⟨m2, m3, m4⟩

/-! ## instances -/

/-- codes 0, 255, 51 on a grid of three points, logarithmic packing with the default floor -/
example := C108_distribution .log_from_rowmax (-3) 2 (by norm_num) [0, 1, 3] [0, 255, 51] ⟨by norm_num, rfl, by decide⟩ ⟨255, by simp, by simp⟩

private theorem spaced3 : Spaced ([0, 1, 2] : List ℝ) 1 := by
  intro i a b ha hb
  match i with
  | 0 => simp at ha hb; subst ha hb; norm_num
  | 1 => simp at ha hb; subst ha hb; norm_num
  | i + 2 => simp at hb

/-- a triangle in codes -/
example := C108_mean_variance_partial .linear_from_rowmax (-3) 2 (by norm_num) [0, 1, 2] [0, 255, 0] ⟨by norm_num, rfl, by decide⟩ ⟨255, by simp, by simp⟩ 1 spaced3 rfl rfl

/-- values 0, 1, 0 with the default floor -/
example := C79_log_packed_error (-3) (by norm_num) [0, 1, 2] [0, 1, 0] ⟨by norm_num, rfl, by decide⟩ (by simp) 1 (by norm_num) (by simp) (by simp)
  _ (le_max_left _ ((10 : ℝ) ^ (-(-3) / 510 : ℝ) * (10 : ℝ) ^ (-3 : ℝ))) (le_max_right _ _)

end Verif.Props.PackedCurves
