import Verif.Props.Splrep
import Verif.Lemmas.CubicUnits

/-!
# C142: conversion to splines; C116, C131: units and mirror images of spline PDFs

Specification: the curve of C140 (`Spec/CubicSpline.lean`) and integrals.
-/

set_option linter.unusedSectionVars false
set_option autoImplicit false

namespace Verif.Props.SplineConvert

open Verif Verif.Np Verif.Model Verif.Spec Verif.Lemmas.Splrep Verif.Lemmas.Spline Verif.Props.Spline Verif.Props.Splrep

/-- the points that `C141_accepted` accepts: as many ordinates as abscissae, at least four in each row, abscissae increasing -/
structure Points (xss yss : List (List ℝ)) : Prop where
  lengths : xss.map List.length = yss.map List.length
  rows : ∀ xs ∈ xss, 4 ≤ xs.length ∧ xs.Pairwise (· < ·)

theorem Points.len {xss yss : List (List ℝ)} (h : Points xss yss) {i : ℕ} {xs ys : List ℝ} (hx : xss[i]? = some xs) (hy : yss[i]? = some ys) : ys.length = xs.length := by
  have := congrArg (fun l : List ℕ => l[i]?) h.lengths
  simp only [List.getElem?_map, hx, hy, Option.map_some, Option.some.injEq] at this
  exact this.symm

/-- **C141: the CDF next to PDFs with other ranges**: zero up to the first abscissa of the PDF, then the integral of the density from there, constant after the last abscissa. -/
theorem C141_cdf_ranges (xss yss : List (List ℝ)) (h : Points xss yss) (i : ℕ) (xs ys : List ℝ) (hx : xss[i]? = some xs) (hy : yss[i]? = some ys) (a b : ℝ)
    (ha : xs.head? = some a) (hb : xs.getLast? = some b) (rows : List (SplRow ℝ)) (hr : splFromXY xss yss = .ok rows) :
    ∃ f : ℝ → ℝ, (∀ x, splPdf rows i x = .ok (f x)) ∧ ∀ x, splCdf rows i x = .ok (if x ≤ a then 0 else ∫ y in a..(min x b), f y) := by
  obtain ⟨hn4, hs⟩ := h.rows xs (List.mem_of_getElem? hx)
  have hlen := h.len hx hy
  have hmem : a ∈ xss.flatten := List.mem_flatten.2 ⟨xs, List.mem_of_getElem? hx, List.mem_of_head? ha⟩
  obtain ⟨lo, hlo⟩ : ∃ lo, xss.flatten.min? = some lo := by
    cases hf : xss.flatten.min? with
    | none => rw [List.min?_eq_none_iff.1 hf] at hmem; simp at hmem
    | some lo => exact ⟨lo, rfl⟩
  obtain ⟨hi, hhi⟩ : ∃ hi, xss.flatten.max? = some hi := by
    cases hf : xss.flatten.max? with
    | none => rw [List.max?_eq_none_iff.1 hf] at hmem; simp at hmem
    | some lo => exact ⟨lo, rfl⟩
  obtain ⟨rows', hr', hp, -⟩ := C141_pdf xss yss h.lengths h.rows lo hi hlo hhi i xs ys hx hy
  rw [hr, Except.ok.injEq] at hr'
  subst hr'
  refine ⟨_, hp, fun x => ?_⟩
  rw [C141_build xss yss h.lengths h.rows lo hi hlo hhi, Except.ok.injEq] at hr
  have hI : (∫ y in lo..hi, splev (splrep xs ys) y) = ∫ t in lo..hi, cubSpline (xs.zip ys) t := splIntegral_eq xs ys hlen hn4 hs lo hi
  have hz : rows[i]? = some (splNorm (splrep xs ys) (∫ y in lo..hi, splev (splrep xs ys) y)) := by
    rw [← hr]
    unfold splBuild
    rw [List.getElem?_map, List.getElem?_zipWith, hx, hy]
    rfl
  rw [C81_cdf_partial rows i _ hz (ok_norm (rep_ok xs ys hn4 hs) _) x]
  have e1 : (splNorm (splrep xs ys) (∫ y in lo..hi, splev (splrep xs ys) y)).lo = a := rep_lo xs ys hn4 a ha
  have e2 : (splNorm (splrep xs ys) (∫ y in lo..hi, splev (splrep xs ys) y)).hi = b := rep_hi xs ys hn4 b hb
  rw [e1, e2]
  simp only [splev_norm, C141_splrep xs ys hlen hn4 hs]

/-! ## Units -/

/-- abscissae in other units -/
def scaled (s t : ℝ) (xss : List (List ℝ)) : List (List ℝ) := xss.map (·.map fun x => s * x + t)

theorem scaled_points (s t : ℝ) (hs : 0 < s) {xss yss : List (List ℝ)} (h : Points xss yss) : Points (scaled s t xss) yss := by
  refine ⟨?_, fun xs hx => ?_⟩
  · rw [← h.lengths]; simp [scaled, Function.comp_def]
  · obtain ⟨xs', h1, rfl⟩ := List.mem_map.1 hx
    obtain ⟨h2, h3⟩ := h.rows xs' h1
    refine ⟨by simpa using h2, List.pairwise_map.2 (h3.imp fun hab => ?_)⟩
    nlinarith

theorem zip_scale (s t : ℝ) (xs ys : List ℝ) : (xs.map fun x => s * x + t).zip ys = Lemmas.CubicSpline.scaleX s t (xs.zip ys) := by
  rw [List.zip_map_left]; rfl

/-- **C116 for spline PDFs created from points.** With the abscissae in other units (`s x + t`) the density is the density divided by `s`, and the CDF is the same; for every
PDF, next to PDFs of any ranges, inside and outside of the abscissae. -/
theorem C116_spline (s t : ℝ) (hs : 0 < s) (xss yss : List (List ℝ)) (h : Points xss yss) (rows : List (SplRow ℝ)) (hr : splFromXY xss yss = .ok rows) :
    ∃ rows', splFromXY (scaled s t xss) yss = .ok rows' ∧ rows'.length = rows.length ∧ ∀ i < rows.length, ∀ x, ∃ f F,
      splPdf rows i x = .ok f ∧ splPdf rows' i (s * x + t) = .ok (f / s) ∧ splCdf rows i x = .ok F ∧ splCdf rows' i (s * x + t) = .ok F := by
  have h' := scaled_points s t hs h
  have hacc := C141_accepted xss yss (fun xs hx => (h.rows xs hx).2)
  have hacc' := C141_accepted (scaled s t xss) yss (fun xs hx => (h'.rows xs hx).2)
  have hne : xss ≠ [] := (hacc.1.1 ⟨rows, hr⟩).2.1
  obtain ⟨rows', hr'⟩ := hacc'.1.2 ⟨h'.lengths, by simpa [scaled] using hne, fun xs hx => (h'.rows xs hx).1⟩
  have hl := hacc.2.1 rows hr
  have hl' := hacc'.2.1 rows' hr'
  refine ⟨rows', hr', by rw [hl, hl']; simp [scaled], fun i hi x => ?_⟩
  obtain ⟨xs, hx⟩ : ∃ xs, xss[i]? = some xs := ⟨xss[i]'(by omega), List.getElem?_eq_getElem (by omega)⟩
  have hly : xss.length = yss.length := by simpa using congrArg List.length h.lengths
  obtain ⟨ys, hy⟩ : ∃ ys, yss[i]? = some ys := ⟨yss[i]'(by omega), List.getElem?_eq_getElem (by omega)⟩
  obtain ⟨hn4, hxs⟩ := h.rows xs (List.mem_of_getElem? hx)
  have hxne : xs ≠ [] := by rintro rfl; simp at hn4
  obtain ⟨a, ha⟩ : ∃ a, xs.head? = some a := ⟨_, List.head?_eq_some_head hxne⟩
  obtain ⟨b, hb⟩ : ∃ b, xs.getLast? = some b := ⟨_, List.getLast?_eq_some_getLast hxne⟩
  have hx' : (scaled s t xss)[i]? = some (xs.map fun x => s * x + t) := by simp [scaled, hx]
  obtain ⟨lo, hlo⟩ : ∃ lo, xss.flatten.min? = some lo := by
    cases hf : xss.flatten.min? with
    | none =>
      have : a ∈ xss.flatten := List.mem_flatten.2 ⟨xs, List.mem_of_getElem? hx, List.mem_of_head? ha⟩
      rw [List.min?_eq_none_iff.1 hf] at this; simp at this
    | some lo => exact ⟨lo, rfl⟩
  obtain ⟨hi, hhi⟩ : ∃ hi, xss.flatten.max? = some hi := by
    cases hf : xss.flatten.max? with
    | none =>
      have : a ∈ xss.flatten := List.mem_flatten.2 ⟨xs, List.mem_of_getElem? hx, List.mem_of_head? ha⟩
      rw [List.max?_eq_none_iff.1 hf] at this; simp at this
    | some lo => exact ⟨lo, rfl⟩
  have hmono : ∀ {u v : ℝ}, s * u + t ≤ s * v + t ↔ u ≤ v := by intro u v; rw [add_le_add_iff_right, mul_le_mul_iff_right₀ hs]
  have hfl : (scaled s t xss).flatten = xss.flatten.map fun x => s * x + t := by simp [scaled, List.map_flatten]
  have hlo' : (scaled s t xss).flatten.min? = some (s * lo + t) := by
    obtain ⟨h1, h2⟩ := List.min?_eq_some_iff.1 hlo
    rw [hfl, List.min?_eq_some_iff]
    refine ⟨List.mem_map_of_mem h1, fun y hy => ?_⟩
    obtain ⟨z, hz, rfl⟩ := List.mem_map.1 hy
    exact hmono.2 (h2 z hz)
  have hhi' : (scaled s t xss).flatten.max? = some (s * hi + t) := by
    obtain ⟨h1, h2⟩ := List.max?_eq_some_iff.1 hhi
    rw [hfl, List.max?_eq_some_iff]
    refine ⟨List.mem_map_of_mem h1, fun y hy => ?_⟩
    obtain ⟨z, hz, rfl⟩ := List.mem_map.1 hy
    exact hmono.2 (h2 z hz)
  obtain ⟨r1, e1, hp, -⟩ := C141_pdf xss yss h.lengths h.rows lo hi hlo hhi i xs ys hx hy
  obtain ⟨r2, e2, hp', -⟩ := C141_pdf (scaled s t xss) yss h'.lengths h'.rows _ _ hlo' hhi' i _ ys hx' hy
  rw [hr, Except.ok.injEq] at e1
  rw [hr', Except.ok.injEq] at e2
  subst e1 e2
  obtain ⟨f, hf, hF⟩ := C141_cdf_ranges xss yss h i xs ys hx hy a b ha hb rows hr
  obtain ⟨f', hf', hF'⟩ := C141_cdf_ranges (scaled s t xss) yss h' i _ ys hx' hy (s * a + t) (s * b + t) (by simp [ha]) (by simp [hb]) rows' hr'
  have hint : ∀ u v : ℝ, (∫ y in (s * u + t)..(s * v + t), cubSpline (Lemmas.CubicSpline.scaleX s t (xs.zip ys)) y) = s * ∫ y in u..v, cubSpline (xs.zip ys) y := by
    intro u v
    have := intervalIntegral.integral_comp_mul_add (a := u) (b := v) (fun y => cubSpline (Lemmas.CubicSpline.scaleX s t (xs.zip ys)) y) hs.ne' t
    simp only [Lemmas.CubicSpline.spline_scale s t hs] at this
    rw [this, smul_eq_mul, ← mul_assoc, mul_inv_cancel₀ hs.ne', one_mul]
  have hff : ∀ y, f' (s * y + t) = f y / s := by
    intro y
    have h1 := hp y
    have h2 := hp' (s * y + t)
    rw [hf, Except.ok.injEq] at h1
    rw [hf', Except.ok.injEq, zip_scale, Lemmas.CubicSpline.spline_scale s t hs, hint] at h2
    rw [h1, h2, div_div, mul_comm]
  refine ⟨f x, _, hf x, by rw [hf', hff], hF x, ?_⟩
  rw [hF']
  have hm : min (s * x + t) (s * b + t) = s * min x b + t := by
    rcases le_total x b with hxb | hxb
    · rw [min_eq_left hxb, min_eq_left (hmono.2 hxb)]
    · rw [min_eq_right hxb, min_eq_right (hmono.2 hxb)]
  simp only [hmono, hm, Except.ok.injEq]
  split_ifs with hxa
  · rfl
  · have := intervalIntegral.integral_comp_mul_add (a := a) (b := min x b) f' hs.ne' t
    rw [smul_eq_mul, eq_inv_mul_iff_mul_eq₀ hs.ne'] at this
    rw [← this]
    simp only [hff]
    rw [intervalIntegral.integral_div, mul_div_cancel₀ _ hs.ne']

/-! ## Mirror images -/

/-- rows mirrored at `s / 2` -/
def mirrored (s : ℝ) (xss : List (List ℝ)) : List (List ℝ) := xss.map fun xs => (xs.map fun x => s - x).reverse

theorem mirrored_points (s : ℝ) {xss yss : List (List ℝ)} (h : Points xss yss) : Points (mirrored s xss) (yss.map List.reverse) := by
  refine ⟨?_, fun xs hx => ?_⟩
  · have := h.lengths
    simpa [mirrored, Function.comp_def] using this
  · obtain ⟨xs', h1, rfl⟩ := List.mem_map.1 hx
    obtain ⟨h2, h3⟩ := h.rows xs' h1
    refine ⟨by simpa using h2, List.pairwise_reverse.2 (List.pairwise_map.2 (h3.imp fun hab => ?_))⟩
    linarith

theorem zip_mirror (s : ℝ) (xs ys : List ℝ) (hlen : ys.length = xs.length) : ((xs.map fun x => s - x).reverse).zip ys.reverse = Mirror.mirrorKnots s 1 0 (xs.zip ys) := by
  have h : ((xs.map fun x => s - x).reverse).zip ys.reverse = ((xs.map fun x => s - x).zip ys).reverse := by
    unfold List.zip
    rw [List.reverse_zipWith (by simpa using hlen.symm)]
  unfold Mirror.mirrorKnots
  rw [h, List.zip_map_left]
  simp [Prod.map_def]

/-- **C131 for spline PDFs created from points.** For PDFs on the same range `[a, b]` whose curve has an integral other than zero, the PDF created from the mirrored points has
the mirrored density on the mirrored range, and one minus the mirrored CDF. -/
theorem C131_spline (s : ℝ) (xss yss : List (List ℝ)) (h : Points xss yss) (a b : ℝ) (ha : ∀ xs ∈ xss, xs.head? = some a) (hb : ∀ xs ∈ xss, xs.getLast? = some b)
    (i : ℕ) (xs ys : List ℝ) (hx : xss[i]? = some xs) (hy : yss[i]? = some ys) (h0 : (∫ t in a..b, cubSpline (xs.zip ys) t) ≠ 0) :
    ∃ rows rows', splFromXY xss yss = .ok rows ∧ splFromXY (mirrored s xss) (yss.map List.reverse) = .ok rows' ∧
      (∀ x, a ≤ x → x ≤ b → ∃ f, splPdf rows i x = .ok f ∧ splPdf rows' i (s - x) = .ok f) ∧
      ∀ x, ∃ F, splCdf rows i x = .ok F ∧ splCdf rows' i (s - x) = .ok (1 - F) := by
  have h' := mirrored_points s h
  obtain ⟨hn4, hxs⟩ := h.rows xs (List.mem_of_getElem? hx)
  have hlen := h.len hx hy
  have hmem := List.mem_of_getElem? hx
  have hab : a ≤ b := (QuantSpline.ends hxs (ha xs hmem) (hb xs hmem) a (List.mem_of_head? (ha xs hmem))).2
  have e1 : (xs.zip ys).map Prod.fst = xs := List.map_fst_zip hlen.ge
  have hcub : ∀ x, a ≤ x → x ≤ b → cubSpline (Mirror.mirrorKnots s 1 0 (xs.zip ys)) (s - x) = cubSpline (xs.zip ys) x := by
    intro x h1 h2
    have := CubicSpline.C140_mirror (xs.zip ys) (by rw [e1]; exact hxs) (by simp [hlen]; omega) s 1 0 a b (by rw [e1]; exact ha xs hmem) (by rw [e1]; exact hb xs hmem) x h1 h2
    rw [this, one_mul, add_zero]
  have hcub' : ∀ y, s - b ≤ y → y ≤ s - a → cubSpline (Mirror.mirrorKnots s 1 0 (xs.zip ys)) y = cubSpline (xs.zip ys) (s - y) := by
    intro y h1 h2
    have := hcub (s - y) (by linarith) (by linarith)
    rwa [sub_sub_cancel] at this
  have hint : ∀ u v, a ≤ u → u ≤ v → v ≤ b → (∫ y in (s - v)..(s - u), cubSpline (Mirror.mirrorKnots s 1 0 (xs.zip ys)) y) = ∫ y in u..v, cubSpline (xs.zip ys) y := by
    intro u v h1 h2 h3
    rw [← intervalIntegral.integral_comp_sub_left (fun y => cubSpline (Mirror.mirrorKnots s 1 0 (xs.zip ys)) y) s]
    refine intervalIntegral.integral_congr fun y hy => ?_
    rw [Set.uIcc_of_le h2] at hy
    exact hcub y (h1.trans hy.1) (hy.2.trans h3)
  have hx' : (mirrored s xss)[i]? = some ((xs.map fun x => s - x).reverse) := by simp [mirrored, hx]
  have hy' : (yss.map List.reverse)[i]? = some ys.reverse := by simp [hy]
  have ha' : ∀ zs ∈ mirrored s xss, zs.head? = some (s - b) := by
    intro zs hz
    obtain ⟨xs', h1, rfl⟩ := List.mem_map.1 hz
    simp [hb xs' h1]
  have hb' : ∀ zs ∈ mirrored s xss, zs.getLast? = some (s - a) := by
    intro zs hz
    obtain ⟨xs', h1, rfl⟩ := List.mem_map.1 hz
    simp [ha xs' h1]
  have hz := zip_mirror s xs ys hlen
  obtain ⟨rows, f, hr, hp, c1, c2, c3, c4⟩ := C141_cdf xss yss h.lengths h.rows a b ha hb i xs ys hx hy h0
  obtain ⟨rows', f', hr', hp', d1, d2, d3, d4⟩ := C141_cdf (mirrored s xss) _ h'.lengths h'.rows (s - b) (s - a) ha' hb' i _ _ hx' hy'
    (by rw [hz, hint a b le_rfl hab le_rfl]; exact h0)
  have hends : ∀ y ∈ xss.flatten, a ≤ y ∧ y ≤ b := by
    intro y hy
    obtain ⟨xs', h1, h2⟩ := List.mem_flatten.1 hy
    exact QuantSpline.ends (h.rows xs' h1).2 (ha xs' h1) (hb xs' h1) y h2
  have hends' : ∀ y ∈ (mirrored s xss).flatten, s - b ≤ y ∧ y ≤ s - a := by
    intro y hy
    obtain ⟨xs', h1, h2⟩ := List.mem_flatten.1 hy
    exact QuantSpline.ends (h'.rows xs' h1).2 (ha' xs' h1) (hb' xs' h1) y h2
  have hmem' := List.mem_of_getElem? hx'
  obtain ⟨r1, q1, p1, -⟩ := C141_pdf xss yss h.lengths h.rows a b
    (List.min?_eq_some_iff.2 ⟨List.mem_flatten.2 ⟨xs, hmem, List.mem_of_head? (ha xs hmem)⟩, fun y hy => (hends y hy).1⟩)
    (List.max?_eq_some_iff.2 ⟨List.mem_flatten.2 ⟨xs, hmem, List.mem_of_getLast? (hb xs hmem)⟩, fun y hy => (hends y hy).2⟩) i xs ys hx hy
  obtain ⟨r2, q2, p2, -⟩ := C141_pdf (mirrored s xss) _ h'.lengths h'.rows (s - b) (s - a)
    (List.min?_eq_some_iff.2 ⟨List.mem_flatten.2 ⟨_, hmem', List.mem_of_head? (ha' _ hmem')⟩, fun y hy => (hends' y hy).1⟩)
    (List.max?_eq_some_iff.2 ⟨List.mem_flatten.2 ⟨_, hmem', List.mem_of_getLast? (hb' _ hmem')⟩, fun y hy => (hends' y hy).2⟩) i _ _ hx' hy'
  rw [hr, Except.ok.injEq] at q1
  rw [hr', Except.ok.injEq] at q2
  subst q1 q2
  have hf : ∀ y, f y = cubSpline (xs.zip ys) y / ∫ t in a..b, cubSpline (xs.zip ys) t := by
    intro y
    have := hp y
    rw [p1, Except.ok.injEq] at this
    exact this.symm
  have hf' : ∀ y, s - b ≤ y → y ≤ s - a → f' y = f (s - y) := by
    intro y h1 h2
    have := hp' y
    rw [p2, Except.ok.injEq, hz, hint a b le_rfl hab le_rfl, hcub' y h1 h2, ← hf] at this
    exact this.symm
  refine ⟨rows, rows', hr, hr', fun x h1 h2 => ⟨f x, hp x, ?_⟩, fun x => ?_⟩
  · rw [hp', hf' _ (by linarith) (by linarith), sub_sub_cancel]
  · rcases le_total x a with h1 | h1
    · exact ⟨0, c1 x h1, by rw [d3 _ (by linarith), sub_zero]⟩
    · rcases le_total x b with h2 | h2
      · refine ⟨_, c2 x h1 h2, ?_⟩
        rw [d2 _ (by linarith) (by linarith), ← c4, Except.ok.injEq]
        have hi1 : ∀ u v, IntervalIntegrable f MeasureTheory.volume u v := by
          intro u v
          obtain ⟨s', s'', g1, -, -⟩ := CubicSpline.C140_smooth (xs.zip ys) (by rw [e1]; exact hxs) (by simp [hlen]; omega)
          have hc : Continuous f := by
            have : f = fun y => cubSpline (xs.zip ys) y / ∫ t in a..b, cubSpline (xs.zip ys) t := funext hf
            rw [this]
            exact (continuous_iff_continuousAt.2 fun y => (g1 y).continuousAt).div_const _
          exact hc.intervalIntegrable _ _
        rw [← intervalIntegral.integral_add_adjacent_intervals (hi1 a x) (hi1 x b), add_sub_cancel_left]
        rw [← intervalIntegral.integral_comp_sub_left f' s]
        refine intervalIntegral.integral_congr fun y hy => ?_
        rw [Set.uIcc_of_le h2] at hy
        show f' (s - y) = f y
        rw [hf' _ (by linarith [hy.2]) (by linarith [hy.1]), sub_sub_cancel]
      · exact ⟨1, c3 x h2, by rw [d1 _ (by linarith), sub_self]⟩

/-! ## Conversion -/

theorem convert_points {n : ℕ} {xs : List ℝ} (hn : 4 ≤ xs.length) (hs : xs.Pairwise (· < ·)) (g : ℕ → ℝ → ℝ) :
    Points (List.replicate n xs) ((List.range n).map fun (i : ℕ) => xs.map (g i)) := by
  refine ⟨?_, fun ys hy => ?_⟩
  · simp [Function.comp_def]
  · rw [List.eq_of_mem_replicate hy]; exact ⟨hn, hs⟩

/-- **C142: conversion to splines.** Converting an ensemble with the densities `g i` on at least four increasing abscissae gives as many PDFs; if the curve through the values of a
density has an integral `I` other than zero over the range, the new density has the values `g i x / I` at the abscissae and the total probability one, and the CDF is its integral.
Missing because the code violates it: a density that is never negative (`C142_negative_wrong`). -/
theorem C142_convert_partial (n : ℕ) (g : ℕ → ℝ → ℝ) (xs : List ℝ) (hn : 4 ≤ xs.length) (hs : xs.Pairwise (· < ·)) (a b : ℝ) (ha : xs.head? = some a) (hb : xs.getLast? = some b) (h0 : 0 < n) :
    ∃ rows, splConvertXY n g xs = .ok rows ∧ rows.length = n ∧ ∀ i < n, ∀ I, I = (∫ t in a..b, cubSpline (xs.zip (xs.map (g i))) t) → I ≠ 0 → ∃ f : ℝ → ℝ,
      (∀ x, splPdf rows i x = .ok (f x)) ∧ (∀ x ∈ xs, f x = g i x / I) ∧ (∫ t in a..b, f t) = 1 ∧
      (∀ x, x ≤ a → splCdf rows i x = .ok 0) ∧ (∀ x, a ≤ x → x ≤ b → splCdf rows i x = .ok (∫ t in a..x, f t)) ∧ ∀ x, b ≤ x → splCdf rows i x = .ok 1 := by
  have h := convert_points (n := n) hn hs g
  have hacc := C141_accepted _ ((List.range n).map fun (i : ℕ) => xs.map (g i)) (fun xs hx => (h.rows xs hx).2)
  obtain ⟨rows, hr⟩ := hacc.1.2 ⟨h.lengths, by simp; omega, fun xs hx => (h.rows xs hx).1⟩
  refine ⟨rows, hr, by rw [hacc.2.1 rows hr]; simp, fun i hi I hI hI0 => ?_⟩
  have hx : (List.replicate n xs)[i]? = some xs := by simp [hi]
  have hy : ((List.range n).map fun (i : ℕ) => xs.map (g i))[i]? = some (xs.map (g i)) := by simp [hi]
  have ha' : ∀ zs ∈ List.replicate n xs, zs.head? = some a := fun zs hz => by rw [List.eq_of_mem_replicate hz]; exact ha
  have hb' : ∀ zs ∈ List.replicate n xs, zs.getLast? = some b := fun zs hz => by rw [List.eq_of_mem_replicate hz]; exact hb
  obtain ⟨rows', f, hr', hp, c1, c2, c3, c4⟩ := C141_cdf _ _ h.lengths h.rows a b ha' hb' i xs _ hx hy (by rw [← hI]; exact hI0)
  rw [hr, Except.ok.injEq] at hr'
  subst hr'
  refine ⟨f, hp, fun x hxm => ?_, c4, c1, c2, c3⟩
  have hends : ∀ y ∈ (List.replicate n xs).flatten, a ≤ y ∧ y ≤ b := by
    intro y hy
    obtain ⟨xs', h1, h2⟩ := List.mem_flatten.1 hy
    exact QuantSpline.ends (h.rows xs' h1).2 (ha' xs' h1) (hb' xs' h1) y h2
  have hmem := List.mem_of_getElem? hx
  obtain ⟨r1, q1, -, p2⟩ := C141_pdf _ _ h.lengths h.rows a b
    (List.min?_eq_some_iff.2 ⟨List.mem_flatten.2 ⟨xs, hmem, List.mem_of_head? ha⟩, fun y hy => (hends y hy).1⟩)
    (List.max?_eq_some_iff.2 ⟨List.mem_flatten.2 ⟨xs, hmem, List.mem_of_getLast? hb⟩, fun y hy => (hends y hy).2⟩) i xs _ hx hy
  rw [hr, Except.ok.injEq] at q1
  subst q1
  obtain ⟨j, hj, rfl⟩ := List.getElem_of_mem hxm
  have := p2 j xs[j] (g i xs[j]) (List.getElem?_eq_getElem hj) (by simp [hj])
  rw [hp, Except.ok.injEq, ← hI] at this
  exact this

/-- **C142: what is converted without loss.** If a density is already a cubic spline whose cubics meet at abscissae other than the second and the last but one (for instance one cubic),
the new density is the old one divided by its integral over the range, everywhere in the range. -/
theorem C142_exact (n : ℕ) (g : ℕ → ℝ → ℝ) (xs : List ℝ) (hn : 4 ≤ xs.length) (hs : xs.Pairwise (· < ·)) (a b : ℝ) (ha : xs.head? = some a) (hb : xs.getLast? = some b)
    (i : ℕ) (hi : i < n) (g' g'' : ℝ → ℝ) (hg : (cubicBreaks xs).IsChain (CubicPiece (g i) g' g'')) :
    ∃ rows, splConvertXY n g xs = .ok rows ∧ ∀ x, a ≤ x → x ≤ b → splPdf rows i x = .ok (g i x / ∫ t in a..b, g i t) := by
  have h := convert_points (n := n) hn hs g
  have hx : (List.replicate n xs)[i]? = some xs := by simp [hi]
  have hy : ((List.range n).map fun (i : ℕ) => xs.map (g i))[i]? = some (xs.map (g i)) := by simp [hi]
  have hends : ∀ y ∈ (List.replicate n xs).flatten, a ≤ y ∧ y ≤ b := by
    intro y hy
    obtain ⟨xs', h1, h2⟩ := List.mem_flatten.1 hy
    rw [List.eq_of_mem_replicate h1] at h2
    exact QuantSpline.ends hs ha hb y h2
  have hmem := List.mem_of_getElem? hx
  have hab : a ≤ b := (QuantSpline.ends hs ha hb a (List.mem_of_head? ha)).2
  obtain ⟨rows, hr, hp, -⟩ := C141_pdf _ _ h.lengths h.rows a b
    (List.min?_eq_some_iff.2 ⟨List.mem_flatten.2 ⟨xs, hmem, List.mem_of_head? ha⟩, fun y hy => (hends y hy).1⟩)
    (List.max?_eq_some_iff.2 ⟨List.mem_flatten.2 ⟨xs, hmem, List.mem_of_getLast? hb⟩, fun y hy => (hends y hy).2⟩) i xs _ hx hy
  have e1 : (xs.zip (xs.map (g i))).map Prod.fst = xs := List.map_fst_zip (by simp)
  have key : ∀ t, a ≤ t → t ≤ b → cubSpline (xs.zip (xs.map (g i))) t = g i t := by
    intro t h1 h2
    refine (CubicSpline.C140_unique (xs.zip (xs.map (g i))) (by rw [e1]; exact hs) (by simpa using hn) (g i) ⟨?_, g', g'', by rw [e1]; exact hg⟩ a b (by rw [e1]; exact ha)
      (by rw [e1]; exact hb) t h1 h2).symm
    intro p hp
    obtain ⟨j, hj⟩ := List.getElem?_of_mem hp
    obtain ⟨q1, q2⟩ := List.getElem?_zip_eq_some.1 hj
    rw [List.getElem?_map, q1, Option.map_some, Option.some.injEq] at q2
    exact q2
  refine ⟨rows, hr, fun x h1 h2 => ?_⟩
  rw [hp, key x h1 h2]
  congr 2
  refine intervalIntegral.integral_congr fun t ht => ?_
  rw [Set.uIcc_of_le hab] at ht
  exact key t ht.1 ht.2

theorem convert_eq (n : ℕ) (g : ℕ → ℝ → ℝ) (xs : List ℝ) (hn : 4 ≤ xs.length) (hs : xs.Pairwise (· < ·)) (a b : ℝ) (ha : xs.head? = some a) (hb : xs.getLast? = some b) (h0 : 0 < n) :
    splConvertXY n g xs = .ok ((List.range n).map fun (i : ℕ) => splrep xs ((xs.map (g i)).map (· / splIntegral a b xs (xs.map (g i))))) := by
  have h := convert_points (n := n) hn hs g
  have hends : ∀ y ∈ (List.replicate n xs).flatten, a ≤ y ∧ y ≤ b := by
    intro y hy
    obtain ⟨xs', h1, h2⟩ := List.mem_flatten.1 hy
    rw [List.eq_of_mem_replicate h1] at h2
    exact QuantSpline.ends hs ha hb y h2
  have hmem : xs ∈ List.replicate n xs := List.mem_replicate.2 ⟨by omega, rfl⟩
  have hlo : (List.replicate n xs).flatten.min? = some a := List.min?_eq_some_iff.2 ⟨List.mem_flatten.2 ⟨xs, hmem, List.mem_of_head? ha⟩, fun y hy => (hends y hy).1⟩
  have hhi : (List.replicate n xs).flatten.max? = some b := List.max?_eq_some_iff.2 ⟨List.mem_flatten.2 ⟨xs, hmem, List.mem_of_getLast? hb⟩, fun y hy => (hends y hy).2⟩
  unfold splConvertXY splFromXY
  rw [if_neg (not_not.2 h.lengths), hlo, hhi]
  simp only
  rw [if_neg (by rintro ⟨xs, h1, h'⟩; exact absurd (h.rows xs h1).1 (by omega)), if_neg (by rintro ⟨xs, h1, h'⟩; exact h' (h.rows xs h1).2), Except.ok.injEq]
  refine List.ext_getElem? fun i => ?_
  by_cases hi : i < n
  · simp [hi]
  · simp [hi]

/-- **C142: converting twice.** Converting the result again on the same abscissae changes nothing. -/
theorem C142_twice (n : ℕ) (g : ℕ → ℝ → ℝ) (xs : List ℝ) (hn : 4 ≤ xs.length) (hs : xs.Pairwise (· < ·)) (a b : ℝ) (ha : xs.head? = some a) (hb : xs.getLast? = some b) (h0 : 0 < n)
    (hI : ∀ i < n, (∫ t in a..b, cubSpline (xs.zip (xs.map (g i))) t) ≠ 0) (rows : List (SplRow ℝ)) (hr : splConvertXY n g xs = .ok rows) (f : ℕ → ℝ → ℝ)
    (hf : ∀ i < n, ∀ x, splPdf rows i x = .ok (f i x)) : splConvertXY n f xs = .ok rows := by
  obtain ⟨rows', hr', -, hc⟩ := C142_convert_partial n g xs hn hs a b ha hb h0
  rw [hr, Except.ok.injEq] at hr'
  subst hr'
  rw [convert_eq n g xs hn hs a b ha hb h0] at hr
  rw [convert_eq n f xs hn hs a b ha hb h0, ← hr, Except.ok.injEq]
  refine List.map_congr_left fun i hi => ?_
  have hi := List.mem_range.1 hi
  obtain ⟨f', p1, p2, p3, -⟩ := hc i hi _ rfl (hI i hi)
  have e : splIntegral a b xs (xs.map (g i)) = ∫ t in a..b, cubSpline (xs.zip (xs.map (g i))) t := splIntegral_eq xs _ (by simp) hn hs a b
  have ef : xs.map (f i) = (xs.map (g i)).map (· / splIntegral a b xs (xs.map (g i))) := by
    rw [List.map_map]
    refine List.map_congr_left fun x hx => ?_
    have := p1 x
    rw [hf i hi, Except.ok.injEq] at this
    rw [this, p2 x hx, Function.comp_apply, e]
  have e1 : splIntegral a b xs ((xs.map (g i)).map (· / splIntegral a b xs (xs.map (g i)))) = 1 := by
    unfold splIntegral
    have hd := C141_divide xs (xs.map (g i)) (by simp) hn hs (∫ x in a..b, splev (splrep xs (xs.map (g i))) x)
    rw [hd]
    simp only [splev_norm]
    rw [intervalIntegral.integral_div, div_self]
    have := hI i hi
    rw [← e] at this
    exact this
  rw [ef, e1]
  simp [Function.comp_def]

/-- **C142 is violated for the sign**: a density that is never negative (here a multiple of one), whose conversion is negative between two abscissae, so that the CDF of the
result decreases. -/
theorem C142_negative_wrong : ∃ (g : ℝ → ℝ) (rows : List (SplRow ℝ)), Continuous g ∧ (∀ x, 0 ≤ g x) ∧ splConvertXY 1 (fun _ => g) [0, 1, 2, 3] = .ok rows ∧
    splPdf rows 0 (3 / 2) = .ok (-1 / 6) ∧ ∃ F G, splCdf rows 0 1 = .ok F ∧ splCdf rows 0 2 = .ok G ∧ G < F := by
  have hcub : ∀ t, (0 : ℝ) ≤ t → t ≤ 3 → cubSpline ([(0, 2), (1, 0), (2, 0), (3, 2)] : List (ℝ × ℝ)) t = 2 - 3 * t + t ^ 2 := by
    intro t h1 h2
    have := CubicSpline.C140_reproduces ([(0, 2), (1, 0), (2, 0), (3, 2)] : List (ℝ × ℝ)) (by norm_num) (by simp) 2 (-3) 1 0
      (by intro p hp; fin_cases hp <;> norm_num) 0 3 (by simp) (by simp) t h1 h2
    rw [this]; ring
  have hz : ([0, 1, 2, 3] : List ℝ).zip (([0, 1, 2, 3] : List ℝ).map fun x => |(x - 1) * (x - 2)|) = [(0, 2), (1, 0), (2, 0), (3, 2)] := by
    norm_num
  have hint : ∀ u v : ℝ, 0 ≤ u → u ≤ v → v ≤ 3 → (∫ t in u..v, cubSpline ([(0, 2), (1, 0), (2, 0), (3, 2)] : List (ℝ × ℝ)) t) =
      2 * (v - u) - 3 * ((v ^ 2 - u ^ 2) / 2) + (v ^ 3 - u ^ 3) / 3 := by
    intro u v h1 h2 h3
    have : (∫ t in u..v, cubSpline ([(0, 2), (1, 0), (2, 0), (3, 2)] : List (ℝ × ℝ)) t) = ∫ t in u..v, (2 - 3 * t + t ^ 2) := by
      refine intervalIntegral.integral_congr fun t ht => ?_
      rw [Set.uIcc_of_le h2] at ht
      exact hcub t (h1.trans ht.1) (ht.2.trans h3)
    rw [this, intervalIntegral.integral_add, intervalIntegral.integral_sub, intervalIntegral.integral_const, intervalIntegral.integral_const_mul, integral_id, integral_pow]
    · simp only [smul_eq_mul]; norm_num; ring
    all_goals exact Continuous.intervalIntegrable (by fun_prop) _ _
  have h := convert_points (n := 1) (xs := [0, 1, 2, 3]) (by simp) (by norm_num) (fun _ x => |(x - 1) * (x - 2)|)
  have hlo : (List.replicate 1 ([0, 1, 2, 3] : List ℝ)).flatten.min? = some 0 := by
    rw [List.min?_eq_some_iff]; simp
  have hhi : (List.replicate 1 ([0, 1, 2, 3] : List ℝ)).flatten.max? = some 3 := by
    rw [List.max?_eq_some_iff]; simp; norm_num
  obtain ⟨rows, hr, hp, -⟩ := C141_pdf _ _ h.lengths h.rows 0 3 hlo hhi 0 [0, 1, 2, 3] _ rfl rfl
  rw [hz, hint 0 3 le_rfl (by norm_num) le_rfl] at hp
  obtain ⟨rows', f, hr', hf, -, hc, -⟩ := C141_cdf _ _ h.lengths h.rows 0 3 (by simp) (by simp) 0 [0, 1, 2, 3] _ rfl rfl
    (by rw [hz, hint 0 3 le_rfl (by norm_num) le_rfl]; norm_num)
  rw [hr, Except.ok.injEq] at hr'
  subst hr'
  have hfe : ∀ t, f t = cubSpline ([(0, 2), (1, 0), (2, 0), (3, 2)] : List (ℝ × ℝ)) t / (3 / 2) := by
    intro t
    have := hp t
    rw [hf, Except.ok.injEq] at this
    rw [this]
    norm_num
  refine ⟨fun x => |(x - 1) * (x - 2)|, rows, by fun_prop, fun x => abs_nonneg _, hr, ?_, _, _, hc 1 (by norm_num) (by norm_num), hc 2 (by norm_num) (by norm_num), ?_⟩
  · rw [hf, hfe, hcub _ (by norm_num) (by norm_num)]; norm_num
  · simp only [hfe]
    rw [intervalIntegral.integral_div, intervalIntegral.integral_div, hint 0 1 le_rfl (by norm_num) (by norm_num), hint 0 2 le_rfl (by norm_num) (by norm_num)]
    norm_num

/-- a cubic density is converted without loss: `4 x³` on `[0, 1]` -/
example : ∃ rows, splConvertXY 1 (fun _ x => 4 * x ^ 3) [0, 1 / 4, 1 / 2, 3 / 4, 1] = .ok rows ∧ ∀ x : ℝ, 0 ≤ x → x ≤ 1 →
    splPdf rows 0 x = .ok (4 * x ^ 3 / ∫ t in (0 : ℝ)..1, 4 * t ^ 3) :=
  C142_exact 1 _ _ (by simp) (by norm_num) 0 1 (by simp) (by simp) 0 (by simp) (fun x => 12 * x ^ 2) (fun x => 24 * x) (by
    simp only [cubicBreaks, List.head?_cons, Option.toList_some, List.drop_succ_cons, List.drop_zero, List.dropLast_cons_cons, List.dropLast_singleton, 
      List.getLast?_cons_cons, List.getLast?_singleton, List.cons_append, List.nil_append, List.isChain_cons_cons, List.IsChain.singleton, and_true]
    refine ⟨⟨4, fun t _ _ => ⟨?_, ?_, ?_⟩⟩, ⟨4, fun t _ _ => ⟨?_, ?_, ?_⟩⟩⟩ <;> ring)

/-- two PDFs with different ranges, for the theorems about units -/
example : Points [[0, 1, 2, 3], [0, 1, 2, 5]] [[0, 1, 1, 0], [0, 2, 1, 0]] := ⟨by simp, by intro xs h; fin_cases h <;> norm_num⟩

end Verif.Props.SplineConvert
