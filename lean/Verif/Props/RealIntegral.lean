import Verif.Lemmas.Integral
import Verif.Props.InterpPdf
import Verif.Model.Stats
import Mathlib.Algebra.Order.Floor.Ring
import Mathlib.Algebra.Order.Archimedean.Real.Basic

/-!
# C08, C12, C13, C17 for Lebesgue integrals, and C89: mean and variance

The sums of `Spec.Step` and `Spec.Linear` are tied to Mathlib's integral here: the CDF of a histogram is the integral of its PDF, and so on.
`f` stands for the density of one PDF; the hypothesis `hf` says that `ens.pdf` returns `f x` at every `x`.
-/

set_option linter.unusedSectionVars false
set_option autoImplicit false

namespace Verif.Props.RealIntegral

open Verif Verif.Np Verif.Model Verif.Spec Verif.Lemmas.Integral Verif.Props.Hist Verif.Props.InterpPdf Verif.Props.Bins MeasureTheory Set

theorem hist_isStep (edges p : List ℝ) (hg : Grid edges p.length) (hu : Uniform edges ∨ DetectablyNonUniform edges)
    (h1 : totalMass edges p = 1) (f : ℝ → ℝ) (hf : ∀ x, histPdf edges p x = .ok (f x)) : IsStep edges p f := by
  obtain ⟨p', hp', -, he, -⟩ := (C07_row_normalised edges p).2 (by rw [h1]; exact one_ne_zero)
  have hpp : p' = p := by rw [he, h1]; simp
  rw [hpp] at hp'
  constructor
  · intro i a b v ha hb hv t ht
    have := (C06_hist_pdf_partial edges p p hg hu hp' t).1 i v ⟨a, b, ha, hb, ht.1, ht.2⟩ hv
    rw [hf t, h1, div_one] at this
    exact Except.ok.inj this
  · intro t ht
    have := (C06_hist_pdf_partial edges p p hg hu hp' t).2 ht
    rw [hf t] at this
    exact Except.ok.inj this

/-- **C08 with the Lebesgue integral**: the density of a normalised histogram is integrable with integral one, and the CDF at every point `x`
is the integral of the density over `(-∞, x]`. Bins: exactly equal, or unequal by more than the tolerance (see C05). -/
theorem C08_lebesgue (edges p : List ℝ) (hg : Grid edges p.length) (hu : Uniform edges ∨ DetectablyNonUniform edges)
    (h1 : totalMass edges p = 1) (f : ℝ → ℝ) (hf : ∀ x, histPdf edges p x = .ok (f x)) :
    Integrable f ∧ (∫ t, f t) = 1 ∧ ∀ x, histCdf edges p x = some (∫ t in Iic x, f t) := by
  obtain ⟨h2, h3, h4⟩ := step_integral edges p hg.strict hg.size f (hist_isStep edges p hg hu h1 f hf)
  exact ⟨h2, by rw [h3, h1], fun x => by rw [C08_cdf_is_mass edges p hg h1 x, h4 x]⟩

theorem interp_isLine (xs ys : List ℝ) (hg : XGrid xs ys.length) (f : ℝ → ℝ) (hf : ∀ x, interpPdf xs ys x = some (f x)) : IsLine xs ys f := by
  have h15 := C15_pdf_through_points xs ys hg
  constructor
  · intro i x0 x1 y0 y1 g1 g2 g3 g4 t ht
    obtain ⟨d, hd, he, -, -⟩ := h15.2.1 i x0 x1 y0 y1 t g1 g2 g3 g4 ht.1.le ht.2.le
    rw [hf t] at hd
    injection hd with hd
    rw [hd]
    have : x1 - x0 ≠ 0 := by have := ht.1.trans ht.2; linarith
    unfold line
    field_simp
    linear_combination he
  · intro t ht
    have := h15.2.2.1 t ht
    rw [hf t] at this
    injection this

private theorem grid_ne {xs : List ℝ} {n : ℕ} (hg : XGrid xs n) : xs ≠ [] := by
  intro h; have := hg.size; have := hg.two; rw [h] at *; simp at *; omega

/-- **C12 with the Lebesgue integral**: the density of an interpolated PDF is integrable and its integral is the area below the broken line. -/
theorem C12_lebesgue (xs ys : List ℝ) (hg : XGrid xs ys.length) (f : ℝ → ℝ) (hf : ∀ x, interpPdf xs ys x = some (f x)) :
    Integrable f ∧ (∫ t, f t) = area xs ys := by
  have := line_weighted (fun _ => 1) continuous_const area (fun a u b v => (b - a) * (u + v) / 2) (fun _ _ _ _ _ _ => rfl) (fun _ _ => rfl)
    (fun a u b v hab => by
      simp only [one_mul]
      rw [line_int a u b v b hab]
      have : b - a ≠ 0 := by linarith
      field_simp
      ring) xs ys hg.strict (grid_ne hg) hg.size f (interp_isLine xs ys hg f hf)
  simpa using this

/-- the integral of a broken line up to a grid point and beyond -/
private theorem line_upto (f : ℝ → ℝ) : ∀ (i : ℕ) (xs ys : List ℝ) (a : ℝ), xs.Pairwise (· < ·) → xs.length = ys.length →
    (∀ (i : ℕ) x0 x1 y0 y1, xs[i]? = some x0 → xs[i+1]? = some x1 → ys[i]? = some y0 → ys[i+1]? = some y1 →
      ∀ t ∈ Ioo x0 x1, f t = line x0 y0 x1 y1 t) → xs[0]? = some a → ∀ x0 x1 y0 y1, xs[i]? = some x0 → xs[i+1]? = some x1 →
    ys[i]? = some y0 → ys[i+1]? = some y1 → ∀ x, x0 ≤ x → x ≤ x1 →
    IntervalIntegrable f volume a x ∧ (∫ t in a..x, f t) = areaTo i xs ys + (y0 * (x - x0) + (y1 - y0) / (x1 - x0) * (x - x0) ^ 2 / 2) := by
  intro i
  induction i with
  | zero =>
    intro xs ys a hs hl hf ha x0 x1 y0 y1 g1 g2 g3 g4 x hx0 hx1
    have : x0 = a := by rw [ha] at g1; exact (Option.some.inj g1).symm
    subst this
    have hlt : x0 < x1 := by
      obtain ⟨hi, rfl⟩ := List.getElem?_eq_some_iff.1 g1
      obtain ⟨hj, rfl⟩ := List.getElem?_eq_some_iff.1 g2
      exact List.pairwise_iff_getElem.1 hs _ _ hi hj (by omega)
    have := piece f (line x0 y0 x1 y1) x0 x hx0 (fun t ht => hf 0 x0 x1 y0 y1 g1 g2 g3 g4 t ⟨ht.1, lt_of_lt_of_le ht.2 hx1⟩) (line_cont _ _ _ _)
    refine ⟨this.1, ?_⟩
    rw [this.2, line_int _ _ _ _ _ hlt, areaTo]
    · ring
    · rintro _ _ _ _ _ _ _ ⟨⟩
  | succ i ih =>
    intro xs ys a hs hl hf ha x0 x1 y0 y1 g1 g2 g3 g4 x hx0 hx1
    match xs, ys, hl with
    | [], _, _ => simp at ha
    | [p], _, _ => simp at g1
    | p :: q :: xs, [], hl => simp at hl
    | p :: q :: xs, [u], hl => simp at hl
    | p :: q :: xs, u :: v :: ys, hl =>
    have : p = a := by simpa using ha
    subst this
    have hpq : p < q := (List.pairwise_cons.1 hs).1 q (by simp)
    have h0 := piece f (line p u q v) p q hpq.le (hf 0 p q u v rfl rfl rfl rfl) (line_cont _ _ _ _)
    obtain ⟨h1, h2⟩ := ih (q :: xs) (v :: ys) q (List.pairwise_cons.1 hs).2 (by simpa using hl)
      (fun i x0 x1 y0 y1 k1 k2 k3 k4 => hf (i + 1) x0 x1 y0 y1 (by simpa using k1) (by simpa using k2) (by simpa using k3) (by simpa using k4))
      rfl x0 x1 y0 y1 (by simpa using g1) (by simpa using g2) (by simpa using g3) (by simpa using g4) x hx0 hx1
    refine ⟨h0.1.trans h1, ?_⟩
    rw [← intervalIntegral.integral_add_adjacent_intervals h0.1 h1, h0.2, h2, line_int _ _ _ _ _ hpq, areaTo]
    have : q - p ≠ 0 := by linarith
    field_simp
    ring

/-- **C13 with the Lebesgue integral, and the error between grid points.** The CDF of a constructed interpolated PDF at every grid point but the
first is the integral of the density up to there. Inside every later cell the code interpolates the CDF linearly although the exact one is
quadratic: it is off by exactly `(y1 - y0) / (2 h) * (x - x0) * (x1 - x)`. -/
theorem C13_lebesgue (xs ys c : List ℝ) (h : Constructed xs ys c) (f : ℝ → ℝ) (hf : ∀ x, interpPdf xs ys x = some (f x)) :
    (∀ (i : ℕ) x, xs[i+1]? = some x → interpCdf xs c x = some (∫ t in Iic x, f t)) ∧
    ∀ (i : ℕ) x0 x1 y0 y1 x, xs[i+1]? = some x0 → xs[i+2]? = some x1 → ys[i+1]? = some y0 → ys[i+2]? = some y1 → x0 ≤ x → x ≤ x1 →
      interpCdf xs c x = some ((∫ t in Iic x, f t) + (y1 - y0) / (2 * (x1 - x0)) * (x - x0) * (x1 - x)) := by
  have hgrid := C13_cdf_at_grid xs ys c h
  have hc0 := h
  obtain ⟨row, hgr, hcr⟩ := h
  obtain ⟨a, b, t, u, v, r, rfl, rfl, hl, hs, h1, rfl⟩ := constructed_facts hc0
  have hg : XGrid (a :: b :: t) (u :: v :: r).length := ⟨hs, by simp [hl], by simp⟩
  have hline := interp_isLine _ _ hg f hf
  have hcell : ∀ (i : ℕ) u w, (a :: b :: t)[i]? = some u → (a :: b :: t)[i+1]? = some w → IntervalIntegrable f volume u w := by
    intro i x0 x1 g1 g2
    have hj := (List.getElem?_eq_some_iff.1 g2).1
    have hlt : x0 < x1 := by
      obtain ⟨hi, rfl⟩ := List.getElem?_eq_some_iff.1 g1
      obtain ⟨hj, rfl⟩ := List.getElem?_eq_some_iff.1 g2
      exact List.pairwise_iff_getElem.1 hs _ _ hi hj (by omega)
    exact (piece f _ x0 x1 hlt.le (hline.1 i x0 x1 _ _ g1 g2 (List.getElem?_eq_getElem (by rw [← hg.size]; omega))
      (List.getElem?_eq_getElem (by rw [← hg.size]; exact hj))) (line_cont _ _ _ _)).1
  have hon := (on_grid (a :: b :: t) hs (by simp) f hline.2 hcell).2.2.2 a rfl
  have hfirst : ∀ (i : ℕ) x, (a :: b :: t)[i]? = some x → a ≤ x := by
    intro i x hx
    rcases List.mem_cons.1 (List.mem_of_getElem? hx) with h | h
    · exact h.ge
    · exact ((List.pairwise_cons.1 hs).1 x h).le
  have hupto := fun i => line_upto f i (a :: b :: t) (u :: v :: r) a hs (by simp [hl]) hline.1 rfl
  have harea : ∀ (i : ℕ) (xs ys : List ℝ) x0 x1 y0 y1, xs.length = ys.length → xs[i]? = some x0 → xs[i+1]? = some x1 → ys[i]? = some y0 →
      ys[i+1]? = some y1 → areaTo (i + 1) xs ys = areaTo i xs ys + (x1 - x0) * (y0 + y1) / 2 := by
    intro i
    induction i with
    | zero =>
      intro xs ys x0 x1 y0 y1 hl g1 g2 g3 g4
      match xs, ys with
      | p :: q :: xs, w :: z :: ys =>
        simp at g1 g2 g3 g4
        subst g1 g2 g3 g4
        simp [areaTo]
      | [], _ => simp at g1
      | [p], _ => simp at g2
      | _ :: _ :: _, [] => simp at g3
      | _ :: _ :: _, [z] => simp at g4
    | succ i ih =>
      intro xs ys x0 x1 y0 y1 hl g1 g2 g3 g4
      match xs, ys with
      | p :: q :: xs, w :: z :: ys =>
        have := ih (q :: xs) (z :: ys) x0 x1 y0 y1 (by simpa using hl) (by simpa using g1) (by simpa using g2) (by simpa using g3) (by simpa using g4)
        rw [areaTo, this, areaTo]
        ring
      | [], _ => simp at g1
      | [p], _ => simp at g2
      | _ :: _ :: _, [] => simp at g3
      | _ :: _ :: _, [z] => simp at g4
  have hknot : ∀ (i : ℕ) x, (a :: b :: t)[i+1]? = some x → areaTo (i+1) (a :: b :: t) (u :: v :: r) = ∫ t in Iic x, f t := by
    intro i x hx
    have hj := (List.getElem?_eq_some_iff.1 hx).1
    obtain ⟨w, g1⟩ : ∃ w, (a :: b :: t)[i]? = some w := ⟨_, List.getElem?_eq_getElem (by omega)⟩
    obtain ⟨y0, g3⟩ : ∃ w, (u :: v :: r)[i]? = some w := ⟨_, List.getElem?_eq_getElem (by rw [← hg.size]; omega)⟩
    obtain ⟨y1, g4⟩ : ∃ w, (u :: v :: r)[i+1]? = some w := ⟨_, List.getElem?_eq_getElem (by rw [← hg.size]; omega)⟩
    have hlt : w < x := by
      obtain ⟨hi, rfl⟩ := List.getElem?_eq_some_iff.1 g1
      obtain ⟨hj, rfl⟩ := List.getElem?_eq_some_iff.1 hx
      exact List.pairwise_iff_getElem.1 hs _ _ hi hj (by omega)
    rw [hon x (hfirst _ x hx), (hupto i _ _ _ _ g1 hx g3 g4 x hlt.le le_rfl).2, harea i _ _ _ _ _ _ hg.size g1 hx g3 g4]
    have : x - w ≠ 0 := by linarith
    field_simp
    ring
  refine ⟨fun i x hx => by rw [hgrid.1 i x hx, hknot i x hx], ?_⟩
  intro i x0 x1 y0 y1 x g1 g2 g3 g4 hx0 hx1
  have hlt : x0 < x1 := by
    obtain ⟨hi, rfl⟩ := List.getElem?_eq_some_iff.1 g1
    obtain ⟨hj, rfl⟩ := List.getElem?_eq_some_iff.1 g2
    exact List.pairwise_iff_getElem.1 hs _ _ hi hj (by omega)
  have hcl : (a :: b :: t).length = (1 / 2 * u * (b - a) :: cumsum (trapezoids (a :: b :: t) (u :: v :: r))).length := by
    rw [List.length_cons (as := cumsum _)]
    have := Lemmas.InterpPdf.length_trapezoids (a :: b :: t) (u :: v :: r) (by simp [hl])
    have hc : ∀ (l : List ℝ) (z : ℝ), (cumsumFrom z l).length = l.length := by
      intro l
      induction l with
      | nil => intro z; rfl
      | cons w l ih => intro z; simp [cumsumFrom, ih]
    unfold cumsum
    rw [hc, this]
    simp
  have hgc : XGrid (a :: b :: t) (1 / 2 * u * (b - a) :: cumsum (trapezoids (a :: b :: t) (u :: v :: r))).length := ⟨hs, hcl, by rw [← hcl]; simp⟩
  set c := 1 / 2 * u * (b - a) :: cumsum (trapezoids (a :: b :: t) (u :: v :: r)) with hc
  have hjl := (List.getElem?_eq_some_iff.1 g2).1
  obtain ⟨z0, k0⟩ : ∃ w, c[i+1]? = some w := ⟨_, List.getElem?_eq_getElem (by rw [← hgc.size]; omega)⟩
  obtain ⟨z1, k1⟩ : ∃ w, c[i+2]? = some w := ⟨_, List.getElem?_eq_getElem (by rw [← hgc.size]; omega)⟩
  -- the interpolation of the cumulated values has the same form as a density, up to the fill value
  have hmem0 : ((a :: b :: t).zip c)[i+1]? = some (x0, z0) := by rw [List.getElem?_zip_eq_some]; exact ⟨g1, k0⟩
  have hmem1 : ((a :: b :: t).zip c)[i+1+1]? = some (x1, z1) := by rw [List.getElem?_zip_eq_some]; exact ⟨g2, k1⟩
  have hX := Lemmas.InterpPdf.strictX_zip (ys := c) hs
  have hin : interpCdf (a :: b :: t) c x = some (line x0 z0 x1 z1 x) := by
    unfold interpCdf
    rw [hc, List.zip_cons_cons] at hmem0 hmem1 hX
    rw [hc, List.zip_cons_cons, Lemmas.InterpPdf.interp_inside ((Lemmas.InterpPdf.head_le_mem hX (List.mem_of_getElem? hmem0)).trans hx0)
      (hx1.trans (Lemmas.InterpPdf.StrictX_le_last hX (List.mem_of_getElem? hmem1))), Lemmas.InterpPdf.npInterpGo_cell hX hmem0 hmem1 hx0 hx1]
  have hat : ∀ x z (j : ℕ), (a :: b :: t)[j+1]? = some x → c[j+1]? = some z → z = areaTo (j+1) (a :: b :: t) (u :: v :: r) := by
    intro x z j hx hz
    have h2 := hgrid.1 j x hx
    have hm : ((a :: b :: t).zip c)[j+1]? = some (x, z) := by rw [List.getElem?_zip_eq_some]; exact ⟨hx, hz⟩
    unfold interpCdf at h2
    rw [hc, List.zip_cons_cons] at hm hX h2
    rw [Lemmas.InterpPdf.interp_inside (Lemmas.InterpPdf.head_le_mem hX (List.mem_of_getElem? hm)) (Lemmas.InterpPdf.StrictX_le_last hX (List.mem_of_getElem? hm)),
      npInterpGo_knot hX (List.mem_of_getElem? hm)] at h2
    exact Option.some.inj h2
  rw [hin, hat x0 _ i g1 k0, hat x1 _ (i+1) g2 k1, hon x ((hfirst _ x0 g1).trans hx0), (hupto (i+1) x0 x1 y0 y1 g1 g2 g3 g4 x hx0 hx1).2,
    harea (i+1) _ _ x0 x1 y0 y1 hg.size g1 g2 g3 g4]
  congr 1
  unfold line
  have : x1 - x0 ≠ 0 := by linarith
  field_simp
  ring

/-- **C17, exact value of the integral** of an irregular-grid PDF: the area below the given broken line divided by the sum of the right
rectangles. -/
theorem C17_lebesgue (xs row ys : List ℝ) (hg : XGrid xs row.length) (hn : irrNormRow xs row = some ys) (f : ℝ → ℝ)
    (hf : ∀ x, interpPdf xs ys x = some (f x)) :
    Integrable f ∧ (∫ t, f t) = area xs row / Np.sum (rightRects xs row) ∧
    ((∫ t, f t) = 1 ↔ area xs row = Np.sum (rightRects xs row)) := by
  unfold irrNormRow at hn
  simp only at hn
  split at hn
  · simp at hn
  next h0 =>
  injection hn with hn
  subst hn
  have := C12_lebesgue xs (row.map (· / Np.sum (rightRects xs row))) ⟨hg.strict, by simpa using hg.size, by simpa using hg.two⟩ f hf
  rw [Lemmas.InterpPdf.area_div] at this
  refine ⟨this.1, this.2, ?_⟩
  rw [this.2, div_eq_one_iff_eq h0]

end Verif.Props.RealIntegral
