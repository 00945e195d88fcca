import Verif.Props.RealIntegral
import Verif.Props.Integrals
import Mathlib.Algebra.Order.Ring.Rat

/-!
# C11, C16 through `ens.moment`, and C89: mean and variance of gridded PDFs

The first part gives the moments as sums, over every ordered field. The second compares them with the integrals of the density.
-/

set_option linter.unusedSectionVars false
set_option autoImplicit false

namespace Verif.Props.Variance

open Verif Verif.Np Verif.Model Verif.Spec Verif.Lemmas.Integral Verif.Props.Hist Verif.Props.InterpPdf Verif.Props.Bins Verif.Props.RealIntegral
open MeasureTheory Set

section sums

variable {K : Type} [Field K] [LinearOrder K] [IsStrictOrderedRing K]

/-- neighbouring points of the grid are `w` apart -/
def Spaced (xs : List K) (w : K) : Prop := ∀ (i : ℕ) a b, xs[i]? = some a → xs[i+1]? = some b → b - a = w

theorem Spaced.tail {a : K} {xs : List K} {w : K} (h : Spaced (a :: xs) w) : Spaced xs w :=
  fun i u v hu hv => h (i+1) u v (by simpa using hu) (by simpa using hv)

theorem Spaced.uniform {xs : List K} {w : K} (h : Spaced xs w) : Uniform xs := ⟨w, h⟩

private theorem raw1 (edges p : List K) : rawMoment 1 edges p = meanOf edges p := by
  induction edges generalizing p with
  | nil => simp [rawMoment, meanOf]
  | cons a e ih =>
    match e, p with
    | [], _ => simp [rawMoment, meanOf]
    | b :: e, [] => simp [rawMoment, meanOf]
    | b :: e, q :: p =>
      rw [rawMoment, meanOf, ih p]
      congr 1
      push_cast
      ring

/-- **C11, second moment.** On uniform bins of width `w`, `moment(2)` of a normalised histogram is the exact second moment minus `w² / 12`. -/
theorem C11_moment2_exact (edges p : List K) (hg : Grid edges p.length) (w : K) (hw : Spaced edges w) (h1 : totalMass edges p = 1) :
    statsMoment (histMoment edges p) 2 = .ok (rawMoment 2 edges p - w ^ 2 / 12) := by
  have key : ∀ (e : List K) (a : K) (p : List K), p.length = e.length → Spaced (a :: e) w →
      Np.sum (Np.mul ((edgeToCenter (a :: e)).map (· ^ 2)) p) * w = rawMoment 2 (a :: e) p - w ^ 2 / 12 * totalMass (a :: e) p := by
    intro e
    induction e with
    | nil => intro a p hl _; simp at hl; subst hl; simp [edgeToCenter, Np.mul, Np.sum, totalMass, rawMoment]
    | cons b e ih =>
      intro a p hl hw
      cases p with
      | nil => simp at hl
      | cons q p =>
        have hab : b - a = w := hw 0 a b rfl rfl
        have i0 := ih b p (by simpa using hl) hw.tail
        simp only [edgeToCenter, List.map_cons, Np.mul, List.zipWith_cons_cons, Np.sum, List.foldr_cons, totalMass, rawMoment] at *
        obtain rfl : b = a + w := by linear_combination hab
        push_cast
        linear_combination i0
  match edges, hg with
  | [], hg => exact absurd hg.size (by simp)
  | [a], hg => have h1 := hg.size; have h2 := hg.pos; simp at h1; simp [h1] at h2
  | a :: b :: e, hg =>
    have hl : p.length = (b :: e).length := by have := hg.size; simp at this ⊢; omega
    have hab : b - a = w := hw 0 a b rfl rfl
    simp only [statsMoment, histMoment, OfNat.ofNat_ne_zero, if_false]
    rw [hab, key (b :: e) a p hl hw, h1, mul_one]

/-- **C11 is violated through `ens.moment`**: the uniform density 1/3 on edges `[0, 1, 3]` has mean 3/2, but `moment(1) = 5/6`. -/
theorem C11_moment1_nonuniform_wrong :
    ∃ (edges p : List ℚ), Grid edges p.length ∧ totalMass edges p = 1 ∧ meanOf edges p = 3 / 2 ∧ statsMoment (histMoment edges p) 1 = .ok (5 / 6) ∧
      statsMean (histMoment edges p) = .ok (5 / 6) :=
  ⟨[0, 1, 3], [1/3, 1/3], ⟨by decide +kernel, rfl, by decide⟩, by decide +kernel, by decide +kernel, by decide +kernel, by decide +kernel⟩

/-- **C16, exact first and second moments on a uniform grid** with spacing `w`, first point `(x0, y0)` and last point `(xn, yn)`. -/
theorem C16_moments_exact (xs ys : List K) (hg : XGrid xs ys.length) (w : K) (hw : Spaced xs w) (x0 y0 xn yn : K) (hx0 : xs.head? = some x0)
    (hy0 : ys.head? = some y0) (hxn : xs.getLast? = some xn) (hyn : ys.getLast? = some yn) :
    statsMoment (interpMoment xs ys) 1 = .ok (lineMean xs ys + y0 * w * (x0 / 2 - w / 6) + yn * w * (xn / 2 + w / 6)) ∧
    statsMoment (interpMoment xs ys) 2 = .ok (lineSquare xs ys - w ^ 2 / 6 * area xs ys + y0 * w * (x0 ^ 2 / 2 - x0 * w / 3) +
      yn * w * (xn ^ 2 / 2 + xn * w / 3)) := by
  have key : ∀ (t r : List K) (a b u v xn yn : K), t.length = r.length → Spaced (a :: b :: t) w → (a :: b :: t).getLast? = some xn →
      (u :: v :: r).getLast? = some yn →
      Np.sum (Np.mul ((a :: b :: t).map (· ^ 1)) (u :: v :: r)) * w =
        lineMean (a :: b :: t) (u :: v :: r) + u * w * (a / 2 - w / 6) + yn * w * (xn / 2 + w / 6) ∧
      Np.sum (Np.mul ((a :: b :: t).map (· ^ 2)) (u :: v :: r)) * w =
        lineSquare (a :: b :: t) (u :: v :: r) - w ^ 2 / 6 * area (a :: b :: t) (u :: v :: r) + u * w * (a ^ 2 / 2 - a * w / 3) +
          yn * w * (xn ^ 2 / 2 + xn * w / 3) := by
    intro t
    induction t with
    | nil =>
      intro r a b u v xn yn hl hu hm hn
      obtain rfl : r = [] := List.length_eq_zero_iff.1 hl.symm
      simp at hm hn; subst hm hn
      have : b - a = w := hu 0 a b rfl rfl
      obtain rfl : b = a + w := by linear_combination this
      simp only [List.map_cons, List.map_nil, Np.mul, List.zipWith_cons_cons, List.zipWith_nil_right, Np.sum, List.foldr_cons, List.foldr_nil, area,
        lineMean, lineSquare]
      constructor <;> ring
    | cons d t ih =>
      intro r a b u v xn yn hl hu hm hn
      cases r with
      | nil => simp at hl
      | cons z r =>
        obtain ⟨i1, i2⟩ := ih r b d v z xn yn (by simpa using hl) hu.tail (by simpa using hm) (by simpa using hn)
        have hab : b - a = w := hu 0 a b rfl rfl
        obtain rfl : b = a + w := by linear_combination hab
        rw [lineMean, lineSquare, area]
        simp only [List.map_cons, Np.mul, List.zipWith_cons_cons, Np.sum, List.foldr_cons] at *
        exact ⟨by linear_combination i1, by linear_combination i2⟩
  match xs, ys, hg with
  | [], _, hg => have h1 := hg.size; have h2 := hg.two; simp at h1; omega
  | [a], _, hg => have h1 := hg.size; have h2 := hg.two; simp at h1; omega
  | _ :: _ :: _, [], hg => have := hg.two; simp at this
  | _ :: _ :: _, [u], hg => have := hg.two; simp at this
  | a :: b :: t, u :: v :: r, hg =>
    obtain rfl : a = x0 := by simpa using hx0
    obtain rfl : u = y0 := by simpa using hy0
    have hab : b - a = w := hw 0 a b rfl rfl
    obtain ⟨k1, k2⟩ := key t r a b u v xn yn (by have := hg.size; simpa using this) hw hxn hyn
    simp only [statsMoment, interpMoment, OfNat.ofNat_ne_zero, one_ne_zero, if_false]
    rw [hab, k1, k2]
    exact ⟨rfl, rfl⟩

/-- **C16 is violated through `ens.moment`, and so is C89**: the uniform density on `[10, 11]` given by its two end points has mean 21/2 and
variance 1/12, but `moment(1)` and `mean()` are 21 and `var()` is -220 (so `std()` is not a number). -/
theorem C89_mean_and_variance_wrong :
    ∃ (xs ys c : List ℚ), Constructed xs ys c ∧ area xs ys = 1 ∧ lineMean xs ys = 21 / 2 ∧ statsMoment (interpMoment xs ys) 1 = .ok 21 ∧
      statsMean (interpMoment xs ys) = .ok 21 ∧ statsVar (interpMoment xs ys) = .ok (-220) :=
  ⟨[10, 11], [1, 1], [1/2, 1], ⟨[1, 1], ⟨by decide +kernel, rfl, by decide⟩, by decide +kernel⟩, by decide +kernel, by decide +kernel,
    by decide +kernel, by decide +kernel, by decide +kernel⟩

end sums

/-- `μ` is the mean and `v` the variance of the density `f` -/
structure IsMeanVar (f : ℝ → ℝ) (μ v : ℝ) : Prop where
  one : (∫ t, f t) = 1
  mean : (∫ t, t * f t) = μ
  var : (∫ t, (t - μ) ^ 2 * f t) = v

theorem meanVar_of (f : ℝ → ℝ) (m1 m2 : ℝ) (h0 : Integrable f) (h1 : Integrable fun t => t * f t) (h2 : Integrable fun t => t ^ 2 * f t)
    (e0 : (∫ t, f t) = 1) (e1 : (∫ t, t * f t) = m1) (e2 : (∫ t, t ^ 2 * f t) = m2) : IsMeanVar f m1 (m2 - m1 * m1) := by
  refine ⟨e0, e1, ?_⟩
  have : (fun t => (t - m1) ^ 2 * f t) = fun t => (t ^ 2 * f t - 2 * m1 * (t * f t)) + m1 ^ 2 * f t := by funext t; ring
  have hs : Integrable fun t => t ^ 2 * f t - 2 * m1 * (t * f t) := h2.sub (h1.const_mul _)
  rw [this, integral_add hs (h0.const_mul _), integral_sub h2 (h1.const_mul _), integral_const_mul, integral_const_mul, e0, e1, e2]
  ring

/-- **C89 for histograms (partial)**: on uniform bins of width `w` the mean of the density is exactly `mean()`, and its variance is `var()` plus
`w² / 12`. So `var()` is always too small. Missing: unequal bins, where the mean is wrong too (`C11_moment1_nonuniform_wrong`). -/
theorem C89_histogram_partial (edges p : List ℝ) (hg : Grid edges p.length) (w : ℝ) (hw : Spaced edges w) (h1 : totalMass edges p = 1)
    (f : ℝ → ℝ) (hf : ∀ x, histPdf edges p x = .ok (f x)) :
    ∃ μ v, IsMeanVar f μ v ∧ statsMean (histMoment edges p) = .ok μ ∧ statsMoment (histMoment edges p) 1 = .ok μ ∧
      statsVar (histMoment edges p) = .ok (v - w ^ 2 / 12) ∧ 0 < w ∧ statsMoment (histMoment edges p) 0 = .ok (∫ t, f t) := by
  have hst := hist_isStep edges p hg (.inl hw.uniform) h1 f hf
  obtain ⟨i0, e0, -⟩ := step_integral edges p hg.strict hg.size f hst
  obtain ⟨i1, e1⟩ := step_moment 1 edges p hg.strict hg.size f hst
  obtain ⟨i2, e2⟩ := step_moment 2 edges p hg.strict hg.size f hst
  simp only [pow_one] at i1 e1
  have k1 := (C11_moments_partial edges p hg hw.uniform h1).2
  rw [← raw1] at k1
  have k2 := C11_moment2_exact edges p hg w hw h1
  simp only [statsMoment, OfNat.ofNat_ne_zero, if_false] at k2
  refine ⟨_, _, meanVar_of f _ _ i0 i1 i2 (e0.trans h1) e1 e2, k1, ?_, ?_, ?_, by simp [statsMoment, e0.trans h1]⟩
  · simpa [statsMoment] using k1
  · simp only [statsVar, k1, k2, bind, Except.bind]
    congr 1
    ring
  · have hs := hg.size
    have hp := hg.pos
    have := List.pairwise_iff_getElem.1 hg.strict 0 1 (by omega) (by omega) (by omega)
    have h2 := hw 0 _ _ (List.getElem?_eq_getElem (by omega)) (List.getElem?_eq_getElem (by omega))
    rw [← h2]
    linarith

/-- the integrals of `t f` and `t² f` for a broken line -/
theorem line_moments (xs ys : List ℝ) (hg : XGrid xs ys.length) (f : ℝ → ℝ) (hf : ∀ x, interpPdf xs ys x = some (f x)) :
    (Integrable fun t => t * f t) ∧ (∫ t, t * f t) = lineMean xs ys ∧ (Integrable fun t => t ^ 2 * f t) ∧ (∫ t, t ^ 2 * f t) = lineSquare xs ys := by
  have hne : xs ≠ [] := by rintro rfl; have := hg.size; have := hg.two; simp at *; omega
  have hl := interp_isLine xs ys hg f hf
  obtain ⟨a, b⟩ := line_weighted (fun t => t) continuous_id lineMean (fun a u b v => (b - a) * (a * (2 * u + v) + b * (u + 2 * v)) / 6)
    (fun _ _ _ _ _ _ => rfl) (fun _ _ => rfl) (fun a u b v h => line_int_mul a u b v h) xs ys hg.strict hne hg.size f hl
  obtain ⟨c, d⟩ := line_weighted (fun t => t ^ 2) (by fun_prop) lineSquare
    (fun a u b v => (b - a) * (a ^ 2 * (3 * u + v) + 2 * a * b * (u + v) + b ^ 2 * (u + 3 * v)) / 12)
    (fun _ _ _ _ _ _ => rfl) (fun _ _ => rfl) (fun a u b v h => line_int_sq a u b v h) xs ys hg.strict hne hg.size f hl
  exact ⟨a, b, c, d⟩

/-- **C16 and C89 for interpolated PDFs, exact value of the mean**: on a uniform grid with spacing `w`, `mean()` is the mean of the density plus
`y0 w (x0/2 - w/6) + yn w (xn/2 + w/6)`. -/
theorem C89_interp_mean_exact (xs ys c : List ℝ) (h : Constructed xs ys c) (w : ℝ) (hw : Spaced xs w) (x0 y0 xn yn : ℝ) (hx0 : xs.head? = some x0)
    (hy0 : ys.head? = some y0) (hxn : xs.getLast? = some xn) (hyn : ys.getLast? = some yn) (f : ℝ → ℝ)
    (hf : ∀ x, interpPdf xs ys x = some (f x)) :
    ∃ μ v, IsMeanVar f μ v ∧ statsMean (interpMoment xs ys) = .ok (μ + (y0 * w * (x0 / 2 - w / 6) + yn * w * (xn / 2 + w / 6))) := by
  obtain ⟨a, b, t, u, z, r, rfl, rfl, hl, hs, h1, -⟩ := constructed_facts h
  have hg : XGrid (a :: b :: t) (u :: z :: r).length := ⟨hs, by simp [hl], by simp⟩
  obtain ⟨i0, e0⟩ := C12_lebesgue _ _ hg f hf
  obtain ⟨i1, e1, i2, e2⟩ := line_moments _ _ hg f hf
  refine ⟨_, _, meanVar_of f _ _ i0 i1 i2 (e0.trans h1) e1 e2, ?_⟩
  have := (C16_moments_exact _ _ hg w hw x0 y0 xn yn hx0 hy0 hxn hyn).1
  simp only [statsMoment, one_ne_zero, if_false] at this
  rw [statsMean, this]
  congr 1
  ring

/-- **C16 and C89 for interpolated PDFs (partial)**: on a uniform grid with spacing `w`, for a PDF that vanishes at both ends of the grid, `mean()` is
the mean of the density and `var()` is its variance minus `w² / 6`. Missing: PDFs that do not vanish at the ends
(`C89_mean_and_variance_wrong`). -/
theorem C89_interp_partial (xs ys c : List ℝ) (h : Constructed xs ys c) (w : ℝ) (hw : Spaced xs w) (hy0 : ys.head? = some 0)
    (hyn : ys.getLast? = some 0) (f : ℝ → ℝ) (hf : ∀ x, interpPdf xs ys x = some (f x)) :
    ∃ μ v, IsMeanVar f μ v ∧ statsMean (interpMoment xs ys) = .ok μ ∧ statsMoment (interpMoment xs ys) 1 = .ok μ ∧
      statsVar (interpMoment xs ys) = .ok (v - w ^ 2 / 6) ∧ statsMoment (interpMoment xs ys) 0 = .ok (∫ t, f t) := by
  obtain ⟨a, b, t, u, z, r, rfl, rfl, hl, hs, h1, -⟩ := constructed_facts h
  have hg : XGrid (a :: b :: t) (u :: z :: r).length := ⟨hs, by simp [hl], by simp⟩
  obtain ⟨i0, e0⟩ := C12_lebesgue _ _ hg f hf
  obtain ⟨i1, e1, i2, e2⟩ := line_moments _ _ hg f hf
  obtain ⟨k1, k2⟩ := C16_moments_exact _ _ hg w hw a 0 _ 0 rfl hy0 (List.getLast?_eq_some_getLast (List.cons_ne_nil _ _)) hyn
  simp only [statsMoment, one_ne_zero, OfNat.ofNat_ne_zero, if_false, zero_mul, add_zero] at k1 k2
  refine ⟨_, _, meanVar_of f _ _ i0 i1 i2 (e0.trans h1) e1 e2, k1, by simpa [statsMoment] using k1, ?_, by simp [statsMoment, e0.trans h1]⟩
  simp only [statsVar, k1, k2, bind, Except.bind, h1]
  congr 1
  ring

/-! ## Concrete instances -/

/-- two bins `[0,1], [1,2]` with densities 1/4 and 3/4 -/
example := C11_moment2_exact (K := ℚ) [0, 1, 2] [1/4, 3/4] ⟨by decide +kernel, rfl, by decide⟩ 1
  (by intro i a b ha hb
      match i with
      | 0 => simp at ha hb; subst ha hb; norm_num
      | 1 => simp at ha hb; subst ha hb; norm_num
      | i + 2 => simp at hb) (by decide +kernel)

/-- a triangle on `0, 1, 2` -/
example := C16_moments_exact (K := ℚ) [0, 1, 2] [0, 1, 0] ⟨by decide +kernel, rfl, by decide⟩ 1
  (by intro i a b ha hb
      match i with
      | 0 => simp at ha hb; subst ha hb; norm_num
      | 1 => simp at ha hb; subst ha hb; norm_num
      | i + 2 => simp at hb) 0 0 2 0 rfl rfl rfl rfl

private theorem spaced3 : Spaced ([0, 1, 2] : List ℝ) 1 := by
  intro i a b ha hb
  match i with
  | 0 => simp at ha hb; subst ha hb; norm_num
  | 1 => simp at ha hb; subst ha hb; norm_num
  | i + 2 => simp at hb

/-- the histogram with densities 1/4 and 3/4 on `[0,1], [1,2]`: its density has mean `5/4`, and the code's variance is too small by `1/12` -/
example : ∃ f : ℝ → ℝ, (∀ x, histPdf [0, 1, 2] [1/4, 3/4] x = .ok (f x)) ∧ IsMeanVar f (5/4) (13/48) ∧
    statsVar (histMoment ([0, 1, 2] : List ℝ) [1/4, 3/4]) = .ok (13/48 - 1/12) := by
  have hg : Grid ([0, 1, 2] : List ℝ) ([1/4, 3/4] : List ℝ).length := ⟨by simp, rfl, by simp⟩
  have h1 : totalMass ([0, 1, 2] : List ℝ) [1/4, 3/4] = 1 := by norm_num [totalMass]
  obtain ⟨p, hp, -, he, -⟩ := (C07_row_normalised ([0, 1, 2] : List ℝ) [1/4, 3/4]).2 (by rw [h1]; exact one_ne_zero)
  obtain rfl : p = [1/4, 3/4] := by rw [he, h1]; simp
  obtain ⟨f, hf, -⟩ := Integrals.C08_integral_partial _ _ _ hg (.inl spaced3.uniform) hp
  obtain ⟨μ, v, h, hm, -, hv, -⟩ := C89_histogram_partial _ _ hg 1 spaced3 h1 f hf
  have em : statsMean (histMoment ([0, 1, 2] : List ℝ) [1/4, 3/4]) = .ok (5/4) := by
    norm_num [statsMean, histMoment, edgeToCenter, Np.mul, Np.sum]
  have ev : statsVar (histMoment ([0, 1, 2] : List ℝ) [1/4, 3/4]) = .ok (13/48 - 1/12) := by
    norm_num [statsVar, histMoment, edgeToCenter, Np.mul, Np.sum, bind, Except.bind]
  obtain rfl : (5/4 : ℝ) = μ := by rw [em] at hm; exact Except.ok.inj hm
  have : v = 13/48 := by rw [ev] at hv; have := Except.ok.inj hv; linarith
  exact ⟨f, hf, this ▸ h, ev⟩

/-- the triangle on `0, 1, 2` has mean 1 and variance 1/6, and `var()` is 0 -/
example : ∃ f : ℝ → ℝ, (∀ x, interpPdf [0, 1, 2] [0, 1, 0] x = some (f x)) ∧ IsMeanVar f 1 (1/6) ∧
    statsVar (interpMoment ([0, 1, 2] : List ℝ) [0, 1, 0]) = .ok 0 := by
  have hg : XGrid ([0, 1, 2] : List ℝ) ([0, 1, 0] : List ℝ).length := ⟨by simp, rfl, by simp⟩
  have hc : Constructed ([0, 1, 2] : List ℝ) [0, 1, 0] [0, 1/2, 1] := by
    refine ⟨[0, 1, 0], hg, ?_⟩
    norm_num [interpNormRow, interpCumul, trapezoids, cumsum, cumsumFrom]
  obtain ⟨f, hf, -⟩ := Integrals.interp_integral _ _ hg
  obtain ⟨μ, v, h, hm, -, hv, -⟩ := C89_interp_partial _ _ _ hc 1 spaced3 rfl rfl f hf
  have em : statsMean (interpMoment ([0, 1, 2] : List ℝ) [0, 1, 0]) = .ok 1 := by
    norm_num [statsMean, interpMoment, Np.mul, Np.sum]
  have ev : statsVar (interpMoment ([0, 1, 2] : List ℝ) [0, 1, 0]) = .ok 0 := by
    norm_num [statsVar, interpMoment, Np.mul, Np.sum, bind, Except.bind]
  obtain rfl : (1 : ℝ) = μ := by rw [em] at hm; exact Except.ok.inj hm
  have : v = 1/6 := by rw [ev] at hv; have := Except.ok.inj hv; linarith
  exact ⟨f, hf, this ▸ h, ev⟩

/-- the same triangle satisfies the hypotheses of the theorems on the integrals -/
example : ∃ f : ℝ → ℝ, (∫ t, f t) = 1 ∧ interpCdf ([0, 1, 2] : List ℝ) [0, 1/2, 1] 1 = some (∫ t in Iic 1, f t) := by
  have hg : XGrid ([0, 1, 2] : List ℝ) ([0, 1, 0] : List ℝ).length := ⟨by simp, rfl, by simp⟩
  have hc : Constructed ([0, 1, 2] : List ℝ) [0, 1, 0] [0, 1/2, 1] := by
    refine ⟨[0, 1, 0], hg, ?_⟩
    norm_num [interpNormRow, interpCumul, trapezoids, cumsum, cumsumFrom]
  obtain ⟨f, hf, -⟩ := Integrals.interp_integral _ _ hg
  refine ⟨f, ?_, (C13_lebesgue _ _ _ hc f hf).1 0 1 rfl⟩
  rw [(C12_lebesgue _ _ hg f hf).2]
  norm_num [area]

/-- the decreasing line through `(0, 2), (1, 1)`: stored as `(0, 2), (1, 1)` with integral 3/2 -/
example : ∃ f : ℝ → ℝ, (∀ x, interpPdf [0, 1] [2, 1] x = some (f x)) ∧ (∫ t, f t) = 3 / 2 := by
  have hg : XGrid ([0, 1] : List ℝ) ([2, 1] : List ℝ).length := ⟨by simp, rfl, by simp⟩
  obtain ⟨f, hf, -⟩ := Integrals.interp_integral _ _ hg
  refine ⟨f, hf, ?_⟩
  rw [(C17_lebesgue [0, 1] [2, 1] [2, 1] hg (by norm_num [irrNormRow, rightRects, Np.sum]) f hf).2.1]
  norm_num [area, rightRects, Np.sum]

end Verif.Props.Variance
