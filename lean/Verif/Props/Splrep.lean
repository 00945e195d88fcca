import Verif.Model.SplrepReal
import Verif.Lemmas.Splrep
import Verif.Props.CubicSplineReal
import Verif.Props.Kde
import Mathlib.LinearAlgebra.Matrix.NonsingularInverse

/-!
# C141: spline PDFs from points

Specification: the curve of C140 (`Spec/CubicSpline.lean`).
-/

set_option linter.unusedSectionVars false
set_option autoImplicit false

namespace Verif.Props.Splrep

open Verif Verif.Np Verif.Model Verif.Spec Verif.Lemmas.Splrep Verif.Lemmas.Spline Verif.Props.Spline Finset

section Algebra

variable {K : Type} [Field K] [LinearOrder K] [IsStrictOrderedRing K]

/-- **C141: the B-spline representation is the cubic curve through the points**, everywhere (outside the points both continue their end cubics). -/
theorem C141_splrep (xs ys : List K) (hlen : ys.length = xs.length) (hn : 4 ≤ xs.length) (hs : xs.Pairwise (· < ·)) (x : K) :
    splev (splrep xs ys) x = cubSpline (xs.zip ys) x := by
  have e1 : (xs.zip ys).map Prod.fst = xs := List.map_fst_zip hlen.ge
  obtain ⟨a, b, c, d⟩ := interval_spec (rep_ok xs ys hn hs) x
  have a : 3 ≤ (splrep xs ys).interval x := a
  rw [rep_last xs ys hn] at b c
  unfold splev
  set l := (splrep xs ys).interval x with hl
  obtain ⟨j, hj⟩ : ∃ j, l = j + 3 := ⟨l - 3, by omega⟩
  have hal := all_length xs ys hlen hn
  have hjl : j < (cubAll (xs.zip ys)).length := by omega
  rw [hj, rep_piece xs ys hlen hn hs j _ (List.getElem?_eq_getElem hjl)]
  refine (spline_piece x (xs.zip ys) (by simp; omega) (by rw [e1]; exact hs) j _ (List.getElem?_eq_getElem hjl) ?_ ?_).symm
  · rcases d with d | d
    · cases j with
      | zero => exact Or.inl rfl
      | succ j =>
        right
        rw [← all_knot xs ys hlen hn j _ (List.getElem?_eq_getElem hjl), show 4 + j = l by omega]
        exact d
    · have d : l = 3 := d
      left; omega
  · intro c' hc'
    have hjl' := (List.getElem?_eq_some_iff.1 hc').1
    rw [← all_knot xs ys hlen hn j c' hc', show 4 + j = l + 1 by omega]
    rcases c with c | c
    · exact c.le
    · omega

/-- the spline in terms of its coefficients -/
theorem splev_sum {r : SplRow K} (h : SplOK r) (x : K) : splev r x = ∑ m ∈ range (r.t.length - r.k - 1), r.c.getD m 0 * bspl r.knot (r.interval x) r.k m x := by
  obtain ⟨a, b, -, -⟩ := interval_spec h x
  exact piece_eq h _ a b x

/-- the square matrix of the values of the B-splines at the abscissae -/
def collocation (xs : List K) : Matrix (Fin xs.length) (Fin xs.length) K :=
  fun j m => bspl (splrep xs xs).knot ((splrep xs xs).interval (xs.get j)) 3 m (xs.get j)

theorem colloc (xs c : List K) (hn : 4 ≤ xs.length) (hs : xs.Pairwise (· < ·)) (j : Fin xs.length) :
    (collocation xs).mulVec (fun m => c.getD m 0) j = splev ⟨splKnots xs, c, 3⟩ (xs.get j) := by
  have hok : SplOK (⟨splKnots xs, c, 3⟩ : SplRow K) := by
    have := rep_ok xs xs hn hs
    exact ⟨this.size, this.mono, this.base⟩
  rw [splev_sum hok]
  have hl : (splKnots xs).length - 3 - 1 = xs.length := by have := knots_length xs hn; omega
  show _ = ∑ m ∈ range ((splKnots xs).length - 3 - 1), c.getD m 0 * _
  rw [hl, Finset.sum_range]
  unfold Matrix.mulVec dotProduct collocation
  refine Finset.sum_congr rfl fun m _ => ?_
  rw [mul_comm]
  rfl

theorem rep_through (xs ys : List K) (hlen : ys.length = xs.length) (hn : 4 ≤ xs.length) (hs : xs.Pairwise (· < ·)) (j : ℕ) (x y : K) (hx : xs[j]? = some x) (hy : ys[j]? = some y) :
    splev (splrep xs ys) x = y := by
  have e1 : (xs.zip ys).map Prod.fst = xs := List.map_fst_zip hlen.ge
  rw [C141_splrep xs ys hlen hn hs]
  exact CubicSpline.through (xs.zip ys) (by rw [e1]; exact hs) (x, y) (List.mem_of_getElem? (List.getElem?_zip_eq_some.2 ⟨hx, hy⟩))

theorem colloc_surjective (xs : List K) (hn : 4 ≤ xs.length) (hs : xs.Pairwise (· < ·)) : Function.Surjective (collocation xs).mulVec := by
  intro v
  refine ⟨fun m => (splrep xs (List.ofFn v)).c.getD m 0, ?_⟩
  funext j
  rw [colloc xs _ hn hs]
  exact rep_through xs (List.ofFn v) (by simp) hn hs j _ _ (List.getElem?_eq_getElem j.2) (by simp)

/-- **C141: the coefficients are determined by the points.** Whatever coefficients a spline of degree 3 with the same knots has: if it goes through the points, they are the
computed ones. (So the linear system that FITPACK solves has exactly one solution for every choice of abscissae.) -/
theorem C141_unique (xs ys c : List K) (hlen : ys.length = xs.length) (hn : 4 ≤ xs.length) (hs : xs.Pairwise (· < ·))
    (hc : ∀ (j : ℕ) (x y : K), xs[j]? = some x → ys[j]? = some y → splev ⟨splKnots xs, c, 3⟩ x = y) (i : ℕ) (hi : i < xs.length) : c.getD i 0 = (splrep xs ys).c.getD i 0 := by
  have hinj : Function.Injective (collocation xs).mulVec := by
    rw [Matrix.mulVec_injective_iff_isUnit]
    exact Matrix.mulVec_surjective_iff_isUnit.1 (colloc_surjective xs hn hs)
  have := @hinj (fun m => c.getD m 0) (fun m => (splrep xs ys).c.getD m 0) (by
    funext j
    rw [colloc xs _ hn hs, colloc xs _ hn hs]
    refine (hc j _ (ys[j.1]'(by have := j.2; omega)) (List.getElem?_eq_getElem j.2) (List.getElem?_eq_getElem _)).trans ?_
    exact (rep_through xs ys hlen hn hs j _ _ (List.getElem?_eq_getElem j.2) (List.getElem?_eq_getElem _)).symm)
  exact congrFun this ⟨i, hi⟩

theorem coef_length (xs ys : List K) : (splrep xs ys).c.length = xs.length + 4 := by simp [splrep]

theorem splev_norm' (r : SplRow K) (I x : K) : splev (splNorm r I) x = splev r x / I := by
  have hi : (splNorm r I).interval x = r.interval x := rfl
  unfold splev
  rw [hi]
  unfold SplRow.piece
  have hk : (splNorm r I).k = r.k := rfl
  have hkn : (splNorm r I).knot = r.knot := rfl
  rw [hk, hkn, div_eq_mul_inv, ← List.sum_map_mul_right]
  congr 1
  apply List.map_congr_left
  intro j _
  have hc : (splNorm r I).c.getD (r.interval x - r.k + j) 0 = r.c.getD (r.interval x - r.k + j) 0 / I := by
    unfold splNorm
    simp only [List.getD_eq_getElem?_getD, List.getElem?_map]
    cases r.c[r.interval x - r.k + j]? <;> simp
  rw [hc]
  ring

/-- **C141: dividing the ordinates divides the coefficients.** -/
theorem C141_divide (xs ys : List K) (hlen : ys.length = xs.length) (hn : 4 ≤ xs.length) (hs : xs.Pairwise (· < ·)) (I : K) :
    splrep xs (ys.map (· / I)) = splNorm (splrep xs ys) I := by
  have hu := C141_unique xs (ys.map (· / I)) (splNorm (splrep xs ys) I).c (by simpa using hlen) hn hs (fun j x y hx hy => by
    rw [List.getElem?_map, Option.map_eq_some_iff] at hy
    obtain ⟨y', hy', rfl⟩ := hy
    have := splev_norm' (splrep xs ys) I x
    rw [rep_through xs ys hlen hn hs j x y' hx hy'] at this
    exact this)
  have hc : (splrep xs (ys.map (· / I))).c = (splNorm (splrep xs ys) I).c := by
    apply List.ext_getElem
    · simp [splNorm, coef_length]
    · intro i h1 h2
      rw [coef_length] at h1
      rcases Nat.lt_or_ge i xs.length with h | h
      · have := hu i h
        rw [List.getD_eq_getElem _ _ h2, List.getD_eq_getElem _ _ (by rw [coef_length]; omega)] at this
        exact this.symm
      · have z : ∀ ys' : List K, ∀ h' : i < (splrep xs ys').c.length, (splrep xs ys').c[i] = 0 := by
          intro ys' h'
          simp only [splrep]
          rw [List.getElem_append_right (by simpa using h), List.getElem_replicate]
        rw [z]
        simp only [splNorm, List.getElem_map, z, zero_div]
  exact congrArg (fun c => SplRow.mk (splKnots xs) c 3) hc

theorem rep_lo (xs ys : List K) (hn : 4 ≤ xs.length) (x : K) (hx : xs.head? = some x) : (splrep xs ys).lo = x := by
  show (splKnots xs).getD (3 + 0) 0 = x
  rw [knot_break xs hn 0 (by omega)]
  match xs, hx with
  | x0 :: t, hx =>
    simp only [List.head?_cons, Option.some.injEq] at hx
    simp [cubicBreaks, hx]

theorem rep_hi (xs ys : List K) (hn : 4 ≤ xs.length) (x : K) (hx : xs.getLast? = some x) : (splrep xs ys).hi = x := by
  show (splKnots xs).getD ((splrep xs ys).last + 1) 0 = x
  rw [rep_last xs ys hn, show xs.length - 1 + 1 = 3 + (xs.length - 3) by omega, knot_break xs hn _ (by omega)]
  have hl := breaks_length xs hn
  have : (cubicBreaks xs).getLast? = some x := by
    simp only [cubicBreaks, hx, Option.toList_some]
    simp
  rw [List.getLast?_eq_getElem?, hl] at this
  rw [List.getD_eq_getElem?_getD, show xs.length - 3 = xs.length - 2 - 1 by omega, this]
  rfl

end Algebra

/-! ### The PDFs -/

open MeasureTheory

theorem splIntegral_eq (xs ys : List ℝ) (hlen : ys.length = xs.length) (hn : 4 ≤ xs.length) (hs : xs.Pairwise (· < ·)) (lo hi : ℝ) :
    splIntegral lo hi xs ys = ∫ x in lo..hi, cubSpline (xs.zip ys) x := by
  unfold splIntegral
  simp only [C141_splrep xs ys hlen hn hs]

/-- **C141: what is stored.** Normalising first and then building the splines, as the code does, gives the same as dividing the coefficients of the splines through the given points. -/
theorem C141_build (xss yss : List (List ℝ)) (hl : xss.map List.length = yss.map List.length) (hn : ∀ xs ∈ xss, 4 ≤ xs.length ∧ xs.Pairwise (· < ·)) (lo hi : ℝ)
    (hlo : xss.flatten.min? = some lo) (hhi : xss.flatten.max? = some hi) : splFromXY xss yss = .ok (splBuild (List.zipWith splrep xss yss) lo hi) := by
  unfold splFromXY
  rw [if_neg (not_not.2 hl), hlo, hhi]
  simp only
  rw [if_neg (by rintro ⟨xs, h, h'⟩; exact absurd (hn xs h).1 (by omega)), if_neg (by rintro ⟨xs, h, h'⟩; exact h' (hn xs h).2), Except.ok.injEq]
  unfold splBuild
  rw [List.map_zipWith]
  have : ∀ (xss yss : List (List ℝ)), xss.map List.length = yss.map List.length → (∀ xs ∈ xss, 4 ≤ xs.length ∧ xs.Pairwise (· < ·)) →
      List.zipWith (fun xs ys => splrep xs (ys.map (· / splIntegral lo hi xs ys))) xss yss =
        List.zipWith (fun xs ys => splNorm (splrep xs ys) (∫ x in lo..hi, splev (splrep xs ys) x)) xss yss := by
    intro xss
    induction xss with
    | nil => intro yss _ _; rfl
    | cons xs xss ih =>
      intro yss hl hn
      match yss with
      | [] => rfl
      | ys :: yss =>
        simp only [List.map_cons, List.cons.injEq] at hl
        simp only [List.zipWith_cons_cons]
        rw [ih yss hl.2 (fun xs h => hn xs (List.mem_cons_of_mem _ h)), C141_divide xs ys hl.1.symm (hn xs (by simp)).1 (hn xs (by simp)).2]
        rfl
  exact this xss yss hl hn

/-- **C141: which points are accepted**: as many ordinates as abscissae in each row, at least one row, at least four points in each row; then an ensemble of as many PDFs.
Points that are not accepted raise `ValueError` or `TypeError` (abscissae that do not increase are outside the model). -/
theorem C141_accepted (xss yss : List (List ℝ)) (hs : ∀ xs ∈ xss, xs.Pairwise (· < ·)) :
    ((∃ rows, splFromXY xss yss = .ok rows) ↔ xss.map List.length = yss.map List.length ∧ xss ≠ [] ∧ ∀ xs ∈ xss, 4 ≤ xs.length) ∧
    (∀ rows, splFromXY xss yss = .ok rows → rows.length = xss.length) ∧
    (∀ e, splFromXY xss yss = .error e → e = .ValueError ∨ e = .TypeError) := by
  unfold splFromXY
  by_cases hl : xss.map List.length = yss.map List.length
  · rw [if_neg (not_not.2 hl)]
    have hl' : xss.length = yss.length := by simpa using congrArg List.length hl
    cases hf : xss.flatten.min? with
    | none =>
      have hf' : xss.flatten = [] := List.min?_eq_none_iff.1 hf
      simp only [reduceCtorEq, exists_false, false_iff, not_and, not_forall, Except.error.injEq]
      refine ⟨fun _ hne => ?_, by simp, by rintro e rfl; exact Or.inl rfl⟩
      obtain ⟨xs, t, rfl⟩ := List.exists_cons_of_ne_nil hne
      have : xs = [] := List.flatten_eq_nil_iff.1 hf' xs (by simp)
      subst this
      exact ⟨[], by simp, by simp⟩
    | some lo =>
      obtain ⟨hi, hhi⟩ : ∃ hi, xss.flatten.max? = some hi := by
        cases hf' : xss.flatten.max? with
        | none => rw [List.max?_eq_none_iff.1 hf'] at hf; simp at hf
        | some hi => exact ⟨hi, rfl⟩
      have hne : xss ≠ [] := by rintro rfl; simp at hf
      simp only [hhi]
      by_cases h4 : ∃ xs ∈ xss, xs.length < 4
      · rw [if_pos h4]
        obtain ⟨xs, h1, h2⟩ := h4
        simp only [reduceCtorEq, exists_false, false_iff, not_and, not_forall, Except.error.injEq]
        exact ⟨fun _ _ => ⟨xs, h1, by omega⟩, by simp, by rintro e rfl; exact Or.inr rfl⟩
      · rw [if_neg h4, if_neg (by rintro ⟨xs, h, h'⟩; exact h' (hs xs h))]
        refine ⟨⟨fun _ => ⟨hl, hne, fun xs h => by by_contra h'; exact h4 ⟨xs, h, by omega⟩⟩, fun _ => ⟨_, rfl⟩⟩, ?_, by simp⟩
        rintro rows h
        rw [← Except.ok.inj h]
        simp [hl']
  · rw [if_pos hl]
    simp only [reduceCtorEq, exists_false, false_iff, not_and, not_forall, Except.error.injEq]
    exact ⟨fun h => absurd h hl, by simp, by rintro e rfl; exact Or.inl rfl⟩

/-- **C141: the density.** The PDF created from points is the cubic curve through the points divided by its integral over the range of all abscissae; at the given abscissae it is the
given ordinate divided by this integral. -/
theorem C141_pdf (xss yss : List (List ℝ)) (hl : xss.map List.length = yss.map List.length) (hn : ∀ xs ∈ xss, 4 ≤ xs.length ∧ xs.Pairwise (· < ·)) (lo hi : ℝ)
    (hlo : xss.flatten.min? = some lo) (hhi : xss.flatten.max? = some hi) (i : ℕ) (xs ys : List ℝ) (hx : xss[i]? = some xs) (hy : yss[i]? = some ys) :
    ∃ rows, splFromXY xss yss = .ok rows ∧ (∀ x, splPdf rows i x = .ok (cubSpline (xs.zip ys) x / ∫ t in lo..hi, cubSpline (xs.zip ys) t)) ∧
      ∀ (j : ℕ) (x y : ℝ), xs[j]? = some x → ys[j]? = some y → splPdf rows i x = .ok (y / ∫ t in lo..hi, cubSpline (xs.zip ys) t) := by
  obtain ⟨hn4, hs⟩ := hn xs (List.mem_of_getElem? hx)
  have hlen : ys.length = xs.length := by
    have := congrArg (fun l : List ℕ => l[i]?) hl
    simp only [List.getElem?_map, hx, hy, Option.map_some, Option.some.injEq] at this
    exact this.symm
  have e1 : (xs.zip ys).map Prod.fst = xs := List.map_fst_zip hlen.ge
  have hp : ∀ x, splPdf (splBuild (List.zipWith splrep xss yss) lo hi) i x = .ok (cubSpline (xs.zip ys) x / ∫ t in lo..hi, cubSpline (xs.zip ys) t) := by
    intro x
    have : (splBuild (List.zipWith splrep xss yss) lo hi)[i]? = some (splNorm (splrep xs ys) (∫ x in lo..hi, splev (splrep xs ys) x)) := by
      unfold splBuild
      rw [List.getElem?_map, List.getElem?_zipWith, hx, hy]
      rfl
    simp only [splPdf, this, splev_norm, C141_splrep xs ys hlen hn4 hs]
  refine ⟨_, C141_build xss yss hl hn lo hi hlo hhi, hp, fun j x y hxj hyj => ?_⟩
  rw [hp, CubicSpline.through (xs.zip ys) (by rw [e1]; exact hs) (x, y) (List.mem_of_getElem? (List.getElem?_zip_eq_some.2 ⟨hxj, hyj⟩))]

theorem min_head (xs : List ℝ) (hs : xs.Pairwise (· < ·)) (a : ℝ) (ha : xs.head? = some a) : xs.min? = some a := by
  rw [List.min?_eq_some_iff]
  match xs, ha with
  | x :: t, ha =>
    simp only [List.head?_cons, Option.some.injEq] at ha
    subst ha
    refine ⟨by simp, fun b hb => ?_⟩
    rcases List.mem_cons.1 hb with rfl | hb
    · exact le_rfl
    · exact ((List.pairwise_cons.1 hs).1 b hb).le

theorem max_last (xs : List ℝ) (hs : xs.Pairwise (· < ·)) (b : ℝ) (hb : xs.getLast? = some b) : xs.max? = some b := by
  rw [List.max?_eq_some_iff]
  refine ⟨List.mem_of_getLast? hb, fun y hy => ?_⟩
  obtain ⟨i, hi, rfl⟩ := List.getElem_of_mem hy
  rw [List.getLast?_eq_getElem?] at hb
  obtain ⟨h2, rfl⟩ := List.getElem?_eq_some_iff.1 hb
  rcases Nat.lt_or_ge i (xs.length - 1) with h | h
  · exact (List.pairwise_iff_getElem.1 hs i _ hi h2 h).le
  · have : i = xs.length - 1 := by omega
    subst this; exact le_rfl

/-- the computed representation is what the theorems about PDFs from samples ask for -/
theorem interpolates (xs : List ℝ) (hn : 4 ≤ xs.length) (hs : xs.Pairwise (· < ·)) : Kde.Interpolates splrep xs := by
  have hne : xs ≠ [] := by rintro rfl; simp at hn
  refine ⟨fun ys _ => rep_ok xs ys hn hs, fun ys _ => ?_, fun ys _ => ?_, fun ys hlen j x y hx hy => rep_through xs ys hlen hn hs j x y hx hy⟩
  · rw [rep_lo xs ys hn _ (List.head?_eq_some_head hne)]
    exact min_head xs hs _ (List.head?_eq_some_head hne)
  · rw [rep_hi xs ys hn _ (List.getLast?_eq_some_getLast hne)]
    exact max_last xs hs _ (List.getLast?_eq_some_getLast hne)

/-- **C141: the CDF.** For PDFs that all span the same range `[a, b]` and whose curve has an integral other than zero: the CDF is 0 up to `a`, the integral of the density from `a`
between, and 1 from `b` on. -/
theorem C141_cdf (xss yss : List (List ℝ)) (hl : xss.map List.length = yss.map List.length) (hn : ∀ xs ∈ xss, 4 ≤ xs.length ∧ xs.Pairwise (· < ·)) (a b : ℝ)
    (ha : ∀ xs ∈ xss, xs.head? = some a) (hb : ∀ xs ∈ xss, xs.getLast? = some b) (i : ℕ) (xs ys : List ℝ) (hx : xss[i]? = some xs) (hy : yss[i]? = some ys)
    (h0 : (∫ t in a..b, cubSpline (xs.zip ys) t) ≠ 0) :
    ∃ (rows : List (SplRow ℝ)) (f : ℝ → ℝ), splFromXY xss yss = .ok rows ∧ (∀ x, splPdf rows i x = .ok (f x)) ∧ (∀ x, x ≤ a → splCdf rows i x = .ok 0) ∧
      (∀ x, a ≤ x → x ≤ b → splCdf rows i x = .ok (∫ t in a..x, f t)) ∧ (∀ x, b ≤ x → splCdf rows i x = .ok 1) ∧ (∫ t in a..b, f t) = 1 := by
  have hmem := List.mem_of_getElem? hx
  obtain ⟨hn4, hs⟩ := hn xs hmem
  have hlen : ys.length = xs.length := by
    have := congrArg (fun l : List ℕ => l[i]?) hl
    simp only [List.getElem?_map, hx, hy, Option.map_some, Option.some.injEq] at this
    exact this.symm
  have hends : ∀ y ∈ xss.flatten, a ≤ y ∧ y ≤ b := by
    intro y hy
    obtain ⟨xs', h1, h2⟩ := List.mem_flatten.1 hy
    exact QuantSpline.ends (hn xs' h1).2 (ha xs' h1) (hb xs' h1) y h2
  have hlo : xss.flatten.min? = some a := List.min?_eq_some_iff.2 ⟨List.mem_flatten.2 ⟨xs, hmem, List.mem_of_head? (ha xs hmem)⟩, fun y hy => (hends y hy).1⟩
  have hhi : xss.flatten.max? = some b := List.max?_eq_some_iff.2 ⟨List.mem_flatten.2 ⟨xs, hmem, List.mem_of_getLast? (hb xs hmem)⟩, fun y hy => (hends y hy).2⟩
  obtain ⟨rows, hr, hp, -⟩ := C141_pdf xss yss hl hn a b hlo hhi i xs ys hx hy
  have hr' := hr
  rw [C141_build xss yss hl hn a b hlo hhi, Except.ok.injEq] at hr'
  have hz : (List.zipWith splrep xss yss)[i]? = some (splrep xs ys) := by rw [List.getElem?_zipWith, hx, hy]
  have hI : (∫ y in a..b, splev (splrep xs ys) y) = ∫ t in a..b, cubSpline (xs.zip ys) t := splIntegral_eq xs ys hlen hn4 hs a b
  have h82 := C82_normalised_partial (List.zipWith splrep xss yss) a b i (splrep xs ys) hz (rep_ok xs ys hn4 hs) (rep_lo xs ys hn4 a (ha xs hmem)) (rep_hi xs ys hn4 b (hb xs hmem))
    (by rw [hI]; exact h0)
  rw [hr'] at h82
  refine ⟨rows, _, hr, hp, fun x h => (h82 x).2.2 h, fun x h1 h2 => ?_, fun x h => (h82 x).1 h, ?_⟩
  · rw [(h82 x).2.1 h1 h2, intervalIntegral.integral_div, hI]
    simp only [C141_splrep xs ys hlen hn4 hs]
  · rw [intervalIntegral.integral_div, div_self h0]

/-- **C91 with the splines themselves**: for at least four increasing abscissae, unless the integral of the spline through the kernel density estimate vanishes, the CDF of each PDF
reaches 1 at the last abscissa, and its PDF at the abscissae is the estimate divided by that integral.
Missing, as in `C91_pdfs_partial`: the integral need not be positive (`C91_negative_wrong`). -/
theorem C91_splrep_partial (xs : List ℝ) (hn : 4 ≤ xs.length) (hsx : xs.Pairwise (· < ·)) (a b : ℝ) (ha : xs.head? = some a) (hb : xs.getLast? = some b) (samples : List (List ℝ))
    (rows : List (SplRow ℝ)) (h : splFromSamples splrep xs samples = .ok rows) (i : ℕ) (s : List ℝ) (hs : samples[i]? = some s) :
    ∃ f, buildKde s = .ok f ∧ ((∫ y in a..b, cubSpline (xs.zip (xs.map f)) y) ≠ 0 →
      (∀ x, b ≤ x → splCdf rows i x = .ok 1) ∧ (∀ x, x ≤ a → splCdf rows i x = .ok 0) ∧
      ∀ x ∈ xs, splPdf rows i x = .ok (f x / ∫ y in a..b, cubSpline (xs.zip (xs.map f)) y)) := by
  obtain ⟨f, hf, k⟩ := Kde.C91_pdfs_partial splrep xs samples (interpolates xs hn hsx) rows h i s hs
  refine ⟨f, hf, fun h0 => ?_⟩
  have e : (∫ y in (splrep xs (xs.map f)).lo..(splrep xs (xs.map f)).hi, splev (splrep xs (xs.map f)) y) = ∫ y in a..b, cubSpline (xs.zip (xs.map f)) y := by
    rw [rep_lo xs _ hn a ha, rep_hi xs _ hn b hb]
    exact splIntegral_eq xs _ (by simp) hn hsx a b
  rw [e] at k
  obtain ⟨k1, k2, k3⟩ := k h0
  have he := QuantSpline.ends hsx ha hb
  exact ⟨fun x hx => k1 x fun v hv => (he v hv).2.trans hx, fun x hx => k2 x fun v hv => hx.trans (he v hv).1, k3⟩

/-- a spline row with the knots of `splrep`, as many coefficients, and through the points, is the row of `splrep` -/
theorem rep_eq (xs ys c : List ℝ) (hlen : ys.length = xs.length) (hn : 4 ≤ xs.length) (hs : xs.Pairwise (· < ·)) (hcl : c.length = xs.length)
    (hc : ∀ (j : ℕ) (x y : ℝ), xs[j]? = some x → ys[j]? = some y → splev ⟨splKnots xs, c ++ List.replicate 4 0, 3⟩ x = y) :
    splrep xs ys = ⟨splKnots xs, c ++ List.replicate 4 0, 3⟩ := by
  have hu := C141_unique xs ys (c ++ List.replicate 4 0) hlen hn hs hc
  have : (splrep xs ys).c = c ++ List.replicate 4 0 := by
    simp only [splrep]
    congr 1
    apply List.ext_getElem
    · simp [hcl]
    · intro i h1 h2
      have := hu i (by omega)
      rw [List.getD_append _ _ _ _ h2, List.getD_eq_getElem _ _ h2, List.getD_eq_getElem _ _ (by rw [coef_length]; omega)] at this
      rw [this]
      simp only [splrep]
      rw [List.getElem_append_left h1]
  exact congrArg (fun c => SplRow.mk (splKnots xs) c 3) this

/-- the row used in `C91_negative_wrong` is the row of `splrep` -/
theorem far_eq (ys : List ℝ) (hlen : ys.length = 4) : splrep [0, 1, 2, 12] ys = Kde.cubicFar [0, 1, 2, 12] ys := by
  have hk : splKnots ([0, 1, 2, 12] : List ℝ) = [0, 0, 0, 0, 12, 12, 12, 12] := by simp [splKnots]
  rw [rep_eq [0, 1, 2, 12] ys [ys.getD 0 0, -(16 / 3) * ys.getD 0 0 + 96 / 11 * ys.getD 1 0 - 12 / 5 * ys.getD 2 0 + 1 / 165 * ys.getD 3 0,
    55 / 3 * ys.getD 0 0 - 480 / 11 * ys.getD 1 0 + 132 / 5 * ys.getD 2 0 - 16 / 165 * ys.getD 3 0, ys.getD 3 0] (by simpa using hlen) (by simp) (by norm_num) (by simp) (by
    intro j x y hx hy
    rw [hk]
    exact Kde.cubicFar_interp.through ys (by simpa using hlen) j x y hx hy), hk]
  rfl

/-- **C91 fails, for the splines themselves**: samples 0.9 and 1.1 at the abscissae 0, 1, 2, 12 give a PDF that is negative at all abscissae. -/
theorem C91_splrep_wrong : ∃ rows, splFromSamples splrep [0, 1, 2, 12] [[9 / 10, 11 / 10]] = .ok rows ∧ splCdf rows 0 0 = .ok 0 ∧ splCdf rows 0 12 = .ok 1 ∧
    ∀ x ∈ ([0, 1, 2, 12] : List ℝ), ∃ p, splPdf rows 0 x = .ok p ∧ p < 0 := by
  obtain ⟨rows, h, k⟩ := Kde.C91_negative_wrong
  refine ⟨rows, ?_, k⟩
  rw [← h]
  unfold splFromSamples
  have : ∀ f : ℝ → ℝ, splrep [0, 1, 2, 12] ([0, 1, 2, 12].map f) = Kde.cubicFar [0, 1, 2, 12] ([0, 1, 2, 12].map f) := fun f => far_eq _ (by simp)
  simp only [this]

/-! ### Concrete cases -/

/-- five points -/
example (x : ℚ) : splev (splrep [0, 1, 2, 3, 5] [0, 1, 0, 1, 0]) x = cubSpline [(0, 0), (1, 1), (2, 0), (3, 1), (5, 0)] x :=
  C141_splrep [0, 1, 2, 3, 5] [0, 1, 0, 1, 0] rfl (by simp) (by decide +kernel) x

example : splKnots ([0, 1, 2, 3, 5, 6] : List ℚ) = [0, 0, 0, 0, 2, 3, 6, 6, 6, 6] := by decide +kernel

example := C141_divide ([0, 1, 2, 3, 5] : List ℚ) [0, 1, 0, 1, 0] rfl (by simp) (by decide +kernel) 7

/-- two PDFs on the range from 0 to 5: the second has the constant 1, with integral 5 -/
example : ∃ (rows : List (SplRow ℝ)) (f : ℝ → ℝ), splFromXY [[0, 1, 2, 3, 5], [0, 1, 2, 4, 5]] [[0, 1, 0, 1, 0], [1, 1, 1, 1, 1]] = .ok rows ∧ (∀ x, splPdf rows 1 x = .ok (f x)) ∧ splCdf rows 1 5 = .ok 1 ∧
    splPdf rows 1 2 = .ok (1 / 5) := by
  have hI : (∫ t in (0 : ℝ)..5, cubSpline (([0, 1, 2, 4, 5] : List ℝ).zip [1, 1, 1, 1, 1]) t) = 5 := by
    have : ∀ t, cubSpline (([0, 1, 2, 4, 5] : List ℝ).zip [1, 1, 1, 1, 1]) t = 1 := fun t => CubicSpline.const _ 1 (by simp) (by simp) t
    simp only [this, intervalIntegral.integral_const, smul_eq_mul]
    norm_num
  have hn : ∀ xs ∈ ([[0, 1, 2, 3, 5], [0, 1, 2, 4, 5]] : List (List ℝ)), 4 ≤ xs.length ∧ xs.Pairwise (· < ·) := by
    intro xs hxs
    simp only [List.mem_cons, List.not_mem_nil, or_false] at hxs
    rcases hxs with rfl | rfl <;> norm_num
  have hlo : ([[0, 1, 2, 3, 5], [0, 1, 2, 4, 5]] : List (List ℝ)).flatten.min? = some 0 := by
    rw [List.min?_eq_some_iff]; simp
  have hhi : ([[0, 1, 2, 3, 5], [0, 1, 2, 4, 5]] : List (List ℝ)).flatten.max? = some 5 := by
    rw [List.max?_eq_some_iff]; simp; norm_num
  obtain ⟨rows, f, h1, h2, -, -, h3, -⟩ := C141_cdf [[0, 1, 2, 3, 5], [0, 1, 2, 4, 5]] [[0, 1, 0, 1, 0], [1, 1, 1, 1, 1]] (by simp) hn 0 5 (by simp) (by simp) 1 _ _ rfl rfl (by rw [hI]; norm_num)
  obtain ⟨rows', g1, -, g3⟩ := C141_pdf [[0, 1, 2, 3, 5], [0, 1, 2, 4, 5]] [[0, 1, 0, 1, 0], [1, 1, 1, 1, 1]] (by simp) hn 0 5 hlo hhi 1 _ _ rfl rfl
  rw [h1, Except.ok.injEq] at g1
  subst g1
  refine ⟨rows, f, h1, h2, h3 5 le_rfl, ?_⟩
  have := g3 2 2 1 rfl rfl
  rwa [hI] at this

end Verif.Props.Splrep
