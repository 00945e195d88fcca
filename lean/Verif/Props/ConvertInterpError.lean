import Verif.Props.ConvertError
import Verif.Props.RealIntegral
import Verif.Props.EndToEnd
import Verif.Model.EnsCurves

/-!
# C110: how far a PDF converted to a grid of values can be from the original

`Ensemble.convert_to(interp_gen, xvals=...)` takes the densities at the grid points, `conversion_funcs.py` 17-39, and the constructor
divides by the area of the broken line, `interp_pdf.py` 84-95.
-/

set_option linter.unusedSectionVars false
set_option autoImplicit false

namespace Verif.Props.ConvertInterpError

open Verif Verif.Np Verif.Model Verif.Spec Verif.Lemmas Verif.Props.Convert Verif.Props.InterpPdf Verif.Props.ConvertError
open Verif.Props.RealIntegral
open MeasureTheory Set

/-- a density with slopes up to `L` between `a` and `b`, values up to `M`, and mass `m` there -/
structure Smooth (g : ℝ → ℝ) (a b L M m : ℝ) : Prop where
  lip : ∀ s ∈ Icc a b, ∀ t ∈ Icc a b, |g s - g t| ≤ L * |s - t|
  top : ∀ s ∈ Icc a b, |g s| ≤ M
  mass : ∫ t in a..b, g t = m

/-- the points of a grid from `a` to `b`, at most `h` apart -/
structure Mesh (xs : List ℝ) (a b h : ℝ) : Prop where
  strict : xs.Pairwise (· < ·)
  two : 2 ≤ xs.length
  first : xs.head? = some a
  last : xs.getLast? = some b
  gaps : ∀ (i : ℕ) u v, xs[i]? = some u → xs[i + 1]? = some v → v - u ≤ h

theorem Mesh.ne {xs : List ℝ} {a b h : ℝ} (m : Mesh xs a b h) : xs ≠ [] := by
  rintro rfl; exact absurd m.two (by simp)

theorem Mesh.range {xs : List ℝ} {a b h : ℝ} (m : Mesh xs a b h) : ∀ v ∈ xs, a ≤ v ∧ v ≤ b := by
  intro v hv
  obtain ⟨c, t, rfl⟩ := List.exists_cons_of_ne_nil m.ne
  obtain rfl : c = a := by simpa using m.first
  have hl := m.last
  rw [List.getLast?_eq_getLast_of_ne_nil (by simp)] at hl
  obtain rfl := Option.some.inj hl
  refine ⟨?_, Verif.Lemmas.InterpPdf.getLast_max m.strict (by simp) hv⟩
  rcases List.mem_cons.1 hv with rfl | h
  · exact le_rfl
  · exact ((List.pairwise_cons.1 m.strict).1 v h).le

theorem Mesh.lt {xs : List ℝ} {a b h : ℝ} (m : Mesh xs a b h) : a < b := by
  match xs, m with
  | c :: d :: t, m =>
    obtain rfl : c = a := by simpa using m.first
    exact ((List.pairwise_cons.1 m.strict).1 d (by simp)).trans_le (m.range d (by simp)).2
  | [_], m => exact absurd m.two (by simp)
  | [], m => exact absurd m.two (by simp)

theorem Mesh.grid {xs : List ℝ} {a b h : ℝ} (m : Mesh xs a b h) (ys : List ℝ) (hl : ys.length = xs.length) : XGrid xs ys.length :=
  ⟨m.strict, hl.symm, by have := m.two; omega⟩

/-- every point from `a` to `b` lies in a cell -/
theorem Mesh.cell {xs : List ℝ} {a b h : ℝ} (m : Mesh xs a b h) (x : ℝ) (h1 : a ≤ x) (h2 : x ≤ b) :
    ∃ (j : ℕ) (u v : ℝ), xs[j]? = some u ∧ xs[j + 1]? = some v ∧ u < v ∧ u ≤ x ∧ x ≤ v := by
  have lt : ∀ (j : ℕ) (u v : ℝ), xs[j]? = some u → xs[j + 1]? = some v → u < v := by
    intro j u v hu hv
    obtain ⟨hi, rfl⟩ := List.getElem?_eq_some_iff.1 hu
    obtain ⟨hj, rfl⟩ := List.getElem?_eq_some_iff.1 hv
    exact List.pairwise_iff_getElem.1 m.strict _ _ hi hj (by omega)
  rcases h2.lt_or_eq with h2 | rfl
  · obtain ⟨j, u, v, hu, hv, h3, h4⟩ := bracket xs x a b m.first m.last h1 h2
    exact ⟨j, u, v, hu, hv, lt j u v hu hv, h3, h4.le⟩
  · have h2 := m.two
    have hl := m.last
    rw [List.getLast?_eq_getElem?] at hl
    have hu : xs[xs.length - 2]? = some (xs[xs.length - 2]'(by omega)) := List.getElem?_eq_getElem (by omega)
    have hv : xs[xs.length - 2 + 1]? = some x := by rw [← hl]; congr 1; omega
    have := lt _ _ _ hu hv
    exact ⟨_, _, _, hu, hv, this, this.le, le_rfl⟩

/-- a chord of a function with slopes up to `L` -/
theorem chord (g : ℝ → ℝ) (a b L u v x d : ℝ) (hL : ∀ s ∈ Icc a b, ∀ t ∈ Icc a b, |g s - g t| ≤ L * |s - t|) (ha : a ≤ u) (hb : v ≤ b)
    (huv : u < v) (h1 : u ≤ x) (h2 : x ≤ v) (hd : (d - g u) * (v - u) = (g v - g u) * (x - u)) : |d - g x| ≤ L * (v - u) / 2 := by
  have e1 := hL u ⟨ha, by linarith⟩ x ⟨by linarith, by linarith⟩
  have e2 := hL v ⟨by linarith, hb⟩ x ⟨by linarith, by linarith⟩
  have e0 := hL u ⟨ha, by linarith⟩ v ⟨by linarith, hb⟩
  rw [abs_of_nonpos (show u - x ≤ 0 by linarith)] at e1
  rw [abs_of_nonneg (show 0 ≤ v - x by linarith)] at e2
  rw [abs_of_neg (show u - v < 0 by linarith)] at e0
  have hL0 : 0 ≤ L := by
    have h0 := (abs_nonneg _).trans e0
    by_contra hn
    have := mul_pos (neg_pos.2 (not_le.1 hn)) (sub_pos.2 huv)
    nlinarith
  have hw : 0 < v - u := sub_pos.2 huv
  have key : (d - g x) * (v - u) = (g u - g x) * (v - x) + (g v - g x) * (x - u) := by linear_combination hd
  have hb1 : |(d - g x) * (v - u)| ≤ L * (-(u - x)) * (v - x) + L * (v - x) * (x - u) := by
    rw [key]
    refine (abs_add_le _ _).trans ?_
    rw [abs_mul, abs_mul, abs_of_nonneg (show 0 ≤ v - x by linarith), abs_of_nonneg (show 0 ≤ x - u by linarith)]
    exact add_le_add (mul_le_mul_of_nonneg_right e1 (by linarith)) (mul_le_mul_of_nonneg_right e2 (by linarith))
  rw [abs_mul, abs_of_pos hw] at hb1
  have h4 : L * (-(u - x)) * (v - x) + L * (v - x) * (x - u) ≤ L * (v - u) / 2 * (v - u) := by
    have : 0 ≤ L * ((v - x) - (x - u)) ^ 2 := mul_nonneg hL0 (sq_nonneg _)
    nlinarith
  exact le_of_mul_le_mul_right (hb1.trans h4) hw

/-- the broken line through the values of `g` -/
theorem line_close {xs : List ℝ} {a b h : ℝ} (m : Mesh xs a b h) (g : ℝ → ℝ) (L : ℝ) (hL0 : 0 ≤ L)
    (hL : ∀ s ∈ Icc a b, ∀ t ∈ Icc a b, |g s - g t| ≤ L * |s - t|) (x : ℝ) (h1 : a ≤ x) (h2 : x ≤ b) :
    |brokenLine xs (xs.map g) x - g x| ≤ L * h / 2 := by
  obtain ⟨j, u, v, hu, hv, huv, h3, h4⟩ := m.cell x h1 h2
  have hg := m.grid (xs.map g) (by simp)
  obtain ⟨d, hd, he, -⟩ := (C15_pdf_through_points xs (xs.map g) hg).2.1 j u v (g u) (g v) x hu hv (by simp [hu]) (by simp [hv]) h3 h4
  rw [EndToEnd.interp_line xs _ hg x] at hd
  obtain rfl := Option.some.inj hd
  refine (chord g a b L u v x _ hL (m.range u (List.mem_of_getElem? hu)).1 (m.range v (List.mem_of_getElem? hv)).2 huv h3 h4 he).trans ?_
  have := m.gaps j u v hu hv
  have := mul_le_mul_of_nonneg_left this hL0
  linarith

/-- outside the grid the broken line is zero -/
theorem line_outside {xs : List ℝ} {a b h : ℝ} (m : Mesh xs a b h) (ys : List ℝ) (hl : ys.length = xs.length) (x : ℝ) (hx : x < a ∨ b < x) :
    brokenLine xs ys x = 0 := by
  have hg := m.grid ys hl
  have := (C15_pdf_through_points xs ys hg).2.2.1 x (by
    rcases hx with hx | hx
    · exact .inl fun e he => hx.trans_le (m.range e he).1
    · exact .inr fun e he => (m.range e he).2.trans_lt hx)
  rw [EndToEnd.interp_line xs _ hg x] at this
  simpa using this

/-- the integral of a broken line up to a point of the grid is the integral from the first point -/
theorem line_integral {xs : List ℝ} {a b h : ℝ} (m : Mesh xs a b h) (ys : List ℝ) (hl : ys.length = xs.length) :
    Integrable (brokenLine xs ys) ∧ (∫ t in a..b, brokenLine xs ys t) = area xs ys ∧
      ∀ z, a ≤ z → (∫ t in Iic z, brokenLine xs ys t) = ∫ t in a..z, brokenLine xs ys t := by
  have hg := m.grid ys hl
  obtain ⟨hi, ht⟩ := C12_lebesgue xs ys hg _ (EndToEnd.interp_line xs ys hg)
  have hz : ∀ z, a ≤ z → (∫ t in Iic z, brokenLine xs ys t) = ∫ t in a..z, brokenLine xs ys t := by
    intro z hz
    rw [intervalIntegral.integral_of_le hz, ← Iic_union_Ioc_eq_Iic hz, setIntegral_union (by
      rw [Set.disjoint_left]; intro t h1 h2; exact absurd h2.1 (not_lt.2 h1)) measurableSet_Ioc hi.integrableOn hi.integrableOn]
    have : (∫ t in Iic a, brokenLine xs ys t) = 0 := by
      rw [integral_Iic_eq_integral_Iio]
      rw [setIntegral_congr_fun (g := fun _ => (0 : ℝ)) measurableSet_Iio (fun t ht => line_outside m ys hl t (.inl ht))]
      simp
    rw [this, zero_add]
  refine ⟨hi, ?_, hz⟩
  rw [← hz b m.lt.le, ← ht]
  apply setIntegral_eq_integral_of_forall_compl_eq_zero
  intro t ht
  exact line_outside m ys hl t (.inr (not_le.1 ht))

/-- dividing the values divides the broken line -/
theorem line_div {xs : List ℝ} {a b h : ℝ} (m : Mesh xs a b h) (ys : List ℝ) (hl : ys.length = xs.length) (T : ℝ) (x : ℝ) :
    brokenLine xs (ys.map (· / T)) x = brokenLine xs ys x / T := by
  by_cases hx : x < a ∨ b < x
  · rw [line_outside m ys hl x hx, line_outside m _ (by simpa using hl) x hx]; simp
  push Not at hx
  obtain ⟨j, u, v, hu, hv, huv, h3, h4⟩ := m.cell x hx.1 hx.2
  have hj := (List.getElem?_eq_some_iff.1 hv).1
  have hy0 : ys[j]? = some (ys[j]'(by omega)) := List.getElem?_eq_getElem (by omega)
  have hy1 : ys[j + 1]? = some (ys[j + 1]'(by omega)) := List.getElem?_eq_getElem (by omega)
  have hg := m.grid ys hl
  have hg' := m.grid (ys.map (· / T)) (by simpa using hl)
  obtain ⟨d, hd, he, -⟩ := (C15_pdf_through_points xs ys hg).2.1 j u v _ _ x hu hv hy0 hy1 h3 h4
  obtain ⟨d', hd', he', -⟩ := (C15_pdf_through_points xs _ hg').2.1 j u v _ _ x hu hv
    (by rw [List.getElem?_map, hy0]; rfl) (by rw [List.getElem?_map, hy1]; rfl) h3 h4
  rw [EndToEnd.interp_line xs _ hg x] at hd
  rw [EndToEnd.interp_line xs _ hg' x] at hd'
  obtain rfl := Option.some.inj hd
  obtain rfl := Option.some.inj hd'
  have hw : v - u ≠ 0 := by linarith
  apply mul_right_cancel₀ hw
  have : brokenLine xs ys x / T * (v - u) = (brokenLine xs ys x - ys[j]) * (v - u) / T + ys[j] / T * (v - u) := by ring
  rw [this, he]
  linear_combination he'

/-- the part of the error that comes from the mass: the area missed by the chords and the mass outside the grid -/
noncomputable def massError (a b L h m : ℝ) : ℝ := L * h / 2 * (b - a) + |1 - m|

/-- the largest error of the density -/
noncomputable def gridError (a b L M h m : ℝ) : ℝ := (L * h / 2 + M * massError a b L h m) / (1 - massError a b L h m)

theorem Smooth.nonneg {g : ℝ → ℝ} {a b L M m : ℝ} (s : Smooth g a b L M m) (hab : a < b) : 0 ≤ L ∧ 0 ≤ M := by
  constructor
  · have := (abs_nonneg _).trans (s.lip a ⟨le_rfl, hab.le⟩ b ⟨hab.le, le_rfl⟩)
    exact nonneg_of_mul_nonneg_left this (abs_pos.2 (by linarith))
  · exact (abs_nonneg _).trans (s.top a ⟨le_rfl, hab.le⟩)

theorem Smooth.integrable {g : ℝ → ℝ} {a b L M m : ℝ} (s : Smooth g a b L M m) (hab : a < b) (z : ℝ) (h1 : a ≤ z) (h2 : z ≤ b) :
    IntervalIntegrable g volume a z := by
  apply ContinuousOn.intervalIntegrable
  rw [uIcc_of_le h1]
  have hL := (s.nonneg hab).1
  have : LipschitzOnWith ⟨L, hL⟩ g (Icc a z) := by
    apply LipschitzOnWith.of_dist_le_mul
    intro x hx y hy
    rw [Real.dist_eq, Real.dist_eq]
    exact s.lip x ⟨hx.1, hx.2.trans h2⟩ y ⟨hy.1, hy.2.trans h2⟩
  exact this.continuousOn

/-- functions that stay within `E` of each other have integrals within `E` times the length -/
theorem integral_close (f g : ℝ → ℝ) (a z E : ℝ) (haz : a ≤ z) (hf : IntervalIntegrable f volume a z) (hg : IntervalIntegrable g volume a z)
    (h : ∀ t ∈ Icc a z, |f t - g t| ≤ E) : |(∫ t in a..z, f t) - ∫ t in a..z, g t| ≤ E * (z - a) := by
  rw [← intervalIntegral.integral_sub hf hg]
  have := intervalIntegral.norm_integral_le_of_norm_le_const (a := a) (b := z) (f := fun t => f t - g t) (C := E) (by
    intro t ht
    rw [uIoc_of_le haz] at ht
    exact h t ⟨ht.1.le, ht.2⟩)
  rwa [Real.norm_eq_abs, abs_of_nonneg (show 0 ≤ z - a by linarith)] at this

/-- one PDF -/
theorem row_error {xs : List ℝ} {a b h : ℝ} (m : Mesh xs a b h) {g : ℝ → ℝ} {L M μ : ℝ} (s : Smooth g a b L M μ)
    (hD : massError a b L h μ < 1) : ∃ ys c, interpNormRow xs (xs.map g) = .ok (some (ys, c)) ∧ interpNormRow xs ys = .ok (some (ys, c)) ∧
      ys.length = xs.length ∧
      (∀ x, a ≤ x → x ≤ b → |brokenLine xs ys x - g x| ≤ gridError a b L M h μ) ∧
      ∀ (j : ℕ) z, xs[j + 1]? = some z → ∃ y, interpCdf xs c z = some y ∧ |y - ∫ t in a..z, g t| ≤ gridError a b L M h μ * (z - a) := by
  have hab := m.lt
  obtain ⟨hL, hM⟩ := s.nonneg hab
  obtain ⟨hi, hT, -⟩ := line_integral m (xs.map g) (by simp)
  have hlc := line_close m g L hL s.lip
  have hc := integral_close (brokenLine xs (xs.map g)) g a b (L * h / 2) hab.le (hi.intervalIntegrable) (s.integrable hab b hab.le le_rfl)
    (fun t ht => hlc t ht.1 ht.2)
  rw [hT, s.mass] at hc
  set T := area xs (xs.map g) with hTd
  have hT1 : |T - 1| ≤ massError a b L h μ := by
    have : T - 1 = (T - μ) - (1 - μ) := by ring
    rw [this]
    exact (abs_sub _ _).trans (by unfold massError; linarith)
  have hTlo : 1 - massError a b L h μ ≤ T := by linarith [(abs_le.1 hT1).1]
  have hTpos : 0 < T := by linarith
  obtain ⟨ys, c, h1, h2, h3, h4⟩ := (C12_interp_normalises xs (xs.map g) (m.grid _ (by simp))).2 hTpos.ne'
  have hyl : ys.length = xs.length := by rw [h3]; simp
  have herr : ∀ x, a ≤ x → x ≤ b → |brokenLine xs ys x - g x| ≤ gridError a b L M h μ := by
    intro x hx1 hx2
    rw [h3, line_div m _ (by simp), ← hTd]
    have e : brokenLine xs (xs.map g) x / T - g x = ((brokenLine xs (xs.map g) x - g x) - g x * (T - 1)) / T := by field_simp; ring
    rw [e, abs_div, abs_of_pos hTpos]
    unfold gridError
    have hnum : |(brokenLine xs (xs.map g) x - g x) - g x * (T - 1)| ≤ L * h / 2 + M * massError a b L h μ := by
      refine (abs_sub _ _).trans (add_le_add (hlc x hx1 hx2) ?_)
      rw [abs_mul]
      exact mul_le_mul (s.top x ⟨hx1, hx2⟩) hT1 (abs_nonneg _) hM
    exact div_le_div₀ ((abs_nonneg _).trans hnum) hnum (by linarith) hTlo
  refine ⟨ys, c, h1, h4, hyl, herr, ?_⟩
  intro j z hz
  have hzr := m.range z (List.mem_of_getElem? hz)
  have hcon : Constructed xs ys c := ⟨xs.map g, m.grid _ (by simp), h1⟩
  obtain ⟨hi', -, hz'⟩ := line_integral m ys hyl
  refine ⟨_, (C13_lebesgue xs ys c hcon _ (EndToEnd.interp_line xs ys (m.grid ys hyl))).1 j z hz, ?_⟩
  rw [hz' z hzr.1]
  exact integral_close _ g a z _ hzr.1 hi'.intervalIntegrable (s.integrable hab z hzr.1 hzr.2) (fun t ht => herr t ht.1 (ht.2.trans hzr.2))

/-- what the conversion to an interpolated ensemble makes of an ensemble of any class, given its densities `g i x` -/
theorem interp_conversion (ev : Evals ℝ) (e : Ens ℝ) (x : List ℝ) (h2 : 2 ≤ x.length) (g : ℕ → ℝ → ℝ)
    (hpdf : ev.pdf e.frozen (.arr (vec x)) = .ok ⟨e.frozen.shape ++ [x.length],
      nums ((List.range e.frozen.shape.prod).map fun i => x.map (g i)).flatten⟩)
    (P : ℕ → List ℝ) (hP : ∀ i < e.frozen.shape.prod, interpNorm x (x.map (g i)) = some (P i)) :
    convertTo (interpPy ev) e none [("xvals", .arr (vec x))] = .ok ⟨rowCreate interpCls, rowCreate interpCls,
      frozenOf interpCls [("xvals", vec x)] [x.length] ((List.range e.frozen.shape.prod).map fun i => [nums (P i)]) e.frozen.shape, none⟩ := by
  unfold convertTo
  simp only [interpPy, get_single, extractValsAtX, needKwd, get?_cons, if_true, Bind.bind, Except.bind, hpdf]
  unfold mkEns
  rw [nums_flatten, List.map_map]
  rw [interp_create x h2 e.frozen.shape _ (fun i => nums (P i)) (fun i _ => by simp [nums]) (fun i hi => by
    simp [liftRow, allNum_nums, finites_nums, hP i hi])]
  rfl

theorem tableRow_interp (x : List ℝ) (n : ℕ) (P : ℕ → List ℝ) (s : List ℕ) (hlen : ∀ i < n, (P i).length = x.length) (i : ℕ) (hi : i < n) :
    tableRow (frozenOf interpCls [("xvals", vec x)] [x.length] ((List.range n).map fun i => [nums (P i)]) s) i "yvals" = nums (P i) := by
  unfold tableRow
  have : Dict.get? (frozenOf interpCls [("xvals", vec x)] [x.length] ((List.range n).map fun i => [nums (P i)]) s).objdata "yvals"
      = some (.arr ⟨[n, x.length], ((List.range n).map fun i => nums (P i)).flatten⟩) := by
    simp [frozenOf, interpCls, storeRows, get?_cons, Arr.ofRows, Function.comp_def]
  rw [this]
  exact row_block n x.length (fun i => nums (P i)) (fun j hj => by simp [nums, hlen j hj]) i hi

/-- an evaluation of an ensemble at any increasing list of points, from the values of its rows -/
theorem ensArr_at (f : Dict ℝ → (String → List (Elem ℝ)) → ℝ → Elem ℝ) (fr : Frozen ℝ) (hn : fr.npdf = fr.shape.prod) (t : List ℝ)
    (ht : t.Pairwise (· < ·)) (G : ℕ → ℝ → ℝ) (hG : ∀ i < fr.shape.prod, ∀ v ∈ t, f fr.metadata (tableRow fr i) v = .num (some (G i v))) :
    ensArr f fr (.arr (vec t)) = .ok ⟨fr.shape ++ [t.length], nums ((List.range fr.shape.prod).map fun i => t.map (G i)).flatten⟩ := by
  unfold ensArr
  simp only [Val.toArr]
  rw [show (vec t).data = nums t from rfl, finites_nums]
  simp only [show (vec t).shape = [t.length] from rfl]
  unfold ensEval
  rw [Evaluation.C01_shared_grid_partial _ _ _ (Or.inl ht)]
  simp only [Bind.bind, Except.bind]
  congr 2
  rw [nums_flatten, List.map_map]
  congr 1
  unfold Evaluation.SharedSpec
  rw [hn]
  apply List.map_congr_left
  intro i hi
  have hi := List.mem_range.1 hi
  simp only [Function.comp]
  rw [show nums (t.map (G i)) = t.map fun v => .num (some (G i v)) by simp [nums]]
  apply List.map_congr_left
  intro v hv
  exact hG i hi v hv

/-- **C110.** Take an ensemble of any class, with densities `g i` that between the ends `a` and `b` of a grid have slopes up to `L i`,
values up to `M i`, and mass `μ i`; let neighbouring grid points be at most `h` apart, and let `L h / 2 · (b - a) + |1 - μ|` be less
than one. Then `convert_to(interp_gen, xvals=grid)` succeeds; the `pdf` of the new ensemble differs from the original density by at most
`(L h / 2 + M D) / (1 - D)` at *every* point of the range, where `D` is that quantity, and is zero outside; its `cdf` at every grid
point after the first differs from the mass since `a` by at most this times the distance from `a`. -/
theorem C110_interp_error (ev : Evals ℝ) (e : Ens ℝ) (x : List ℝ) (a b h : ℝ) (m : Mesh x a b h)
    (g : ℕ → ℝ → ℝ) (L M μ : ℕ → ℝ) (hg : ∀ i, Smooth (g i) a b (L i) (M i) (μ i)) (hD : ∀ i, massError a b (L i) h (μ i) < 1)
    (hpdf : ev.pdf e.frozen (.arr (vec x)) = .ok ⟨e.frozen.shape ++ [x.length],
      nums ((List.range e.frozen.shape.prod).map fun i => x.map (g i)).flatten⟩) :
    ∃ (e' : Ens ℝ) (G C : ℕ → ℝ → ℝ), convertTo (interpPy ev) e none [("xvals", .arr (vec x))] = .ok e' ∧
      (∀ t : List ℝ, t.Pairwise (· < ·) → ensArr interpPdfElem e'.frozen (.arr (vec t))
        = .ok ⟨e.frozen.shape ++ [t.length], nums ((List.range e.frozen.shape.prod).map fun i => t.map (G i)).flatten⟩) ∧
      (∀ t : List ℝ, t.Pairwise (· < ·) → (∀ v ∈ t, v ∈ x.tail) →
        ensArr (fun md row v => .num (interpCdfEval md row v)) e'.frozen (.arr (vec t))
        = .ok ⟨e.frozen.shape ++ [t.length], nums ((List.range e.frozen.shape.prod).map fun i => t.map (C i)).flatten⟩) ∧
      ∀ i, (∀ t, a ≤ t → t ≤ b → |G i t - g i t| ≤ gridError a b (L i) (M i) h (μ i)) ∧ (∀ t, t < a ∨ b < t → G i t = 0) ∧
        ∀ z ∈ x.tail, |C i z - ∫ t in a..z, g i t| ≤ gridError a b (L i) (M i) h (μ i) * (z - a) := by
  have hr := fun i => row_error m (hg i) (hD i)
  choose P c hn hn' hlen hG hC using hr
  have hidx : ∀ z ∈ x.tail, ∃ j : ℕ, x[j + 1]? = some z := by
    intro z hz
    obtain ⟨j, hj⟩ := List.mem_iff_getElem?.1 hz
    exact ⟨j, by rw [List.getElem?_tail] at hj; exact hj⟩
  refine ⟨_, fun i => brokenLine x (P i), fun i z => (interpCdf x (c i) z).getD 0,
    interp_conversion ev e x m.two g hpdf P (fun i _ => by simp [interpNorm, hn i]), ?_, ?_, ?_⟩
  · intro t ht
    refine ensArr_at _ _ (by simp [frozenOf]) t ht _ ?_
    intro i hi v _
    simp only [interpPdfElem, interpEval]
    rw [tableRow_interp x e.frozen.shape.prod P e.frozen.shape (fun i _ => hlen i) i hi, finites_nums, metaGrid_interp]
    simp [EndToEnd.interp_line x (P i) (m.grid _ (hlen i)) v]
  · intro t ht hmem
    refine ensArr_at _ _ (by simp [frozenOf]) t ht _ ?_
    intro i hi v hv
    obtain ⟨j, hj⟩ := hidx v (hmem v hv)
    obtain ⟨y, hy, -⟩ := hC i j v hj
    simp only [interpCdfEval]
    rw [tableRow_interp x e.frozen.shape.prod P e.frozen.shape (fun i _ => hlen i) i hi, finites_nums, metaGrid_interp]
    simp [hn' i, hy]
  · intro i
    refine ⟨hG i, fun t ht => line_outside m _ (hlen i) t ht, ?_⟩
    intro z hz
    obtain ⟨j, hj⟩ := hidx z hz
    obtain ⟨y, hy, hb⟩ := hC i j z hj
    simpa [hy] using hb

/-- the error bound is continuous in the spacing and zero at zero when all the mass is on the grid -/
theorem gridError_small (a b L M ε : ℝ) (hε : 0 < ε) : ∃ δ > 0, ∀ h, 0 < h → h ≤ δ → massError a b L h 1 < 1 ∧ gridError a b L M h 1 ≤ ε := by
  have hc : ContinuousAt (fun h => gridError a b L M h 1) 0 := by
    unfold gridError massError
    refine ContinuousAt.div (by fun_prop) (by fun_prop) (by simp)
  have hm : ContinuousAt (fun h => massError a b L h 1) 0 := by unfold massError; fun_prop
  have h1 : ∀ᶠ h in nhds (0 : ℝ), gridError a b L M h 1 < ε := by
    apply hc.eventually_lt continuousAt_const
    simpa [gridError, massError] using hε
  have h2 : ∀ᶠ h in nhds (0 : ℝ), massError a b L h 1 < 1 := by
    apply hm.eventually_lt continuousAt_const
    simp [massError]
  obtain ⟨δ, hδ, hb⟩ := Metric.eventually_nhds_iff.1 (h1.and h2)
  refine ⟨δ / 2, by linarith, fun h h0 hh => ?_⟩
  have := hb (y := h) (by rw [Real.dist_eq, sub_zero, abs_of_pos h0]; linarith)
  exact ⟨this.2, this.1.le⟩

/-- **C110, in the limit.** For a density with bounded slopes that has all its mass on `[a, b]` the error of the conversion can be made as
small as one likes: for every `ε` there is a spacing such that on *every* grid from `a` to `b` at least that fine the values that the
conversion stores describe a density that is nowhere more than `ε` away from the original one. -/
theorem C110_fine_grids (g : ℝ → ℝ) (a b L M : ℝ) (s : Smooth g a b L M 1) (ε : ℝ) (hε : 0 < ε) :
    ∃ δ > 0, ∀ (xs : List ℝ) (h : ℝ), h ≤ δ → Mesh xs a b h →
      ∃ ys c, interpNormRow xs (xs.map g) = .ok (some (ys, c)) ∧ ∀ x, a ≤ x → x ≤ b → ∃ d, interpPdf xs ys x = some d ∧ |d - g x| ≤ ε := by
  obtain ⟨δ, hδ, hs⟩ := gridError_small a b L M ε hε
  refine ⟨δ, hδ, fun xs h hh m => ?_⟩
  have h0 : 0 < h := by
    obtain ⟨j, u, v, hu, hv, huv, -⟩ := m.cell a le_rfl m.lt.le
    linarith [m.gaps j u v hu hv]
  obtain ⟨ys, c, h1, -, h2, h3, -⟩ := row_error m s (hs h h0 hh).1
  exact ⟨ys, c, h1, fun x hx1 hx2 => ⟨_, EndToEnd.interp_line xs ys (m.grid ys h2) x, (h3 x hx1 hx2).trans (hs h h0 hh).2⟩⟩

/-! An example: the triangle on [0, 2], held by an interpolated ensemble, put on a finer grid. -/

theorem mesh3 : Mesh [0, 1, 2] 0 2 1 := ⟨by norm_num, by simp, rfl, rfl, fun i u v hu hv => by
  match i with
  | 0 | 1 => simp at hu hv; subst hu hv; norm_num
  | i + 2 => simp at hv⟩

theorem mesh5 : Mesh [0, 1/2, 1, 3/2, 2] 0 2 (1/2) := ⟨by norm_num, by simp, rfl, rfl, fun i u v hu hv => by
  match i with
  | 0 | 1 | 2 | 3 => simp at hu hv; subst hu hv; norm_num
  | i + 4 => simp at hv⟩

theorem triangle (x : ℝ) (h0 : 0 ≤ x) (h2 : x ≤ 2) : brokenLine [0, 1, 2] [0, 1, 0] x = 1 - |x - 1| := by
  unfold brokenLine
  by_cases h : x ≤ 1
  · rw [if_pos ⟨h0, h⟩, abs_of_nonpos (by linarith)]; ring
  · rw [if_neg (by tauto)]
    unfold brokenLine
    rw [if_pos ⟨by linarith, h2⟩, abs_of_nonneg (by linarith)]; ring

theorem triangle_smooth : Smooth (brokenLine [0, 1, 2] [0, 1, 0]) 0 2 1 1 1 := by
  refine ⟨?_, ?_, ?_⟩
  · intro s hs t ht
    rw [triangle s hs.1 hs.2, triangle t ht.1 ht.2, one_mul]
    have := abs_abs_sub_abs_le_abs_sub (t - 1) (s - 1)
    rw [show (1 - |s - 1|) - (1 - |t - 1|) = |t - 1| - |s - 1| by ring]
    refine this.trans (le_of_eq ?_)
    rw [show t - 1 - (s - 1) = -(s - t) by ring, abs_neg]
  · intro s hs
    rw [triangle s hs.1 hs.2, abs_le]
    have : |s - 1| ≤ 1 := abs_le.2 ⟨by linarith [hs.1], by linarith [hs.2]⟩
    have := abs_nonneg (s - 1)
    constructor <;> linarith
  · rw [(line_integral mesh3 [0, 1, 0] rfl).2.1]
    norm_num [area]

example := C110_fine_grids _ 0 2 1 1 triangle_smooth (1/100) (by norm_num)

noncomputable def triangleEns : Ens ℝ := ⟨rowCreate interpCls, rowCreate interpCls,
  frozenOf interpCls [("xvals", vec [0, 1, 2])] [([0, 1, 2] : List ℝ).length] ((List.range [1].prod).map fun _ => [nums [0, 1, 0]]) [1], none⟩

example := C110_interp_error ⟨ensArr interpPdfElem, ensArr interpPdfElem, ensArr interpPdfElem⟩ triangleEns [0, 1/2, 1, 3/2, 2] 0 2 (1/2) mesh5
  (fun _ => brokenLine [0, 1, 2] [0, 1, 0]) (fun _ => 1) (fun _ => 1) (fun _ => 1) (fun _ => triangle_smooth)
  (fun _ => by norm_num [massError])
  (ensArr_at _ triangleEns.frozen (by simp [triangleEns, frozenOf]) _ mesh5.strict _ (by
    intro i hi v _
    simp only [interpPdfElem, interpEval, triangleEns]
    rw [tableRow_interp [0, 1, 2] [1].prod (fun _ => [0, 1, 0]) [1] (fun _ _ => rfl) i hi, finites_nums, metaGrid_interp]
    simp [EndToEnd.interp_line [0, 1, 2] [0, 1, 0] (mesh3.grid _ rfl) v]))

end Verif.Props.ConvertInterpError
