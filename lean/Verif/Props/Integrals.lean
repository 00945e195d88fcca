import Mathlib.MeasureTheory.Integral.DivergenceTheorem
import Mathlib.Analysis.SpecialFunctions.Integrals.Basic
import Mathlib.Analysis.Calculus.FDeriv.Measurable
import Verif.Props.Hist
import Verif.Props.InterpPdf

/-!
# C08, C12, C13 over the real numbers: the CDF is the integral of the PDF

The statements use Mathlib's interval integral (Lebesgue integral), not a formula for areas.
-/

set_option linter.unusedSectionVars false
set_option autoImplicit false

namespace Verif.Props.Integrals

open Verif Verif.Np Verif.Model Verif.Spec Verif.Props.Hist Verif.Props.Bins Verif.Props.InterpPdf Verif.Lemmas.Hist MeasureTheory

/-- the fundamental theorem for a continuous function that is differentiable off a finite set with bounded derivative -/
theorem ftc_off (F f : ℝ → ℝ) (s : Set ℝ) (hs : s.Finite) (hF : Continuous F) (hd : ∀ x ∉ s, HasDerivAt F (f x) x) (M : ℝ) (hM : ∀ x ∉ s, |f x| ≤ M)
    (a b : ℝ) : IntervalIntegrable f volume a b ∧ ∫ x in a..b, f x = F b - F a := by
  have hae : ∀ᵐ x ∂(volume : Measure ℝ), x ∉ s := by
    rw [ae_iff]; simpa using hs.measure_zero volume
  have hm : AEStronglyMeasurable f (volume : Measure ℝ) :=
    (measurable_deriv F).aestronglyMeasurable.congr (hae.mono fun x hx => (hd x hx).deriv)
  have hint : ∀ u v : ℝ, IntegrableOn f (Set.Ioc u v) volume := fun u v =>
    Measure.integrableOn_of_bounded (M := M) measure_Ioc_lt_top.ne hm (ae_restrict_of_ae (hae.mono fun x hx => by simpa using hM x hx))
  have hi : IntervalIntegrable f volume a b := ⟨hint _ _, hint _ _⟩
  exact ⟨hi, MeasureTheory.integral_eq_of_hasDerivAt_off_countable F f hs.countable hF.continuousOn (fun x hx => hd x hx.2) hi⟩

/-! ### histograms -/

theorem massUpTo_continuous : ∀ (e p : List ℝ), Continuous (massUpTo e p) := by
  intro e
  induction e with
  | nil => intro p; exact (continuous_const (y := (0 : ℝ))).congr fun x => by simp [massUpTo]
  | cons a e ih =>
    intro p
    match e, p with
    | [], _ => exact (continuous_const (y := (0 : ℝ))).congr fun x => by simp [massUpTo]
    | b :: e, [] => exact (continuous_const (y := (0 : ℝ))).congr fun x => by simp [massUpTo]
    | b :: e, q :: p =>
      have := ih p
      have h : massUpTo (a :: b :: e) (q :: p) = fun x => q * max 0 (min x b - a) + massUpTo (b :: e) p x := by funext x; rfl
      rw [h]
      fun_prop

/-- a point that is not an edge is left of all edges, right of all edges, or inside a bin -/
theorem bin_cases : ∀ (e : List ℝ) (x : ℝ), e.Pairwise (· < ·) → x ∉ e → (∀ v ∈ e, x < v) ∨ (∀ v ∈ e, v < x) ∨ ∃ i, Inside e i x := by
  intro e
  induction e with
  | nil => intro x _ _; left; simp
  | cons a e ih =>
    intro x hs hx
    simp only [List.mem_cons, not_or] at hx
    have hs' := List.pairwise_cons.1 hs
    rcases lt_or_gt_of_ne hx.1 with hxa | hxa
    · left; intro v hv; rcases List.mem_cons.1 hv with rfl | hv
      · exact hxa
      · exact hxa.trans (hs'.1 v hv)
    · rcases ih x hs'.2 hx.2 with h | h | ⟨i, u, v, h1, h2, h3, h4⟩
      · cases e with
        | nil => right; left; intro v hv; simp at hv; rw [hv]; exact hxa
        | cons b e => right; right; exact ⟨0, a, b, by simp, by simp, hxa, h b (by simp)⟩
      · right; left; intro v hv; rcases List.mem_cons.1 hv with rfl | hv
        · exact hxa
        · exact h v hv
      · right; right; exact ⟨i + 1, u, v, by simpa using h1, by simpa using h2, h3, h4⟩

theorem hist_integral (edges row p : List ℝ) (hg : Grid edges row.length) (hu : Uniform edges ∨ DetectablyNonUniform edges)
    (hp : histNormRow edges row = some p) (f : ℝ → ℝ) (hf : ∀ x, histPdf edges p x = .ok (f x)) (x y : ℝ) :
    IntervalIntegrable f volume x y ∧
    ∃ u v, histCdf edges p x = some u ∧ histCdf edges p y = some v ∧ ∫ t in x..y, f t = v - u := by
  have hm : totalMass edges row ≠ 0 := by
    intro h; rw [(C07_row_normalised edges row).1 h] at hp; simp at hp
  obtain ⟨p', h1, h2, h3, -⟩ := (C07_row_normalised edges row).2 hm
  obtain rfl : p' = p := by rw [hp] at h1; exact (Option.some.inj h1).symm
  have hg' : Grid edges p'.length := by rw [h3, List.length_map]; exact hg
  have hslope := C08_cdf_slope edges p' hg' h2
  have hcdf := C08_cdf_is_mass edges p' hg' h2
  have hin : ∀ z ∉ edges, ((∀ v ∈ edges, z < v) ∨ (∀ v ∈ edges, v < z)) ∧ f z = 0 ∨ ∃ i a b c, edges[i]? = some a ∧ edges[i+1]? = some b ∧ p'[i]? = some c ∧ a < z ∧ z < b ∧ f z = c := by
    intro z hz
    have h6 := C06_hist_pdf_partial edges row p' hg hu hp z
    rcases bin_cases edges z hg.strict hz with h | h | ⟨i, hi⟩
    · left; refine ⟨.inl h, ?_⟩; have := h6.2 (.inl h); rw [hf z] at this; injection this
    · left; refine ⟨.inr h, ?_⟩; have := h6.2 (.inr h); rw [hf z] at this; injection this
    · right
      obtain ⟨a, b, ha, hb, h1, h2⟩ := id hi
      have hlt : i < row.length := by
        have := (List.getElem?_eq_some_iff.1 hb).1; have := hg.size; omega
      have := h6.1 i _ hi (List.getElem?_eq_getElem hlt)
      refine ⟨i, a, b, row[i] / totalMass edges row, ha, hb, ?_, h1, h2, ?_⟩
      · rw [h3, List.getElem?_map, List.getElem?_eq_getElem hlt]; rfl
      · rw [hf z] at this; injection this
  have hder : ∀ z ∉ {v | v ∈ edges}, HasDerivAt (massUpTo edges p') (f z) z := by
    intro z hz
    rcases hin z hz with ⟨h, hf0⟩ | ⟨i, a, b, c, ha, hb, hc, haz, hzb, hfz⟩
    · rw [hf0]
      obtain ⟨a, e, rfl⟩ := List.exists_cons_of_ne_nil (l := edges) (by rintro rfl; have := hg.size; simp at this)
      rcases h with h | h
      · have : massUpTo (a :: e) p' =ᶠ[nhds z] fun _ => 0 := by
          filter_upwards [gt_mem_nhds (h a (by simp))] with w hw
          exact massUpTo_left e a p' w hg.strict hw.le
        exact (hasDerivAt_const z (0 : ℝ)).congr_of_eventuallyEq this
      · have : massUpTo (a :: e) p' =ᶠ[nhds z] fun _ => totalMass (a :: e) p' := by
          have hall : ∀ᶠ w in nhds z, ∀ v ∈ a :: e, v < w := by
            have := (Set.Finite.eventually_all (List.finite_toSet (a :: e)) (l := nhds z) (p := fun v w => v < w)).2
            exact this fun v hv => lt_mem_nhds (h v hv)
          filter_upwards [hall] with w hw
          exact massUpTo_right e a p' w hg.strict (fun v hv => (hw v hv).le)
        exact (hasDerivAt_const z _).congr_of_eventuallyEq this
    · have hloc : massUpTo edges p' =ᶠ[nhds z] fun w => massUpTo edges p' z + c * (w - z) := by
        filter_upwards [lt_mem_nhds haz, gt_mem_nhds hzb] with w hw1 hw2
        rcases le_total w z with h | h
        · obtain ⟨u, v, e1, e2, e3⟩ := hslope i a b c w z ha hb hc hw1.le h hzb.le
          rw [hcdf] at e1 e2
          injection e1 with e1; injection e2 with e2
          rw [e1, e2]; linarith
        · obtain ⟨u, v, e1, e2, e3⟩ := hslope i a b c z w ha hb hc haz.le h hw2.le
          rw [hcdf] at e1 e2
          injection e1 with e1; injection e2 with e2
          rw [e1, e2]; linarith
      rw [hfz]
      have : HasDerivAt (fun w => massUpTo edges p' z + c * (w - z)) c z := by
        have := (((hasDerivAt_id z).sub_const z).const_mul c).const_add (massUpTo edges p' z)
        simpa using this
      exact this.congr_of_eventuallyEq hloc
  have hb : ∀ z ∉ {v | v ∈ edges}, |f z| ≤ (p'.map (|·|)).sum := by
    intro z hz
    have hnn : ∀ w ∈ p'.map (|·|), 0 ≤ w := by intro w hw; obtain ⟨q, _, rfl⟩ := List.mem_map.1 hw; exact abs_nonneg q
    rcases hin z hz with ⟨_, h⟩ | ⟨i, a, b, c, _, _, hc, _, _, hfz⟩
    · rw [h, abs_zero]; exact List.sum_nonneg hnn
    · rw [hfz]; exact List.single_le_sum hnn _ (List.mem_map.2 ⟨c, List.mem_of_getElem? hc, rfl⟩)
  have := ftc_off (massUpTo edges p') f {v | v ∈ edges} (List.finite_toSet edges) (massUpTo_continuous edges p') hder _ hb x y
  exact ⟨this.1, _, _, hcdf x, hcdf y, this.2⟩

/-- a function that vanishes outside `[a, b]` -/
theorem whole_line (f : ℝ → ℝ) (a b : ℝ) (hab : a ≤ b) (hl : ∀ x, x < a → f x = 0) (hr : ∀ x, b < x → f x = 0) (hi : IntervalIntegrable f volume (a - 1) b) :
    Integrable f volume ∧ ∫ x, f x = ∫ x in (a - 1)..b, f x := by
  have hsup : Function.support f ⊆ Set.Ioc (a - 1) b := by
    intro x hx
    rw [Function.mem_support] at hx
    constructor
    · by_contra h; exact hx (hl x (by linarith [not_lt.1 h]))
    · by_contra h; exact hx (hr x (not_le.1 h))
  constructor
  · rw [← integrableOn_iff_integrable_of_support_subset hsup]
    exact (intervalIntegrable_iff_integrableOn_Ioc_of_le (by linarith)).1 hi
  · exact (intervalIntegral.integral_eq_integral_of_support_subset hsup).symm

/-- **C08 (integral form, partial).** A normalised histogram over the real numbers whose bins the lookup recognises (see C05): the PDF is an
integrable function whose integral over the line is one and whose integral between any two points is the difference of the CDF values there.
Missing: bins that are unequal by less than the tolerance of the lookup (C05). -/
theorem C08_integral_partial (edges row p : List ℝ) (hg : Grid edges row.length) (hu : Uniform edges ∨ DetectablyNonUniform edges)
    (hp : histNormRow edges row = some p) :
    ∃ f : ℝ → ℝ, (∀ x, histPdf edges p x = .ok (f x)) ∧ Integrable f volume ∧ ∫ x, f x = 1 ∧
      ∀ x y, ∃ u v, histCdf edges p x = some u ∧ histCdf edges p y = some v ∧ ∫ t in x..y, f t = v - u := by
  have hm : totalMass edges row ≠ 0 := by
    intro h; rw [(C07_row_normalised edges row).1 h] at hp; simp at hp
  obtain ⟨p', h1, h2, h3, -⟩ := (C07_row_normalised edges row).2 hm
  obtain rfl : p' = p := by rw [hp] at h1; exact (Option.some.inj h1).symm
  have hg' : Grid edges p'.length := by rw [h3, List.length_map]; exact hg
  have htot : ∀ x, ∃ v, histPdf edges p' x = .ok v := by
    intro x
    have hsz := hg'.size
    obtain ⟨i, m, hi, hlt⟩ := C05_index_valid edges (by have := hg'.pos; omega) x
    have : i < p'.length := by omega
    exact ⟨if m then p'[i] else 0, by simp [histPdf, evalHist, hi, List.getElem?_eq_getElem this]⟩
  choose f hf using htot
  have hall := fun x y => hist_integral edges row p' hg hu hp f hf x y
  obtain ⟨a, e, rfl⟩ := List.exists_cons_of_ne_nil (l := edges) (by rintro rfl; have := hg.size; simp at this)
  set b := (a :: e).getLast (by simp) with hb
  have hle : ∀ v ∈ a :: e, v ≤ b := fun v hv => Lemmas.InterpPdf.getLast_max hg.strict (by simp) hv
  have hge : ∀ v ∈ a :: e, a ≤ v := by
    intro v hv
    rcases List.mem_cons.1 hv with rfl | hv
    · exact le_rfl
    · exact ((List.pairwise_cons.1 hg.strict).1 v hv).le
  have h6 := C06_hist_pdf_partial (a :: e) row p' hg hu hp
  have hl : ∀ x, x < a → f x = 0 := by
    intro x hx
    have := (h6 x).2 (.inl fun v hv => lt_of_lt_of_le hx (hge v hv))
    rw [hf x] at this; injection this
  have hr : ∀ x, b < x → f x = 0 := by
    intro x hx
    have := (h6 x).2 (.inr fun v hv => lt_of_le_of_lt (hle v hv) hx)
    rw [hf x] at this; injection this
  obtain ⟨hi, hw⟩ := whole_line f a b (hle a (by simp)) hl hr (hall (a - 1) b).1
  refine ⟨f, hf, hi, ?_, fun x y => (hall x y).2⟩
  obtain ⟨u, v, e1, e2, e3⟩ := (hall (a - 1) b).2
  rw [hw, e3]
  rw [C08_cdf_is_mass _ _ hg' h2] at e1 e2
  injection e1 with e1
  injection e2 with e2
  rw [← e1, ← e2, massUpTo_left e a p' (a - 1) hg.strict (by linarith), massUpTo_right e a p' b hg.strict hle, h2]
  ring

/-- two bins with contents 1 and 3 on a unit grid -/
example : ∃ f : ℝ → ℝ, Integrable f volume ∧ ∫ x, f x = 1 ∧ histPdf ([0, 1, 2] : List ℝ) [1/4, 3/4] (1/2) = .ok (f (1/2)) := by
  have hg : Grid ([0, 1, 2] : List ℝ) ([1, 3] : List ℝ).length := ⟨by simp, rfl, by simp⟩
  have hu : Uniform ([0, 1, 2] : List ℝ) := ⟨1, by
    intro i a b ha hb
    rcases i with _ | _ | i
    · simp at ha hb; rw [← ha, ← hb]; norm_num
    · simp at ha hb; rw [← ha, ← hb]; norm_num
    · simp at hb⟩
  have hn : histNormRow ([0, 1, 2] : List ℝ) [1, 3] = some [1/4, 3/4] := by
    simp [histNormRow, histSum, binWidths, Np.mul, Np.sum, Np.diff]; norm_num
  obtain ⟨f, h1, h2, h3, -⟩ := C08_integral_partial _ _ _ hg (.inl hu) hn
  exact ⟨f, h2, h3, h1 _⟩

/-! ### interpolated PDFs -/

theorem areaTo_succ : ∀ (i : ℕ) (xs ys : List ℝ) (x0 x1 y0 y1 : ℝ), xs[i]? = some x0 → xs[i+1]? = some x1 → ys[i]? = some y0 → ys[i+1]? = some y1 →
    areaTo (i + 1) xs ys = areaTo i xs ys + (x1 - x0) * (y0 + y1) / 2 := by
  intro i
  induction i with
  | zero =>
    intro xs ys x0 x1 y0 y1 h1 h2 h3 h4
    match xs, ys with
    | [], _ => simp at h1
    | [_], _ => simp at h2
    | a :: b :: xs, [] => simp at h3
    | a :: b :: xs, [_] => simp at h4
    | a :: b :: xs, u :: v :: ys => simp at h1 h2 h3 h4; subst h1 h2 h3 h4; simp [areaTo]
  | succ i ih =>
    intro xs ys x0 x1 y0 y1 h1 h2 h3 h4
    match xs, ys with
    | [], _ => simp at h1
    | [_], _ => simp at h1
    | a :: b :: xs, [] => simp at h3
    | a :: b :: xs, [_] => simp at h3
    | a :: b :: xs, u :: v :: ys =>
      have := ih (b :: xs) (v :: ys) x0 x1 y0 y1 (by simpa using h1) (by simpa using h2) (by simpa using h3) (by simpa using h4)
      rw [areaTo, this, areaTo]; ring

/-- the integral over one cell -/
theorem cell_integral (f : ℝ → ℝ) (x0 x1 y0 y1 : ℝ) (h : x0 < x1) (hf : ∀ x, x0 ≤ x → x ≤ x1 → (f x - y0) * (x1 - x0) = (y1 - y0) * (x - x0)) :
    IntervalIntegrable f volume x0 x1 ∧ ∫ x in x0..x1, f x = (x1 - x0) * (y0 + y1) / 2 := by
  have hd : x1 - x0 ≠ 0 := by linarith
  have he : Set.EqOn f (fun x => y0 + (y1 - y0) / (x1 - x0) * (x - x0)) (Set.uIcc x0 x1) := by
    intro x hx
    rw [Set.uIcc_of_le h.le] at hx
    have := hf x hx.1 hx.2
    simp only
    field_simp
    linarith
  constructor
  · have hc : ContinuousOn f (Set.uIcc x0 x1) := ContinuousOn.congr (by fun_prop) he
    exact hc.intervalIntegrable
  · rw [intervalIntegral.integral_congr he, intervalIntegral.integral_add (by simp) (Continuous.intervalIntegrable (by fun_prop) _ _),
      intervalIntegral.integral_const_mul, intervalIntegral.integral_sub (by simp) (by simp), integral_id]
    simp
    field_simp
    ring

/-- **C15, C12 (integral form).** The interpolated density through `(xs, ys)` over the real numbers is integrable, its integral over the line is
the area below the broken line (one for a constructed row, see below), and its integral from the first grid point to a grid point is the area up
to there. -/
theorem interp_integral (xs ys : List ℝ) (hg : XGrid xs ys.length) :
    ∃ f : ℝ → ℝ, (∀ x, interpPdf xs ys x = some (f x)) ∧ Integrable f volume ∧ ∫ x, f x = area xs ys ∧
      ∀ (i : ℕ) x0 x, xs[0]? = some x0 → xs[i]? = some x → ∫ t in x0..x, f t = areaTo i xs ys := by
  obtain ⟨a, e, rfl⟩ := List.exists_cons_of_ne_nil (l := xs) (by rintro rfl; have := hg.size; have := hg.two; simp at *; omega)
  obtain ⟨-, hcell, hout, -⟩ := C15_pdf_through_points (a :: e) ys hg
  have htot : ∀ x, ∃ v, interpPdf (a :: e) ys x = some v := by
    intro x
    obtain ⟨u, r, rfl⟩ := List.exists_cons_of_ne_nil (l := ys) (by rintro rfl; have := hg.two; simp at *)
    unfold interpPdf interp
    simp only [List.zip_cons_cons]
    split_ifs <;> exact ⟨_, rfl⟩
  choose f hf using htot
  have hstrict := hg.strict
  have hint : ∀ (i : ℕ) x, (a :: e)[i]? = some x → IntervalIntegrable f volume a x ∧ ∫ t in a..x, f t = areaTo i (a :: e) ys := by
    intro i
    induction i with
    | zero => intro x hx; simp at hx; subst hx; simp [areaTo]
    | succ i ih =>
      intro x1 hx1
      have hi1 := (List.getElem?_eq_some_iff.1 hx1).1
      have hy1 : i + 1 < ys.length := by rw [← hg.size]; exact hi1
      have hx0 : (a :: e)[i]? = some (a :: e)[i] := List.getElem?_eq_getElem (by omega)
      have hY0 : ys[i]? = some ys[i] := List.getElem?_eq_getElem (by omega)
      have hY1 : ys[i+1]? = some ys[i+1] := List.getElem?_eq_getElem hy1
      have hlt : (a :: e)[i] < x1 := by
        have := List.pairwise_iff_getElem.1 hstrict i (i+1) (by omega) hi1 (by omega)
        rw [(List.getElem?_eq_some_iff.1 hx1).2] at this
        exact this
      have hcI := cell_integral f _ x1 ys[i] ys[i+1] hlt (fun x h1 h2 => by
        obtain ⟨d, hd, hd2, -⟩ := hcell i _ x1 _ _ x hx0 hx1 hY0 hY1 h1 h2
        rw [hf x] at hd
        injection hd with hd
        rw [hd]; exact hd2)
      have hI := ih _ hx0
      exact ⟨hI.1.trans hcI.1, by rw [← intervalIntegral.integral_add_adjacent_intervals hI.1 hcI.1, hI.2, hcI.2, areaTo_succ i _ _ _ _ _ _ hx0 hx1 hY0 hY1]⟩
  set b := (a :: e).getLast (by simp) with hb
  have hle : ∀ v ∈ a :: e, v ≤ b := fun v hv => Lemmas.InterpPdf.getLast_max hg.strict (by simp) hv
  have hge : ∀ v ∈ a :: e, a ≤ v := by
    intro v hv
    rcases List.mem_cons.1 hv with rfl | hv
    · exact le_rfl
    · exact ((List.pairwise_cons.1 hg.strict).1 v hv).le
  have hl : ∀ x, x < a → f x = 0 := by
    intro x hx
    have := hout x (.inl fun v hv => lt_of_lt_of_le hx (hge v hv))
    rw [hf x] at this; injection this
  have hr : ∀ x, b < x → f x = 0 := by
    intro x hx
    have := hout x (.inr fun v hv => lt_of_le_of_lt (hle v hv) hx)
    rw [hf x] at this; injection this
  have hlast : (a :: e)[(a :: e).length - 1]? = some b := by
    rw [hb, List.getLast_eq_getElem]; exact List.getElem?_eq_getElem (by simp)
  obtain ⟨hI, hV⟩ := hint _ b hlast
  have hleft : IntervalIntegrable f volume (a - 1) a ∧ ∫ x in (a - 1)..a, f x = 0 := by
    have he : Set.EqOn (fun _ => (0 : ℝ)) f (Set.Ioo (a - 1) a) := fun x hx => (hl x hx.2).symm
    constructor
    · rw [intervalIntegrable_iff_integrableOn_Ioo_of_le (by linarith)]
      exact (integrableOn_zero).congr_fun he measurableSet_Ioo
    · rw [← intervalIntegral.integral_congr_Ioo_of_le (by linarith) he]; simp
  obtain ⟨hi, hw⟩ := whole_line f a b (hle a (by simp)) hl hr (hleft.1.trans hI)
  refine ⟨f, hf, hi, ?_, ?_⟩
  · rw [hw, ← intervalIntegral.integral_add_adjacent_intervals hleft.1 hI, hleft.2, hV, zero_add, Lemmas.InterpPdf.areaTo_last _ _ hg.size]
  · intro i x0 x h0 hx
    simp at h0
    subst h0
    exact (hint i x hx).2

/-- **C12 (integral form).** A constructed row over the real numbers: the density is integrable with integral one over the line. -/
theorem C12_integral (xs row : List ℝ) (hg : XGrid xs row.length) (ys c : List ℝ) (hn : interpNormRow xs row = .ok (some (ys, c))) :
    ∃ f : ℝ → ℝ, (∀ x, interpPdf xs ys x = some (f x)) ∧ Integrable f volume ∧ ∫ x, f x = 1 := by
  obtain ⟨a, b, t, u, v, r, hxs, hys, hl, -, h1, -⟩ := constructed_facts (⟨row, hg, hn⟩ : Constructed xs ys c)
  have hg' : XGrid xs ys.length := by
    subst hxs hys; exact ⟨hg.strict, by simp [hl], by simp⟩
  obtain ⟨f, hf, hi, hv, -⟩ := interp_integral xs ys hg'
  exact ⟨f, hf, hi, by rw [hv, h1]⟩

/-- a triangle with ordinates 0, 3, 0 -/
example : ∃ f : ℝ → ℝ, interpPdf ([0, 1, 2] : List ℝ) [0, 1, 0] 1 = some (f 1) ∧ Integrable f volume ∧ ∫ x, f x = 1 := by
  have hg : XGrid ([0, 1, 2] : List ℝ) ([0, 3, 0] : List ℝ).length := ⟨by simp, rfl, by simp⟩
  have hn : interpNormRow ([0, 1, 2] : List ℝ) [0, 3, 0] = .ok (some ([0, 1, 0], [0, 1/2, 1])) := by
    simp [interpNormRow, interpCumul, trapezoids, cumsum, cumsumFrom]; norm_num
  obtain ⟨f, h1, h2, h3⟩ := C12_integral _ _ hg _ _ hn
  exact ⟨f, h1 1, h2, h3⟩

/-- **C13 (integral form).** At every grid point but the first, the CDF is the integral of the density up to there. -/
theorem C13_integral_partial (xs ys c : List ℝ) (h : Constructed xs ys c) :
    ∃ f : ℝ → ℝ, (∀ x, interpPdf xs ys x = some (f x)) ∧
      ∀ (i : ℕ) x0 x, xs[0]? = some x0 → xs[i+1]? = some x → interpCdf xs c x = some (∫ t in x0..x, f t) := by
  obtain ⟨a, b, t, u, v, r, hxs, hys, hl, hs, h1, -⟩ := constructed_facts h
  have hg' : XGrid xs ys.length := by
    subst hxs hys; exact ⟨hs, by simp [hl], by simp⟩
  obtain ⟨f, hf, -, -, hv⟩ := interp_integral xs ys hg'
  refine ⟨f, hf, fun i x0 x h0 hx => ?_⟩
  rw [hv (i+1) x0 x h0 hx]
  exact (C13_cdf_at_grid xs ys c h).1 i x hx

end Verif.Props.Integrals
