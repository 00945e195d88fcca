import Verif.Props.ConvertError
import Verif.Props.Sampling
import Mathlib.MeasureTheory.Integral.IntervalIntegral.Basic

/-!
# C113: conversion to a histogram and expectations

The converted PDF has the probability of the original in every bin (C57). Hence no expectation of a quantity that changes slowly over a bin
changes by much, whatever the original is.
-/

set_option linter.unusedSectionVars false
set_option autoImplicit false

namespace Verif.Props.ConvertError

open Verif Verif.Np Verif.Spec Verif.Model MeasureTheory Set
open Verif.Props.Hist Verif.Props.Bins Verif.Props.Convert Verif.Lemmas Verif.Props.RealIntegral Verif.Props.Sampling

/-- one bin -/
theorem cell_expect (f g φ : ℝ → ℝ) (u v L w : ℝ) (huv : u ≤ v) (hw : v - u ≤ w) (h0f : ∀ x, 0 ≤ f x) (h0g : ∀ x, 0 ≤ g x) (hf : Integrable f)
    (hg : Integrable g) (hφ : ∀ x y, |φ x - φ y| ≤ L * |x - y|) (hc : Continuous φ) (hL : 0 ≤ L) (hm : ∫ t in u..v, g t = ∫ t in u..v, f t) :
    |(∫ t in u..v, φ t * g t) - ∫ t in u..v, φ t * f t| ≤ L * w * ∫ t in u..v, f t := by
  have hfi : IntervalIntegrable f volume u v := hf.intervalIntegrable
  have hgi : IntervalIntegrable g volume u v := hg.intervalIntegrable
  have hpf : IntervalIntegrable (fun t => φ t * f t) volume u v := hfi.continuousOn_mul hc.continuousOn
  have hpg : IntervalIntegrable (fun t => φ t * g t) volume u v := hgi.continuousOn_mul hc.continuousOn
  set m := (u + v) / 2 with hmdef
  have hkey : (∫ t in u..v, φ t * g t) - ∫ t in u..v, φ t * f t = ∫ t in u..v, (φ t - φ m) * (g t - f t) := by
    have e1 : ∫ t in u..v, φ m * (g t - f t) = 0 := by
      rw [intervalIntegral.integral_const_mul, intervalIntegral.integral_sub hgi hfi, hm, sub_self, mul_zero]
    rw [← intervalIntegral.integral_sub hpg hpf, ← sub_zero (∫ t in u..v, (φ t * g t - φ t * f t)), ← e1, ← intervalIntegral.integral_sub (hpg.sub hpf)
      ((hgi.sub hfi).const_mul _)]
    congr 1
    funext t; ring
  have hb : ∀ t ∈ Ioc u v, ‖(φ t - φ m) * (g t - f t)‖ ≤ L * (w / 2) * (g t + f t) := by
    intro t ht
    rw [Real.norm_eq_abs, abs_mul]
    have h1 : |φ t - φ m| ≤ L * (w / 2) := by
      refine (hφ t m).trans (mul_le_mul_of_nonneg_left ?_ hL)
      rw [abs_le]; constructor <;> linarith [ht.1, ht.2]
    have h2 : |g t - f t| ≤ g t + f t := by
      rw [abs_le]; constructor <;> linarith [h0f t, h0g t]
    exact mul_le_mul h1 h2 (abs_nonneg _) ((abs_nonneg _).trans h1)
  rw [hkey, ← Real.norm_eq_abs]
  refine (intervalIntegral.norm_integral_le_of_norm_le huv (Filter.Eventually.of_forall hb) ((hgi.add hfi).const_mul _)).trans ?_
  rw [intervalIntegral.integral_const_mul, intervalIntegral.integral_add hgi hfi, hm]
  apply le_of_eq; ring

/-- all bins -/
theorem bins_expect (f g φ : ℝ → ℝ) (L w : ℝ) (h0f : ∀ x, 0 ≤ f x) (h0g : ∀ x, 0 ≤ g x) (hf : Integrable f)
    (hg : Integrable g) (hφ : ∀ x y, |φ x - φ y| ≤ L * |x - y|) (hc : Continuous φ) (hL : 0 ≤ L) : ∀ (b : List ℝ) (a z : ℝ), b.Pairwise (· < ·) →
    b.head? = some a → b.getLast? = some z → (∀ (i : ℕ) u v, b[i]? = some u → b[i + 1]? = some v → v - u ≤ w ∧ ∫ t in u..v, g t = ∫ t in u..v, f t) →
    |(∫ t in a..z, φ t * g t) - ∫ t in a..z, φ t * f t| ≤ L * w * ∫ t in a..z, f t := by
  intro b
  induction b with
  | nil => intro a z _ h; simp at h
  | cons c t ih =>
    intro a z hs ha hz hcell
    obtain rfl : c = a := by simpa using ha
    match t with
    | [] =>
      obtain rfl : c = z := by simpa using hz
      simp
    | d :: t =>
      have h1 := ih d z (List.pairwise_cons.1 hs).2 rfl (by simpa using hz) fun i u v hu hv => hcell (i + 1) u v (by simpa using hu) (by simpa using hv)
      have hcd : c < d := (List.pairwise_cons.1 hs).1 d (by simp)
      have h2 := hcell 0 c d rfl rfl
      have h3 := cell_expect f g φ c d L w hcd.le h2.1 h0f h0g hf hg hφ hc hL h2.2
      have hfi : ∀ u v, IntervalIntegrable f volume u v := fun u v => hf.intervalIntegrable
      have hpf : ∀ u v, IntervalIntegrable (fun t => φ t * f t) volume u v := fun u v => (hfi u v).continuousOn_mul hc.continuousOn
      have hpg : ∀ u v, IntervalIntegrable (fun t => φ t * g t) volume u v := fun u v => hg.intervalIntegrable.continuousOn_mul hc.continuousOn
      rw [← intervalIntegral.integral_add_adjacent_intervals (hpg c d) (hpg d z), ← intervalIntegral.integral_add_adjacent_intervals (hpf c d) (hpf d z),
        ← intervalIntegral.integral_add_adjacent_intervals (hfi c d) (hfi d z), mul_add]
      refine le_trans ?_ (add_le_add h3 h1)
      refine le_trans (le_of_eq ?_) (abs_add_le _ _)
      congr 1; ring

/-- a density whose probability lies in an interval -/
theorem expect_inside (f φ : ℝ → ℝ) (a z : ℝ) (haz : a ≤ z) (h0 : ∀ x, 0 ≤ f x) (hi : Integrable f) (h1 : ∫ t, f t = 1) (ha : ∫ t in Iic a, f t = 0)
    (hz : ∫ t in Iic z, f t = 1) (hc : Continuous φ) :
    Integrable (fun t => φ t * f t) ∧ ∫ t, φ t * f t = ∫ t in a..z, φ t * f t := by
  have hIoi : ∫ t in Ioi z, f t = 0 := by
    have := integral_add_compl (μ := volume) (measurableSet_Iic (a := z)) hi
    rw [compl_Iic] at this
    linarith
  have e1 : f =ᵐ[volume.restrict (Iic a)] 0 := (integral_eq_zero_iff_of_nonneg h0 hi.restrict).1 ha
  have e2 : f =ᵐ[volume.restrict (Ioi z)] 0 := (integral_eq_zero_iff_of_nonneg h0 hi.restrict).1 hIoi
  have e1' : (fun t => φ t * f t) =ᵐ[volume.restrict (Iic a)] 0 := by filter_upwards [e1] with t ht; simp [ht]
  have e2' : (fun t => φ t * f t) =ᵐ[volume.restrict (Ioi z)] 0 := by filter_upwards [e2] with t ht; simp [ht]
  have i1 : IntegrableOn (fun t => φ t * f t) (Iic a) := (integrable_zero ℝ ℝ _).congr e1'.symm
  have i2 : IntegrableOn (fun t => φ t * f t) (Ioi z) := (integrable_zero ℝ ℝ _).congr e2'.symm
  have i3 : IntegrableOn (fun t => φ t * f t) (Ioc a z) :=
    (intervalIntegrable_iff_integrableOn_Ioc_of_le haz).1 ((hi.intervalIntegrable (a := a) (b := z)).continuousOn_mul hc.continuousOn)
  have i4 : IntegrableOn (fun t => φ t * f t) (Iic z) := by
    rw [← Iic_union_Ioc_eq_Iic haz]; exact i1.union i3
  have i5 : Integrable (fun t => φ t * f t) := by
    rw [← integrableOn_univ, ← Iic_union_Ioi (a := z)]; exact i4.union i2
  refine ⟨i5, ?_⟩
  have := integral_add_compl (μ := volume) (measurableSet_Iic (a := z)) i5
  rw [compl_Iic] at this
  rw [← this, integral_congr_ae e2', ← Iic_union_Ioc_eq_Iic haz, setIntegral_union (Iic_disjoint_Ioc le_rfl) measurableSet_Ioc i1 i3,
    integral_congr_ae e1', intervalIntegral.integral_of_le haz]
  simp

/-- the density of a histogram ensemble at any increasing list of points -/
theorem histPdf_at (b x : List ℝ) (hx : x.Pairwise (· < ·)) (s : List ℕ) (P : ℕ → List ℝ) (G : ℕ → ℝ → ℝ)
    (hlen : ∀ i < s.prod, (P i).length = b.length - 1) (hG : ∀ i < s.prod, ∀ v, histPdf b (P i) v = .ok (G i v)) :
    ensEval histEval (frozenOf histCls [("bins", vec b)] [b.length - 1] ((List.range s.prod).map fun i => [nums (P i)]) s) x
      = .ok ((List.range s.prod).map fun i => x.map fun v => some (.ok (G i v))) := by
  unfold ensEval
  rw [Evaluation.C01_shared_grid_partial _ _ _ (Or.inl hx)]
  congr 1
  unfold Evaluation.SharedSpec
  rw [show (frozenOf histCls [("bins", vec b)] [b.length - 1] ((List.range s.prod).map fun i => [nums (P i)]) s).npdf = s.prod by simp [frozenOf]]
  apply List.map_congr_left
  intro i hi
  have hi := List.mem_range.1 hi
  apply List.map_congr_left
  intro v _
  simp only [histEval]
  rw [tableRow_hist b s.prod P s hlen i hi, finites_nums, metaGrid_hist]
  simp [hG i hi v]

/-- one PDF -/
theorem row_expect (b : List ℝ) (w : ℝ) (hw : ∀ (i : ℕ) u v, b[i]? = some u → b[i + 1]? = some v → v - u = w) (h2 : 2 ≤ b.length)
    (hs : b.Pairwise (· < ·)) (f : ℝ → ℝ) (h0 : ∀ x, 0 ≤ f x) (hi : Integrable f) (h1 : ∫ t, f t = 1)
    (hF0 : ∀ a, b.head? = some a → ∫ t in Iic a, f t = 0) (hF1 : ∀ z, b.getLast? = some z → ∫ t in Iic z, f t = 1) :
    ∃ p, converted b (fun x => ∫ t in Iic x, f t) = some p ∧ p.length = b.length - 1 ∧ ∃ g : ℝ → ℝ, (∀ x, histPdf b p x = .ok (g x)) ∧
      (∀ x, 0 ≤ g x) ∧ Integrable g ∧ (∫ t, g t = 1) ∧
      ∀ (φ : ℝ → ℝ) (L : ℝ), (∀ x y, |φ x - φ y| ≤ L * |x - y|) →
        Integrable (fun t => φ t * g t) ∧ Integrable (fun t => φ t * f t) ∧ |(∫ t, φ t * g t) - ∫ t, φ t * f t| ≤ L * w := by
  have hu : Uniform b := ⟨w, hw⟩
  have hF : Monotone fun x => ∫ t in Iic x, f t := fun x y hxy =>
    setIntegral_mono_set hi.integrableOn (Filter.Eventually.of_forall h0) (Filter.Eventually.of_forall (Iic_subset_Iic.2 hxy))
  obtain ⟨p, hp, hk⟩ := C57_equal_bins_partial b (fun x => ∫ t in Iic x, f t) h2 hs hu hF0 hF1
  have h01 : ∀ x, 0 ≤ ∫ t in Iic x, f t ∧ ∫ t in Iic x, f t ≤ 1 := fun x =>
    ⟨integral_nonneg h0, by rw [← h1]; exact setIntegral_le_integral hi (Filter.Eventually.of_forall h0)⟩
  obtain ⟨p', hp', hlen, -⟩ := row_error b (fun x => ∫ t in Iic x, f t) h2 hs hu hF h01 hF0 hF1
  obtain rfl : p = p' := by rw [hp] at hp'; exact Option.some.inj hp'
  have hgrow : Grid b (Np.diff (b.map fun x => ∫ t in Iic x, f t)).length := by
    refine ⟨hs, ?_, ?_⟩ <;> rw [Np.length_diff, List.length_map] <;> omega
  obtain ⟨g, hg, hgi, hg1, hgc⟩ := Props.Integrals.C08_integral_partial b _ p hgrow (Or.inl hu) hp
  have hdiff : ∀ v ∈ Np.diff (b.map fun x => ∫ t in Iic x, f t), 0 ≤ v := by
    intro v hv
    obtain ⟨i, hi', rfl⟩ := List.getElem_of_mem hv
    obtain ⟨p, q, e1, e2, e3⟩ := (diff_getElem? _ i _).1 (List.getElem?_eq_getElem hi')
    rw [List.getElem?_map] at e1 e2
    obtain ⟨x, hx, rfl⟩ := Option.map_eq_some_iff.1 e1
    obtain ⟨y, hy, rfl⟩ := Option.map_eq_some_iff.1 e2
    rw [e3]
    have hj := (List.getElem?_eq_some_iff.1 hy).1
    have hxy : x < y := by
      rw [List.getElem?_eq_getElem (by omega)] at hx
      rw [List.getElem?_eq_getElem hj] at hy
      rw [← Option.some.inj hx, ← Option.some.inj hy]
      exact List.pairwise_iff_getElem.1 hs i (i + 1) _ _ (by omega)
    exact sub_nonneg.2 (hF hxy.le)
  have hpos : totalMass b p = 1 ∧ ∀ v ∈ p, 0 ≤ v := by
    have hne : totalMass b (Np.diff (b.map fun x => ∫ t in Iic x, f t)) ≠ 0 := by
      intro h0
      rw [show converted b (fun x => ∫ t in Iic x, f t) = none from (C07_row_normalised b _).1 h0] at hp
      simp at hp
    obtain ⟨p', hp', hone, -, hpos⟩ := (C07_row_normalised b _).2 hne
    obtain rfl : p' = p := by rw [show converted b (fun x => ∫ t in Iic x, f t) = some p' from hp'] at hp; exact Option.some.inj hp
    exact ⟨hone, hpos hs hdiff⟩
  have h0g := hist_pdf_nonneg b p hpos.2 g hg
  refine ⟨p, hp, hlen, g, hg, h0g, hgi, hg1, fun φ L hφ => ?_⟩
  have hL : 0 ≤ L := by have := (abs_nonneg _).trans (hφ 1 0); simpa using this
  have hc : Continuous φ := by
    have : LipschitzWith ⟨L, hL⟩ φ := LipschitzWith.of_dist_le_mul fun x y => by rw [Real.dist_eq, Real.dist_eq]; exact hφ x y
    exact this.continuous
  have hbne : b ≠ [] := by rintro rfl; simp at h2
  have hha : b.head? = some (b.head hbne) := List.head?_eq_some_head hbne
  have hlz : b.getLast? = some (b.getLast hbne) := List.getLast?_eq_getLast_of_ne_nil hbne
  have haz : b.head hbne ≤ b.getLast hbne := Verif.Lemmas.InterpPdf.getLast_max hs hbne (List.head_mem hbne)
  have hgcdf : ∀ x ∈ b, ∫ t in Iic x, g t = ∫ t in Iic x, f t := by
    intro x hx
    have hgp : Grid b p.length := ⟨hs, by omega, by omega⟩
    have := (C08_lebesgue b p hgp (Or.inl hu) hpos.1 g hg).2.2 x
    rw [hk x hx] at this
    exact (Option.some.inj this).symm
  obtain ⟨ig, eg⟩ := expect_inside g φ _ _ haz h0g hgi hg1 (by rw [hgcdf _ (List.head_mem hbne)]; exact hF0 _ hha)
    (by rw [hgcdf _ (List.getLast_mem hbne)]; exact hF1 _ hlz) hc
  obtain ⟨jf, ef⟩ := expect_inside f φ _ _ haz h0 hi h1 (hF0 _ hha) (hF1 _ hlz) hc
  refine ⟨ig, jf, ?_⟩
  rw [eg, ef]
  refine (bins_expect f g φ L w h0 h0g hi hgi hφ hc hL b _ _ hs hha hlz fun i u v hu' hv' => ⟨(hw i u v hu' hv').le, ?_⟩).trans ?_
  · rw [← intervalIntegral.integral_Iic_sub_Iic hgi.integrableOn hgi.integrableOn, ← intervalIntegral.integral_Iic_sub_Iic hi.integrableOn hi.integrableOn,
      hgcdf u (List.mem_of_getElem? hu'), hgcdf v (List.mem_of_getElem? hv')]
  · rw [← intervalIntegral.integral_Iic_sub_Iic hi.integrableOn hi.integrableOn, hF0 _ hha, hF1 _ hlz, sub_zero, mul_one]

/-- **C113.** Take an ensemble of any class with densities `f i` whose probability lies inside equal bins of width `w`, and whose `cdf` gives the integral of
the density at the edges. The conversion to a histogram succeeds, the densities `g i` of the result are non-negative with integral one, and the expectation
of every quantity `φ` that changes by at most `L` per unit changes by at most `L w`. In particular the mean moves by no more than a bin width. -/
theorem C113_expectations (ev : Evals ℝ) (e : Ens ℝ) (b : List ℝ) (w : ℝ) (h2 : 2 ≤ b.length) (hb : b.Pairwise (· < ·))
    (hw : ∀ (i : ℕ) u v, b[i]? = some u → b[i + 1]? = some v → v - u = w) (f : ℕ → ℝ → ℝ) (hs : e.frozen.shape ≠ [])
    (hcdf : ev.cdf e.frozen (.arr (vec b)) = .ok ⟨e.frozen.shape ++ [b.length],
      nums ((List.range e.frozen.shape.prod).map fun i => b.map fun x => ∫ t in Iic x, f i t).flatten⟩)
    (h0 : ∀ i x, 0 ≤ f i x) (hi : ∀ i, Integrable (f i)) (h1 : ∀ i, ∫ t, f i t = 1)
    (hF0 : ∀ i a, b.head? = some a → ∫ t in Iic a, f i t = 0) (hF1 : ∀ i a, b.getLast? = some a → ∫ t in Iic a, f i t = 1) :
    ∃ (e' : Ens ℝ) (g : ℕ → ℝ → ℝ), convertTo (histPy ev) e none [("bins", .arr (vec b))] = .ok e' ∧
      (∀ x : List ℝ, x.Pairwise (· < ·) → ensEval histEval e'.frozen x
        = .ok ((List.range e.frozen.shape.prod).map fun i => x.map fun v => some (.ok (g i v)))) ∧
      (∀ i, (∀ x, 0 ≤ g i x) ∧ Integrable (g i) ∧ ∫ t, g i t = 1) ∧
      (∀ i (φ : ℝ → ℝ) (L : ℝ), (∀ x y, |φ x - φ y| ≤ L * |x - y|) →
        Integrable (fun t => φ t * g i t) ∧ Integrable (fun t => φ t * f i t) ∧ |(∫ t, φ t * g i t) - ∫ t, φ t * f i t| ≤ L * w) ∧
      ∀ i, |(∫ t, t * g i t) - ∫ t, t * f i t| ≤ w := by
  have hp := fun i => row_expect b w hw h2 hb (f i) (h0 i) (hi i) (h1 i) (hF0 i) (hF1 i)
  choose P hP1 hlen g hg hg0 hgi hg1 hgφ using hp
  refine ⟨_, g, hist_conversion ev e b h2 (fun i x => ∫ t in Iic x, f i t) hs hcdf P (fun i _ => hP1 i), ?_, fun i => ⟨hg0 i, hgi i, hg1 i⟩, hgφ, fun i => ?_⟩
  · intro x hx
    exact histPdf_at b x hx e.frozen.shape P g (fun i _ => hlen i) (fun i _ => hg i)
  · have := (hgφ i (fun t => t) 1 (by simp)).2.2
    rwa [one_mul] at this

/-! ## a case: two PDFs of a class known only through its `cdf`, uniform on the unit interval, in two bins -/

/-- the uniform density on the unit interval -/
noncomputable def box : ℝ → ℝ := (Ioc (0 : ℝ) 1).indicator 1

theorem box_upto (x : ℝ) (h0 : 0 ≤ x) (h1 : x ≤ 1) : ∫ t in Iic x, box t = x := by
  have he : Iic x ∩ Ioc (0 : ℝ) 1 = Ioc 0 x := by
    ext t
    simp only [mem_inter_iff, mem_Iic, mem_Ioc]
    exact ⟨fun h => ⟨h.2.1, h.1⟩, fun h => ⟨h.2, h.1, h.2.trans h1⟩⟩
  unfold box
  rw [setIntegral_indicator measurableSet_Ioc, he]
  simp [h0]

theorem box_int : Integrable box := by
  unfold box
  exact (integrable_indicator_iff measurableSet_Ioc).2 (integrableOn_const (by simp) (by simp))

theorem box_one : ∫ t, box t = 1 := by
  unfold box
  rw [integral_indicator measurableSet_Ioc]
  simp

example (fr : Frozen ℝ) (hfr : fr.shape = [2]) := C113_expectations
  ⟨fun _ _ => .error .Unmodelled, fun _ _ => .ok ⟨[2, 3], nums ((List.range 2).map fun _ => [0, 1/2, 1].map fun x => ∫ t in Iic x, box t).flatten⟩,
    fun _ _ => .error .Unmodelled⟩
  ⟨rowCreate histCls, rowCreate histCls, fr, none⟩ [0, 1/2, 1] (1/2) (by simp) (by norm_num)
  (by
    intro i u v hu hv
    match i with
    | 0 => simp at hu hv; subst hu hv; norm_num
    | 1 => simp at hu hv; subst hu hv; norm_num
    | i + 2 => simp at hv)
  (fun _ => box) (by simp [hfr]) (by simp [hfr]) (fun _ => indicator_nonneg fun _ _ => zero_le_one) (fun _ => box_int) (fun _ => box_one)
  (by rintro _ a ⟨⟩; exact box_upto 0 le_rfl zero_le_one) (by rintro _ a ⟨⟩; exact box_upto 1 zero_le_one le_rfl)

end Verif.Props.ConvertError
