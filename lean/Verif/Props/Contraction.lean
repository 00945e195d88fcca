import Verif.Props.FineConvert
import Verif.Props.Rebin
import Verif.Props.Dominance

/-!
# C148: putting PDFs into the same bins does not make them more different

Two PDFs, of any classes, are converted to histograms with the same equal bins. All the usual distances between the results are at most those between the originals.
Interpolated PDFs do not have this property.
-/

set_option linter.unusedSectionVars false
set_option autoImplicit false

namespace Verif.Props.Contraction

open Verif Verif.Np Verif.Model Verif.Spec Verif.Lemmas Verif.Lemmas.Riemann MeasureTheory Filter Set Topology
open Verif.Props.Convert Verif.Props.Bins Verif.Props.Hist Verif.Props.ConvertError Verif.Props.Metrics Verif.Props.FineGrid Verif.Props.FineConvert

/-! ### one PDF in equal bins -/

theorem row_cells (e : List ℝ) (w : ℝ) (hw : ∀ (i : ℕ) u v, e[i]? = some u → e[i + 1]? = some v → v - u = w) (h2 : 2 ≤ e.length) (hs : e.Pairwise (· < ·)) (F : ℝ → ℝ) (hF : Monotone F)
    (hF0 : ∀ a, e.head? = some a → F a = 0) (hF1 : ∀ z, e.getLast? = some z → F z = 1) :
    ∃ (p : List ℝ) (G g : ℝ → ℝ), converted e F = some p ∧ p.length = e.length - 1 ∧ (∀ x, histCdf e p x = some (G x)) ∧ (∀ x, histPdf e p x = .ok (g x)) ∧
      (∀ x, (∀ v ∈ e, x ≤ v) → G x = 0) ∧ (∀ x, (∀ v ∈ e, v ≤ x) → G x = 1) ∧ Monotone G ∧
      ∀ (j : ℕ) u v, e[j]? = some u → e[j + 1]? = some v → (∀ x ∈ Ico u v, g x = (F v - F u) / (v - u)) ∧ ∀ x ∈ Icc u v, G x = F u + (F v - F u) / (v - u) * (x - u) := by
  have hu : Uniform e := ⟨_, hw⟩
  obtain ⟨p, hp, hk⟩ := C57_equal_bins_partial e F h2 hs hu hF0 hF1
  have hpl : p.length = e.length - 1 := by
    rw [(histNormRow_idem e _ _ hp).2, Np.length_diff, List.length_map]
  have hd : (Np.diff (e.map F)).length = e.length - 1 := by rw [Np.length_diff, List.length_map]
  have hne : totalMass e (Np.diff (e.map F)) ≠ 0 := by
    intro h0
    rw [show converted e F = none from (C07_row_normalised e _).1 h0] at hp
    simp at hp
  obtain ⟨p', hp', h1, -, hpos⟩ := (C07_row_normalised e _).2 hne
  obtain rfl : p' = p := by rw [show converted e F = some p' from hp'] at hp; exact Option.some.inj hp
  have hlt : ∀ (i : ℕ) x y, e[i]? = some x → e[i + 1]? = some y → x < y := by
    intro i x y hx hy
    obtain ⟨hi, rfl⟩ := List.getElem?_eq_some_iff.1 hx
    obtain ⟨hj, rfl⟩ := List.getElem?_eq_some_iff.1 hy
    exact List.pairwise_iff_getElem.1 hs _ _ hi hj (by omega)
  have hg' : Grid e p'.length := ⟨hs, by omega, by omega⟩
  have hp0 := hpos hs (Rebin.diff_nonneg F hF e hs)
  obtain ⟨hl, hr, hmono⟩ := C08_cdf_shape e p' hg' h1 hp0
  have hG : ∀ x, ∃ y, histCdf e p' x = some y := fun x => by
    obtain ⟨y, -, hy, -⟩ := hmono x x le_rfl
    exact ⟨y, hy⟩
  choose G hG1 using hG
  have hmw : totalMass e (Np.diff (e.map F)) = w := by
    rw [meanWidth_uniform e _ hw _ hd]
    match e, h2 with
    | c :: t, _ =>
      obtain ⟨z, hz⟩ : ∃ z, (c :: t).getLast? = some z := ⟨_, List.getLast?_eq_getLast_of_ne_nil (by simp)⟩
      rw [sum_diff ((c :: t).map F) (F c) (F z) (by rfl) (by rw [List.getLast?_map, hz]; rfl), hF0 c rfl, hF1 z hz]
      ring
  have hpdf := EndToEnd.hist_left e p' hg' hu
  obtain ⟨hgi, -, hgc⟩ := RealIntegral.C08_lebesgue e p' hg' (Or.inl hu) h1 _ hpdf
  have hcell : ∀ (j : ℕ) u v, e[j]? = some u → e[j + 1]? = some v → ∀ x ∈ Ico u v, stepLeft e p' x = (F v - F u) / (v - u) := by
    intro j u v hju hjv x hx
    have hrow : (Np.diff (e.map F))[j]? = some (F v - F u) := (diff_getElem? _ j _).2 ⟨F u, F v, by rw [List.getElem?_map, hju]; rfl, by rw [List.getElem?_map, hjv]; rfl, rfl⟩
    refine EndToEnd.stepLeft_in e p' x j u v _ hs hju hjv ?_ hx.1 hx.2
    have hpe : p' = (Np.diff (e.map F)).map (· / totalMass e (Np.diff (e.map F))) := by
      have := hp
      unfold converted histNormRow at this
      split at this
      · simp at this
      · rw [Lemmas.Hist.histSum_eq] at this; exact (Option.some.inj this).symm
    rw [hpe, List.getElem?_map, hrow, hmw, hw j u v hju hjv]
    rfl
  refine ⟨p', G, stepLeft e p', hp, hpl, hG1, hpdf, ?_, ?_, ?_, fun j u v hju hjv => ⟨hcell j u v hju hjv, ?_⟩⟩
  · intro x hx
    have := hl x hx
    rw [hG1] at this
    exact Option.some.inj this
  · intro x hx
    have := hr x hx
    rw [hG1] at this
    exact Option.some.inj this
  · intro x y hxy
    obtain ⟨y1, y2, e1, e2, -, e3, -⟩ := hmono x y hxy
    rw [hG1] at e1 e2
    rw [Option.some.inj e1, Option.some.inj e2]
    exact e3
  · intro x hx
    have e1 := hgc x
    have e2 := hgc u
    rw [hG1] at e1
    rw [hk u (List.mem_of_getElem? hju)] at e2
    have e3 := intervalIntegral.integral_Iic_sub_Iic (a := u) (b := x) hgi.integrableOn hgi.integrableOn
    rw [← Option.some.inj e1, ← Option.some.inj e2] at e3
    have e4 : ∫ t in u..x, stepLeft e p' t = ∫ _ in u..x, (F v - F u) / (v - u) := by
      apply intervalIntegral.integral_congr_ae
      have : ∀ᵐ t : ℝ, t ≠ x := by simp [ae_iff]
      filter_upwards [this] with t ht htx
      rw [uIoc_of_le hx.1] at htx
      exact hcell j u v hju hjv t ⟨htx.1.le, (lt_of_le_of_ne htx.2 ht).trans_le hx.2⟩
    rw [e4, intervalIntegral.integral_const, smul_eq_mul] at e3
    linarith

/-! ### a mean value is no more convex than what it is the mean of -/

theorem cell_jensen (φ : ℝ → ℝ → ℝ) (f k : ℝ → ℝ) (u v p q : ℝ) (huv : u < v) (hf : IntervalIntegrable f volume u v) (hk : IntervalIntegrable k volume u v)
    (hφ : IntervalIntegrable (fun t => φ (f t) (k t)) volume u v) (hp : p * (v - u) = ∫ t in u..v, f t) (hq : q * (v - u) = ∫ t in u..v, k t) (α β : ℝ)
    (hs : ∀ t ∈ Ioo u v, φ p q + α * (f t - p) + β * (k t - q) ≤ φ (f t) (k t)) : φ p q * (v - u) ≤ ∫ t in u..v, φ (f t) (k t) := by
  have h1 : IntervalIntegrable (fun t => α * (f t - p)) volume u v := (hf.sub intervalIntegrable_const).const_mul α
  have h2 : IntervalIntegrable (fun t => β * (k t - q)) volume u v := (hk.sub intervalIntegrable_const).const_mul β
  have h3 : IntervalIntegrable (fun t => φ p q + α * (f t - p)) volume u v := intervalIntegrable_const.add h1
  have := intervalIntegral.integral_mono_on_of_le_Ioo huv.le (h3.add h2) hφ hs
  refine le_trans (le_of_eq ?_) this
  rw [intervalIntegral.integral_add h3 h2, intervalIntegral.integral_add intervalIntegrable_const h1, intervalIntegral.integral_const_mul, intervalIntegral.integral_const_mul,
    intervalIntegral.integral_sub hf intervalIntegrable_const, intervalIntegral.integral_sub hk intervalIntegrable_const]
  simp only [intervalIntegral.integral_const, smul_eq_mul]
  rw [← hp, ← hq]
  ring

/-- all bins: `φ` has a supporting plane at the two bin contents -/
theorem bins_jensen (φ : ℝ → ℝ → ℝ) (f k g g' : ℝ → ℝ) (hf : Integrable f) (hk : Integrable k) : ∀ (b : List ℝ) (a z : ℝ), b.Pairwise (· < ·) →
    b.head? = some a → b.getLast? = some z → IntervalIntegrable (fun t => φ (f t) (k t)) volume a z →
    (∀ (i : ℕ) u v, b[i]? = some u → b[i + 1]? = some v → ∃ p q α β, (∀ t ∈ Ico u v, g t = p ∧ g' t = q) ∧ p * (v - u) = ∫ t in u..v, f t ∧ q * (v - u) = ∫ t in u..v, k t ∧
      ∀ t ∈ Ioo u v, φ p q + α * (f t - p) + β * (k t - q) ≤ φ (f t) (k t)) →
    IntervalIntegrable (fun t => φ (g t) (g' t)) volume a z ∧ ∫ t in a..z, φ (g t) (g' t) ≤ ∫ t in a..z, φ (f t) (k t) := by
  intro b
  induction b with
  | nil => intro a z _ h; simp at h
  | cons c t ih =>
    intro a z hs ha hz hφ hcell
    obtain rfl : c = a := by simpa using ha
    match t with
    | [] =>
      obtain rfl : c = z := by simpa using hz
      simp
    | d :: t =>
      have hcd : c < d := (List.pairwise_cons.1 hs).1 d (by simp)
      have hs' := (List.pairwise_cons.1 hs).2
      have hz' : (d :: t).getLast? = some z := by simpa using hz
      have hdz : d ≤ z := Dominance.head_le_last hs' rfl hz'
      have hφ1 : IntervalIntegrable (fun t => φ (f t) (k t)) volume c d := hφ.mono_set (by rw [uIcc_of_le hcd.le, uIcc_of_le (hcd.le.trans hdz)]; exact Icc_subset_Icc_right hdz)
      have hφ2 : IntervalIntegrable (fun t => φ (f t) (k t)) volume d z := hφ.mono_set (by rw [uIcc_of_le hdz, uIcc_of_le (hcd.le.trans hdz)]; exact Icc_subset_Icc_left hcd.le)
      obtain ⟨i2, l2⟩ := ih d z hs' rfl hz' hφ2 fun i u v hu hv => hcell (i + 1) u v (by simpa using hu) (by simpa using hv)
      obtain ⟨p, q, α, β, hg, hp, hq, hsup⟩ := hcell 0 c d rfl rfl
      have hae : ∀ᵐ t : ℝ, t ∈ uIoc c d → φ (g t) (g' t) = φ p q := by
        have : ∀ᵐ t : ℝ, t ≠ d := by simp [ae_iff]
        filter_upwards [this] with t ht htx
        rw [uIoc_of_le hcd.le] at htx
        obtain ⟨e1, e2⟩ := hg t ⟨htx.1.le, lt_of_le_of_ne htx.2 ht⟩
        rw [e1, e2]
      have i1 : IntervalIntegrable (fun t => φ (g t) (g' t)) volume c d := by
        refine (intervalIntegrable_const (c := φ p q)).congr_ae ?_
        rw [Filter.EventuallyEq, ae_restrict_iff' measurableSet_uIoc]
        filter_upwards [hae] with t ht htx using (ht htx).symm
      refine ⟨i1.trans i2, ?_⟩
      rw [← intervalIntegral.integral_add_adjacent_intervals i1 i2, ← intervalIntegral.integral_add_adjacent_intervals hφ1 hφ2]
      refine add_le_add ?_ l2
      rw [intervalIntegral.integral_congr_ae hae, intervalIntegral.integral_const, smul_eq_mul, mul_comm]
      exact cell_jensen φ f k c d p q hcd hf.intervalIntegrable hk.intervalIntegrable hφ1 hp hq α β hsup

theorem support_abs (p q s t : ℝ) : |p - q| + SignType.sign (p - q) * (s - p) + -SignType.sign (p - q) * (t - q) ≤ |s - t| := by
  have h1 : (SignType.sign (p - q) : ℝ) * (p - q) = |p - q| := sign_mul_self _
  have h2 : (SignType.sign (p - q) : ℝ) * (s - t) ≤ |s - t| := by
    rcases lt_trichotomy (p - q) 0 with h | h | h
    · rw [sign_neg h]; simp only [SignType.coe_neg, SignType.coe_one]; linarith [neg_abs_le (s - t)]
    · rw [h, sign_zero]; simp
    · rw [sign_pos h]; simp only [SignType.coe_one]; linarith [le_abs_self (s - t)]
  linarith [h1, h2, show (SignType.sign (p - q) : ℝ) * (s - p) - SignType.sign (p - q) * (t - q) + SignType.sign (p - q) * (p - q) = SignType.sign (p - q) * (s - t) by ring]

theorem support_sq (p q s t : ℝ) : (p - q) ^ 2 + 2 * (p - q) * (s - p) + -(2 * (p - q)) * (t - q) ≤ (s - t) ^ 2 := by
  nlinarith [sq_nonneg ((s - t) - (p - q))]

theorem support_log {p q s t : ℝ} (hp : 0 < p) (hq : 0 < q) (hs : 0 < s) (ht : 0 < t) :
    p * (Real.log p - Real.log q) + (Real.log p - Real.log q + 1) * (s - p) + -(p / q) * (t - q) ≤ s * (Real.log s - Real.log t) := by
  have h := Real.log_le_sub_one_of_pos (show 0 < p * t / (q * s) by positivity)
  rw [Real.log_div (by positivity) (by positivity), Real.log_mul hp.ne' ht.ne', Real.log_mul hq.ne' hs.ne'] at h
  have h2 := mul_le_mul_of_nonneg_left h hs.le
  have h3 : s * (p * t / (q * s) - 1) = p / q * t - s := by field_simp
  have h4 : p / q * (t - q) = p / q * t - p := by field_simp
  rw [h3] at h2
  nlinarith

/-! ### ensembles -/

/-- the densities `f i` of an ensemble of any class: its `cdf` gives their integrals at increasing points; all their probability lies between the first and the last edge of `b` -/
structure Dens (ev : Evals ℝ) (e : Ens ℝ) (f : ℕ → ℝ → ℝ) (b : List ℝ) : Prop where
  shape : e.frozen.shape ≠ []
  cdf : ev.cdf e.frozen (.arr (vec b)) = .ok ⟨e.frozen.shape ++ [b.length], nums ((List.range e.frozen.shape.prod).map fun i => b.map fun x => ∫ t in Iic x, f i t).flatten⟩
  nonneg : ∀ i x, 0 ≤ f i x
  int : ∀ i, Integrable (f i)
  left : ∀ i a, b.head? = some a → ∫ t in Iic a, f i t = 0
  right : ∀ i z, b.getLast? = some z → ∫ t in Iic z, f i t = 1

/-- equal bins from `a` to `z` -/
structure Equal (b : List ℝ) (a z : ℝ) : Prop where
  strict : b.Pairwise (· < ·)
  two : 2 ≤ b.length
  first : b.head? = some a
  last : b.getLast? = some z
  width : ∃ w, ∀ (i : ℕ) u v, b[i]? = some u → b[i + 1]? = some v → v - u = w

/-- what the conversion of one ensemble gives, bin by bin -/
theorem ens_cells {ev : Evals ℝ} {e : Ens ℝ} {f : ℕ → ℝ → ℝ} {b : List ℝ} {a z : ℝ} (hb : Equal b a z) (d : Dens ev e f b) :
    ∃ (c : Ens ℝ) (G g : ℕ → ℝ → ℝ), convertTo (histPy ev) e none [("bins", .arr (vec b))] = .ok c ∧
      (∀ t : List ℝ, t.Pairwise (· < ·) → ensArr histCdfElem c.frozen (.arr (vec t))
        = .ok ⟨e.frozen.shape ++ [t.length], nums ((List.range e.frozen.shape.prod).map fun i => t.map (G i)).flatten⟩) ∧
      (∀ t : List ℝ, t.Pairwise (· < ·) → ensEval histEval c.frozen t
        = .ok ((List.range e.frozen.shape.prod).map fun i => t.map fun v => some (.ok (g i v)))) ∧
      (∀ i x, x ≤ a → G i x = 0) ∧ (∀ i x, z ≤ x → G i x = 1) ∧
      ∀ i (j : ℕ) u v, b[j]? = some u → b[j + 1]? = some v → u < v ∧ (∀ x ∈ Ico u v, g i x = (∫ t in u..v, f i t) / (v - u)) ∧
        ∀ x ∈ Icc u v, G i x = (∫ t in Iic u, f i t) + ((∫ t in Iic v, f i t) - ∫ t in Iic u, f i t) / (v - u) * (x - u) := by
  obtain ⟨w, hw⟩ := hb.width
  have hF : ∀ i, Monotone fun x => ∫ t in Iic x, f i t := fun i x y hxy =>
    setIntegral_mono_set (d.int i).integrableOn (Filter.Eventually.of_forall (d.nonneg i)) (Filter.Eventually.of_forall (Iic_subset_Iic.2 hxy))
  choose P G g hP hlen hG hg hl hr _hm hcell using fun i => row_cells b w hw hb.two hb.strict (fun x => ∫ t in Iic x, f i t) (hF i) (d.left i) (d.right i)
  refine ⟨_, G, g, hist_conversion ev e b hb.two _ d.shape d.cdf P fun i _ => hP i, ?_, ?_, ?_, ?_, ?_⟩
  · intro t ht
    exact histCdf_at b t ht _ P G (fun i _ => hlen i) fun i _ => hG i
  · intro t ht
    exact histPdf_at b t ht _ P g (fun i _ => hlen i) fun i _ => hg i
  · intro i x hx
    exact hl i x fun v hv => hx.trans (by
      obtain ⟨j, hj⟩ := List.mem_iff_getElem.1 hv
      have hne : b ≠ [] := List.ne_nil_of_mem hv
      obtain ⟨c, t, rfl⟩ := List.exists_cons_of_ne_nil hne
      obtain rfl : c = a := by simpa using hb.first
      rcases List.mem_cons.1 hv with rfl | h
      · exact le_rfl
      · exact ((List.pairwise_cons.1 hb.strict).1 v h).le)
  · intro i x hx
    refine hr i x fun v hv => le_trans ?_ hx
    have hne : b ≠ [] := List.ne_nil_of_mem hv
    have := hb.last
    rw [List.getLast?_eq_getLast_of_ne_nil hne] at this
    rw [← Option.some.inj this]
    exact Verif.Lemmas.InterpPdf.getLast_max hb.strict hne hv
  · intro i j u v hu hv
    have huv : u < v := by
      obtain ⟨hi, rfl⟩ := List.getElem?_eq_some_iff.1 hu
      obtain ⟨hj, rfl⟩ := List.getElem?_eq_some_iff.1 hv
      exact List.pairwise_iff_getElem.1 hb.strict _ _ hi hj (by omega)
    obtain ⟨h1, h2⟩ := hcell i j u v hu hv
    refine ⟨huv, ?_, h2⟩
    rw [← intervalIntegral.integral_Iic_sub_Iic (d.int i).integrableOn (d.int i).integrableOn]
    exact h1

/-- **C148.** Two ensembles of any classes, with all the probability of every PDF inside the same equal bins from `a` to `z`, are converted to histograms. Between any two of their PDFs
* the distributions functions differ nowhere by more than the originals do at the edges (Kolmogorov-Smirnov distance),
* the integral of the absolute difference of the densities (twice the total variation) does not grow,
* the integral of the squared difference does not grow, and
* for densities that are positive between the edges the Kullback-Leibler divergence does not grow. -/
theorem C148_hist {ev ev' : Evals ℝ} {e e' : Ens ℝ} {f k : ℕ → ℝ → ℝ} {b : List ℝ} {a z : ℝ} (hb : Equal b a z) (d : Dens ev e f b) (d' : Dens ev' e' k b) :
    ∃ (c c' : Ens ℝ) (G G' g g' : ℕ → ℝ → ℝ), convertTo (histPy ev) e none [("bins", .arr (vec b))] = .ok c ∧ convertTo (histPy ev') e' none [("bins", .arr (vec b))] = .ok c' ∧
      (∀ t : List ℝ, t.Pairwise (· < ·) → ensArr histCdfElem c.frozen (.arr (vec t))
        = .ok ⟨e.frozen.shape ++ [t.length], nums ((List.range e.frozen.shape.prod).map fun i => t.map (G i)).flatten⟩) ∧
      (∀ t : List ℝ, t.Pairwise (· < ·) → ensArr histCdfElem c'.frozen (.arr (vec t))
        = .ok ⟨e'.frozen.shape ++ [t.length], nums ((List.range e'.frozen.shape.prod).map fun i => t.map (G' i)).flatten⟩) ∧
      (∀ t : List ℝ, t.Pairwise (· < ·) → ensEval histEval c.frozen t
        = .ok ((List.range e.frozen.shape.prod).map fun i => t.map fun v => some (.ok (g i v)))) ∧
      (∀ t : List ℝ, t.Pairwise (· < ·) → ensEval histEval c'.frozen t
        = .ok ((List.range e'.frozen.shape.prod).map fun i => t.map fun v => some (.ok (g' i v)))) ∧
      ∀ i j,
        (∀ D, (∀ x ∈ b, |(∫ t in Iic x, f i t) - ∫ t in Iic x, k j t| ≤ D) → ∀ x, |G i x - G' j x| ≤ D) ∧
        (∫ t in a..z, |g i t - g' j t| ≤ ∫ t in a..z, |f i t - k j t|) ∧
        (IntervalIntegrable (fun t => (f i t - k j t) ^ 2) volume a z → ∫ t in a..z, (g i t - g' j t) ^ 2 ≤ ∫ t in a..z, (f i t - k j t) ^ 2) ∧
        ((∀ t ∈ Ioo a z, 0 < f i t ∧ 0 < k j t) → IntervalIntegrable (fun t => f i t * (Real.log (f i t) - Real.log (k j t))) volume a z →
          ∫ t in a..z, g i t * (Real.log (g i t) - Real.log (g' j t)) ≤ ∫ t in a..z, f i t * (Real.log (f i t) - Real.log (k j t))) := by
  obtain ⟨c, G, g, h1, h2, h3, h4, h5, h6⟩ := ens_cells hb d
  obtain ⟨c', G', g', h1', h2', h3', h4', h5', h6'⟩ := ens_cells hb d'
  refine ⟨c, c', G, G', g, g', h1, h1', h2, h2', h3, h3', fun i j => ⟨?_, ?_, ?_, ?_⟩⟩
  · intro D hD x
    have hD0 : 0 ≤ D := (abs_nonneg _).trans (hD a (List.mem_of_mem_head? hb.first))
    by_cases hxa : x ≤ a
    · rw [h4 i x hxa, h4' j x hxa]; simpa using hD0
    by_cases hxz : z ≤ x
    · rw [h5 i x hxz, h5' j x hxz]; simpa using hD0
    obtain ⟨n, u, v, hu, hv, hux, hxv⟩ := bracket b x a z hb.first hb.last (not_le.1 hxa).le (not_le.1 hxz)
    obtain ⟨huv, -, e1⟩ := h6 i n u v hu hv
    obtain ⟨-, -, e2⟩ := h6' j n u v hu hv
    rw [e1 x ⟨hux, hxv.le⟩, e2 x ⟨hux, hxv.le⟩]
    have du := abs_le.1 (hD u (List.mem_of_getElem? hu))
    have dv := abs_le.1 (hD v (List.mem_of_getElem? hv))
    set A := ∫ t in Iic u, f i t
    set B := ∫ t in Iic v, f i t
    set A' := ∫ t in Iic u, k j t
    set B' := ∫ t in Iic v, k j t
    set r := (x - u) / (v - u) with hr
    have hr0 : 0 ≤ r := div_nonneg (by linarith) (by linarith)
    have hr1 : r ≤ 1 := (div_le_one (by linarith)).2 (by linarith)
    rw [show A + (B - A) / (v - u) * (x - u) - (A' + (B' - A') / (v - u) * (x - u)) = (1 - r) * (A - A') + r * (B - B') by rw [hr]; ring, abs_le]
    constructor <;> nlinarith
  all_goals
    have cells : ∀ (n : ℕ) u v, b[n]? = some u → b[n + 1]? = some v → u < v ∧ (∀ t ∈ Ico u v, g i t = (∫ t in u..v, f i t) / (v - u) ∧ g' j t = (∫ t in u..v, k j t) / (v - u)) ∧
        (∫ t in u..v, f i t) / (v - u) * (v - u) = ∫ t in u..v, f i t ∧ (∫ t in u..v, k j t) / (v - u) * (v - u) = ∫ t in u..v, k j t := by
      intro n u v hu hv
      obtain ⟨huv, e1, -⟩ := h6 i n u v hu hv
      obtain ⟨-, e2, -⟩ := h6' j n u v hu hv
      have : v - u ≠ 0 := by linarith
      exact ⟨huv, fun t ht => ⟨e1 t ht, e2 t ht⟩, div_mul_cancel₀ _ this, div_mul_cancel₀ _ this⟩
  · refine (bins_jensen (fun s t => |s - t|) (f i) (k j) (g i) (g' j) (d.int i) (d'.int j) b a z hb.strict hb.first hb.last
      ((d.int i).sub (d'.int j)).intervalIntegrable.abs fun n u v hu hv => ?_).2
    obtain ⟨huv, e1, e2, e3⟩ := cells n u v hu hv
    exact ⟨_, _, _, _, e1, e2, e3, fun t _ => support_abs _ _ _ _⟩
  · intro hi
    refine (bins_jensen (fun s t => (s - t) ^ 2) (f i) (k j) (g i) (g' j) (d.int i) (d'.int j) b a z hb.strict hb.first hb.last hi fun n u v hu hv => ?_).2
    obtain ⟨huv, e1, e2, e3⟩ := cells n u v hu hv
    exact ⟨_, _, _, _, e1, e2, e3, fun t _ => support_sq _ _ _ _⟩
  · intro hpos hi
    refine (bins_jensen (fun s t => s * (Real.log s - Real.log t)) (f i) (k j) (g i) (g' j) (d.int i) (d'.int j) b a z hb.strict hb.first hb.last hi fun n u v hu hv => ?_).2
    obtain ⟨huv, e1, e2, e3⟩ := cells n u v hu hv
    have hsub : ∀ t ∈ Ioo u v, t ∈ Ioo a z := by
      intro t ht
      have hua : a ≤ u := by
        by_contra hc
        have := d.left i a hb.first
        have hne : b ≠ [] := List.ne_nil_of_mem (List.mem_of_getElem? hu)
        obtain ⟨c0, t0, rfl⟩ := List.exists_cons_of_ne_nil hne
        obtain rfl : c0 = a := by simpa using hb.first
        rcases List.mem_cons.1 (List.mem_of_getElem? hu) with rfl | h
        · exact hc le_rfl
        · exact hc ((List.pairwise_cons.1 hb.strict).1 u h).le
      have hvz : v ≤ z := by
        have hne : b ≠ [] := List.ne_nil_of_mem (List.mem_of_getElem? hu)
        have := hb.last
        rw [List.getLast?_eq_getLast_of_ne_nil hne] at this
        rw [← Option.some.inj this]
        exact Verif.Lemmas.InterpPdf.getLast_max hb.strict hne (List.mem_of_getElem? hv)
      exact ⟨hua.trans_lt ht.1, ht.2.trans_le hvz⟩
    have p1 : 0 < (∫ t in u..v, f i t) / (v - u) :=
      div_pos (intervalIntegral.intervalIntegral_pos_of_pos_on (d.int i).intervalIntegrable (fun t ht => (hpos t (hsub t ht)).1) huv) (by linarith)
    have p2 : 0 < (∫ t in u..v, k j t) / (v - u) :=
      div_pos (intervalIntegral.intervalIntegral_pos_of_pos_on (d'.int j).intervalIntegrable (fun t ht => (hpos t (hsub t ht)).2) huv) (by linarith)
    exact ⟨_, _, _, _, e1, e2, e3, fun t ht => support_log p1 p2 (hpos t (hsub t ht)).1 (hpos t (hsub t ht)).2⟩

/-! ### in terms of the metric -/

/-- a function that is constant in every bin is bounded, and continuous away from the edges -/
theorem tame_cells {b : List ℝ} {a z : ℝ} (hb : Equal b a z) {g : ℝ → ℝ} (hc : ∀ (j : ℕ) u v, b[j]? = some u → b[j + 1]? = some v → ∃ c, ∀ x ∈ Ico u v, g x = c) : Tame a z g where
  bound := by
    refine ⟨(b.map fun x => |g x|).sum, fun x hx => ?_⟩
    have hmem : ∀ y ∈ b, |g y| ≤ (b.map fun x => |g x|).sum := fun y hy =>
      List.single_le_sum (fun v hv => by obtain ⟨w, -, rfl⟩ := List.mem_map.1 hv; exact abs_nonneg _) _ (List.mem_map.2 ⟨y, hy, rfl⟩)
    rcases hx.2.lt_or_eq with hxz | rfl
    · obtain ⟨n, u, v, hu, hv, hux, hxv⟩ := bracket b x a z hb.first hb.last hx.1 hxz
      obtain ⟨c, hcx⟩ := hc n u v hu hv
      rw [hcx x ⟨hux, hxv⟩, ← hcx u ⟨le_rfl, hux.trans_lt hxv⟩]
      exact hmem u (List.mem_of_getElem? hu)
    · exact hmem x (List.mem_of_mem_getLast? hb.last)
  cont := by
    have hfin : ({x | x ∈ b} : Set ℝ).Finite := b.finite_toSet
    have : ∀ᵐ x : ℝ, x ∉ ({x | x ∈ b} : Set ℝ) := by
      rw [ae_iff]
      simpa using hfin.measure_zero volume
    filter_upwards [this] with x hxb hx
    obtain ⟨n, u, v, hu, hv, hux, hxv⟩ := bracket b x a z hb.first hb.last hx.1.le hx.2
    obtain ⟨c, hcx⟩ := hc n u v hu hv
    have hux : u < x := lt_of_le_of_ne hux (by rintro rfl; exact hxb (List.mem_of_getElem? hu))
    refine (continuousAt_const (y := c)).congr ?_
    filter_upwards [Ioo_mem_nhds hux hxv] with y hy using (hcx y ⟨hy.1.le, hy.2⟩).symm

/-- **C148, root mean square errors.** `calculate_rmse` between the edges, on finer and finer grids: the limit for the two converted ensembles is at most the limit for the originals, PDF by PDF. -/
theorem C148_rmse {ev ev' : Evals ℝ} {e e' : Ens ℝ} {f k : ℕ → ℝ → ℝ} {b : List ℝ} {a z : ℝ} (hb : Equal b a z) (haz : a < z) (d : Dens ev e f b) (d' : Dens ev' e' k b)
    (hs : e.frozen.shape = e'.frozen.shape) (hf : ∀ i, Tame a z (f i)) (hk : ∀ i, Tame a z (k i)) :
    ∃ (c c' : Ens ℝ) (g g' : ℕ → ℝ → ℝ) (M m : ℝ → List ℝ),
      convertTo (histPy ev) e none [("bins", .arr (vec b))] = .ok c ∧ convertTo (histPy ev') e' none [("bins", .arr (vec b))] = .ok c' ∧
      (∀ t : List ℝ, t.Pairwise (· < ·) → ensEval histEval c.frozen t
        = .ok ((List.range e.frozen.shape.prod).map fun i => t.map fun v => some (.ok (g i v)))) ∧
      (∀ t : List ℝ, t.Pairwise (· < ·) → ensEval histEval c'.frozen t
        = .ok ((List.range e'.frozen.shape.prod).map fun i => t.map fun v => some (.ok (g' i v)))) ∧
      (∀ᶠ dx in 𝓝[>] 0, calculateRmse ⟨e.frozen.shape, (List.range e.frozen.shape.prod).map f⟩ ⟨e'.frozen.shape, (List.range e'.frozen.shape.prod).map k⟩ a z dx = .ok (M dx)) ∧
      (∀ᶠ dx in 𝓝[>] 0, calculateRmse ⟨e.frozen.shape, (List.range e.frozen.shape.prod).map g⟩ ⟨e'.frozen.shape, (List.range e'.frozen.shape.prod).map g'⟩ a z dx = .ok (m dx)) ∧
      ∀ i < e.frozen.shape.prod, ∃ l L, Tendsto (fun dx => (m dx).getD i 0) (𝓝[>] 0) (𝓝 l) ∧ Tendsto (fun dx => (M dx).getD i 0) (𝓝[>] 0) (𝓝 L) ∧ l ≤ L := by
  obtain ⟨c, G, g, h1, h2, h3, h4, h5, h6⟩ := ens_cells hb d
  obtain ⟨c', G', g', h1', h2', h3', h4', h5', h6'⟩ := ens_cells hb d'
  have hg : ∀ i, Tame a z (g i) := fun i => tame_cells hb fun j u v hu hv => ⟨_, (h6 i j u v hu hv).2.1⟩
  have hg' : ∀ i, Tame a z (g' i) := fun i => tame_cells hb fun j u v hu hv => ⟨_, (h6' i j u v hu hv).2.1⟩
  obtain ⟨M, hM1, hM2⟩ := C146_rmse ⟨e.frozen.shape, (List.range e.frozen.shape.prod).map f⟩ ⟨e'.frozen.shape, (List.range e'.frozen.shape.prod).map k⟩ hs a z haz
    (by intro F hF; obtain ⟨i, -, rfl⟩ := List.mem_map.1 hF; exact hf i) (by intro F hF; obtain ⟨i, -, rfl⟩ := List.mem_map.1 hF; exact hk i)
  obtain ⟨m, hm1, hm2⟩ := C146_rmse ⟨e.frozen.shape, (List.range e.frozen.shape.prod).map g⟩ ⟨e'.frozen.shape, (List.range e'.frozen.shape.prod).map g'⟩ hs a z haz
    (by intro F hF; obtain ⟨i, -, rfl⟩ := List.mem_map.1 hF; exact hg i) (by intro F hF; obtain ⟨i, -, rfl⟩ := List.mem_map.1 hF; exact hg' i)
  refine ⟨c, c', g, g', M, m, h1, h1', h3, h3', hM1, hm1, fun i hi => ⟨_, _, hm2 i (g i) (g' i) ?_ ?_, hM2 i (f i) (k i) ?_ ?_, ?_⟩⟩
  · simp [List.getElem?_range hi]
  · simp [List.getElem?_range (hs ▸ hi)]
  · simp [List.getElem?_range hi]
  · simp [List.getElem?_range (hs ▸ hi)]
  · apply Real.sqrt_le_sqrt
    refine div_le_div_of_nonneg_right ?_ (sub_pos.2 haz).le
    have hint : IntervalIntegrable (fun t => (f i t - k i t) ^ 2) volume a z := by
      rw [intervalIntegrable_iff_integrableOn_Ioc_of_le haz.le]
      obtain ⟨B, hB⟩ := ((hf i).map2 (hk i) (fun p => (p.1 - p.2) ^ 2) (by fun_prop)).bound
      refine Measure.integrableOn_of_bounded (M := B) (by simp) (((d.int i).sub (d'.int i)).aestronglyMeasurable.pow 2) ?_
      rw [ae_restrict_iff' measurableSet_Ioc]
      exact Eventually.of_forall fun x hx => hB x ⟨hx.1.le, hx.2⟩
    refine (bins_jensen (fun s t => (s - t) ^ 2) (f i) (k i) (g i) (g' i) (d.int i) (d'.int i) b a z hb.strict hb.first hb.last hint fun n u v hu hv => ?_).2
    obtain ⟨huv, e1, -⟩ := h6 i n u v hu hv
    obtain ⟨-, e2, -⟩ := h6' i n u v hu hv
    have : v - u ≠ 0 := by linarith
    exact ⟨_, _, _, _, fun t ht => ⟨e1 t ht, e2 t ht⟩, div_mul_cancel₀ _ this, div_mul_cancel₀ _ this, fun t _ => support_sq _ _ _ _⟩

/-! ### interpolated PDFs can move apart -/

/-- **C148, refuted for interpolated PDFs.** Two normalised PDFs on the grid 0, 1/2, 1, 3/2, 2 that nowhere differ by more than 1/10, put on the grid 0, 1, 2 that leaves out every other point:
the results differ by 1/6 at 0, although the originals agree there. -/
theorem C148_interp_larger : ∃ (xs ys ys' grid : List ℚ), area xs ys = 1 ∧ area xs ys' = 1 ∧ (∀ x, |brokenLine xs ys x - brokenLine xs ys' x| ≤ 1 / 10) ∧ brokenLine xs ys 0 = brokenLine xs ys' 0 ∧
    (∀ x ∈ grid, x ∈ xs) ∧ ∃ r r', interpNorm grid (grid.map (brokenLine xs ys)) = some r ∧ interpNorm grid (grid.map (brokenLine xs ys')) = some r' ∧
      interpPdf grid r 0 = some (1 / 2) ∧ interpPdf grid r' 0 = some (1 / 3) := by
  refine ⟨[0, 1/2, 1, 3/2, 2], [1/10, 9/10, 1/10, 9/10, 1/10], [1/10, 17/20, 2/10, 17/20, 1/10], [0, 1, 2], by decide +kernel, by decide +kernel, ?_, by decide +kernel, by decide +kernel,
    [1/2, 1/2, 1/2], [1/3, 2/3, 1/3], by decide +kernel, by decide +kernel, by decide +kernel, by decide +kernel⟩
  intro x
  simp only [brokenLine]
  split_ifs with h1 h2 h3 h4
  · rw [abs_le]; constructor <;> norm_num <;> linarith [h1.1, h1.2]
  · rw [abs_le]; constructor <;> norm_num <;> linarith [h2.1, h2.2]
  · rw [abs_le]; constructor <;> norm_num <;> linarith [h3.1, h3.2]
  · rw [abs_le]; constructor <;> norm_num <;> linarith [h4.1, h4.2]
  · norm_num

/-! ## a case: the uniform density on the unit interval and one that rises linearly, in two bins -/

theorem two_equal : Equal [0, 1/2, 1] 0 1 := ⟨by norm_num, by simp, rfl, rfl, 1/2, fun i u v hu hv => by
  match i with
  | 0 => simp at hu hv; subst hu hv; norm_num
  | 1 => simp at hu hv; subst hu hv; norm_num
  | i + 2 => simp at hv⟩

theorem box_dens (fr : Frozen ℝ) (hfr : fr.shape = [2]) : Dens
    ⟨fun _ _ => .error .Unmodelled, fun _ _ => .ok ⟨[2, 3], nums ((List.range 2).map fun _ => [0, 1/2, 1].map fun x => ∫ t in Iic x, box t).flatten⟩, fun _ _ => .error .Unmodelled⟩
    ⟨rowCreate histCls, rowCreate histCls, fr, none⟩ (fun _ => box) [0, 1/2, 1] where
  shape := by simp [hfr]
  cdf := by simp [hfr]
  nonneg := fun _ => indicator_nonneg fun _ _ => zero_le_one
  int := fun _ => box_int
  left := by rintro _ a ⟨⟩; exact box_upto 0 le_rfl zero_le_one
  right := by rintro _ a ⟨⟩; exact box_upto 1 zero_le_one le_rfl

/-- a density that rises linearly from 0 to 2 on the unit interval -/
noncomputable def wedge : ℝ → ℝ := (Ioc (0 : ℝ) 1).indicator fun x => 2 * x

theorem wedge_int : Integrable wedge := by
  unfold wedge
  rw [integrable_indicator_iff measurableSet_Ioc]
  exact (Continuous.integrableOn_Icc (by fun_prop)).mono_set Ioc_subset_Icc_self

theorem wedge_upto (x : ℝ) (h0 : 0 ≤ x) (h1 : x ≤ 1) : ∫ t in Iic x, wedge t = x ^ 2 := by
  have he : Iic x ∩ Ioc (0 : ℝ) 1 = Ioc 0 x := by
    ext t
    simp only [mem_inter_iff, mem_Iic, mem_Ioc]
    exact ⟨fun h => ⟨h.2.1, h.1⟩, fun h => ⟨h.2, h.1, h.2.trans h1⟩⟩
  unfold wedge
  rw [setIntegral_indicator measurableSet_Ioc, he, ← intervalIntegral.integral_of_le h0, intervalIntegral.integral_const_mul, integral_id]
  ring

theorem wedge_dens (fr : Frozen ℝ) (hfr : fr.shape = [2]) : Dens
    ⟨fun _ _ => .error .Unmodelled, fun _ _ => .ok ⟨[2, 3], nums ((List.range 2).map fun _ => [0, 1/2, 1].map fun x => ∫ t in Iic x, wedge t).flatten⟩, fun _ _ => .error .Unmodelled⟩
    ⟨rowCreate histCls, rowCreate histCls, fr, none⟩ (fun _ => wedge) [0, 1/2, 1] where
  shape := by simp [hfr]
  cdf := by simp [hfr]
  nonneg := fun _ => indicator_nonneg fun t ht => by linarith [ht.1]
  int := fun _ => wedge_int
  left := by rintro _ a ⟨⟩; rw [wedge_upto 0 le_rfl zero_le_one]; norm_num
  right := by rintro _ a ⟨⟩; exact (wedge_upto 1 zero_le_one le_rfl).trans (by norm_num)

example (fr : Frozen ℝ) (hfr : fr.shape = [2]) := C148_hist two_equal (box_dens fr hfr) (wedge_dens fr hfr)

theorem tame_indicator {h : ℝ → ℝ} (hc : Continuous h) : Tame 0 1 ((Ioc (0 : ℝ) 1).indicator h) where
  bound := by
    obtain ⟨B, hB⟩ := (tame_of_continuous (a := 0) (b := 1) hc).bound
    refine ⟨B, fun x hx => le_trans ?_ (hB x hx)⟩
    by_cases hm : x ∈ Ioc (0 : ℝ) 1
    · rw [indicator_of_mem hm]
    · rw [indicator_of_notMem hm, abs_zero]; exact abs_nonneg _
  cont := Eventually.of_forall fun x hx => hc.continuousAt.congr (by
    filter_upwards [Ioo_mem_nhds hx.1 hx.2] with y hy using (indicator_of_mem (show y ∈ Ioc (0 : ℝ) 1 from ⟨hy.1, hy.2.le⟩) h).symm)

example (fr : Frozen ℝ) (hfr : fr.shape = [2]) := C148_rmse two_equal zero_lt_one (box_dens fr hfr) (wedge_dens fr hfr) rfl
  (fun _ => tame_indicator continuous_one) (fun _ => tame_indicator (by fun_prop))

end Verif.Props.Contraction
