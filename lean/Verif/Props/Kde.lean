import Verif.Model.Kde
import Verif.Props.MixReal
import Verif.Props.Spline
import Verif.Lemmas.Dict

/-!
# C91: spline PDFs from samples
-/

set_option linter.unusedSectionVars false
set_option autoImplicit false

namespace Verif.Props.Kde

open Verif Verif.Np Verif.Model Verif.Lemmas Verif.Lemmas.Gauss Verif.Props.Variance Verif.Props.MixReal Verif.Props.Spline MeasureTheory Set

theorem np_sum (l : List ℝ) : Np.sum l = l.sum := by
  induction l with
  | nil => rfl
  | cons a l ih => simp [Np.sum] at ih ⊢; rw [ih]

theorem sq_sum_zero (l : List ℝ) (f : ℝ → ℝ) : (l.map fun v => (f v) ^ 2).sum = 0 ↔ ∀ v ∈ l, f v = 0 := by
  induction l with
  | nil => simp
  | cons a l ih =>
    have h1 : 0 ≤ (l.map fun v => (f v) ^ 2).sum := List.sum_nonneg (by simp only [List.mem_map]; rintro _ ⟨v, -, rfl⟩; positivity)
    simp only [List.map_cons, List.sum_cons, List.mem_cons, forall_eq_or_imp]
    rw [← ih]
    constructor
    · intro h
      have := sq_nonneg (f a)
      exact ⟨by nlinarith [pow_eq_zero_iff (two_ne_zero) |>.1 (by linarith : (f a) ^ 2 = 0)], by linarith⟩
    · rintro ⟨h2, h3⟩; rw [h2, h3]; norm_num

theorem sampleVar_nonneg (s : List ℝ) (h : 1 ≤ s.length) : 0 ≤ sampleVar s := by
  unfold sampleVar
  rw [np_sum]
  apply div_nonneg
  · exact List.sum_nonneg (by simp only [List.mem_map]; rintro _ ⟨v, -, rfl⟩; positivity)
  · have : (1 : ℝ) ≤ s.length := by exact_mod_cast h
    linarith

theorem const_mean (s : List ℝ) (c : ℝ) (h0 : s ≠ []) (h : ∀ v ∈ s, v = c) : sampleMean s = c := by
  have hl : (s.length : ℝ) ≠ 0 := by exact_mod_cast (List.length_pos_of_ne_nil h0).ne'
  have : s = List.replicate s.length c := List.eq_replicate_iff.2 ⟨rfl, h⟩
  unfold sampleMean
  rw [np_sum]
  conv_lhs => rw [this]
  simp only [List.sum_replicate, List.length_replicate, nsmul_eq_mul]
  field_simp

theorem sampleVar_zero (s : List ℝ) (h : 2 ≤ s.length) : sampleVar s = 0 ↔ ∃ c, ∀ v ∈ s, v = c := by
  have hn : (s.length : ℝ) - 1 ≠ 0 := by
    have : (2 : ℝ) ≤ s.length := by exact_mod_cast h
    intro h'; linarith
  have h0 : s ≠ [] := by rintro rfl; simp at h
  unfold sampleVar
  rw [np_sum, div_eq_zero_iff, or_iff_left hn, sq_sum_zero]
  constructor
  · intro hv; exact ⟨sampleMean s, fun v hv' => by linarith [hv v hv']⟩
  · rintro ⟨c, hc⟩ v hv
    rw [const_mean s c h0 hc, hc v hv, sub_self]

/-- **C91, when an estimate exists**: exactly if two samples differ, otherwise a `ValueError`. -/
theorem C91_defined (s : List ℝ) : ((∃ f, buildKde s = .ok f) ↔ ∃ u ∈ s, ∃ v ∈ s, u ≠ v) ∧
    ((¬ ∃ u ∈ s, ∃ v ∈ s, u ≠ v) → buildKde s = .error .ValueError) := by
  have key : (∃ u ∈ s, ∃ v ∈ s, u ≠ v) ↔ ¬ s.length ≤ 1 ∧ sampleVar s ≠ 0 := by
    constructor
    · rintro ⟨u, hu, v, hv, huv⟩
      have hl : ¬ s.length ≤ 1 := by
        intro hl
        match s, hl with
        | [], _ => simp at hu
        | [a], _ => simp at hu hv; exact huv (hu.trans hv.symm)
      refine ⟨hl, fun hz => ?_⟩
      obtain ⟨c, hc⟩ := (sampleVar_zero s (by omega)).1 hz
      exact huv ((hc u hu).trans (hc v hv).symm)
    · rintro ⟨hl, hz⟩
      by_contra hne
      push Not at hne
      match s, hl with
      | [], hl => simp at hl
      | a :: t, hl => exact hz ((sampleVar_zero _ (by omega)).2 ⟨a, fun v hv => hne v hv a (by simp)⟩)
  rw [key]
  unfold buildKde
  refine ⟨⟨?_, ?_⟩, ?_⟩
  · rintro ⟨f, hf⟩
    split_ifs at hf with h1 h2
    exact ⟨h1, h2⟩
  · rintro ⟨h1, h2⟩
    rw [if_neg h1, if_neg h2]
    exact ⟨_, rfl⟩
  · intro h
    by_cases h1 : s.length ≤ 1
    · rw [if_pos h1]
    · rw [if_neg h1, if_pos (by by_contra h2; exact h ⟨h1, h2⟩)]

theorem buildKde_ok {s : List ℝ} {f : ℝ → ℝ} (h : buildKde s = .ok f) : 2 ≤ s.length ∧ sampleVar s ≠ 0 ∧ f = kdeEval s := by
  unfold buildKde at h
  split_ifs at h with h1 h2
  exact ⟨by omega, h2, (Except.ok.inj h).symm⟩

theorem kdeWidth_pos {s : List ℝ} (h : 2 ≤ s.length) (hv : sampleVar s ≠ 0) : 0 < kdeWidth s := by
  unfold kdeWidth
  apply mul_pos
  · apply Real.rpow_pos_of_pos
    exact_mod_cast (by omega : 0 < s.length)
  · exact Real.sqrt_pos.2 (lt_of_le_of_ne (sampleVar_nonneg s (by omega)) hv.symm)

theorem zip_const (s : List ℝ) (a b : ℝ) (f : ℝ → ℝ → ℝ) (n : ℕ) (h : s.length = n) :
    weighted (List.replicate n a) (List.zipWith f s (List.replicate n b)) = (s.map fun v => a * f v b).sum := by
  induction s generalizing n with
  | nil => subst h; simp [weighted]
  | cons v s ih =>
    subst h
    have := ih s.length rfl
    simp only [List.length_cons, List.replicate_succ, List.zipWith_cons_cons, weighted, List.sum_cons, List.map_cons] at *
    rw [this]

/-- the estimate is a mixture with one component per sample -/
theorem kde_mix (s : List ℝ) : kdeEval s = gmixPdf (List.replicate s.length (1 / (s.length : ℝ))) s (List.replicate s.length (kdeWidth s)) := by
  funext x
  unfold gmixPdf kdeEval
  rw [mixEval_weighted, map_zipWith, zip_const s _ _ (fun m σ => normPdf m σ x) _ rfl, np_sum]

theorem kde_mixok {s : List ℝ} (h : 2 ≤ s.length) (hv : sampleVar s ≠ 0) :
    MixOK (List.replicate s.length (1 / (s.length : ℝ))) s (List.replicate s.length (kdeWidth s)) := by
  have hn : (s.length : ℝ) ≠ 0 := by exact_mod_cast (by omega : s.length ≠ 0)
  refine ⟨by simp, by simp, ?_, ?_, ?_⟩
  · intro v hv; rw [List.eq_of_mem_replicate hv]; positivity
  · rw [List.sum_replicate, nsmul_eq_mul]; field_simp
  · intro v hv'; rw [List.eq_of_mem_replicate hv']; exact kdeWidth_pos h hv

theorem weighted_rep (s : List ℝ) (a : ℝ) : ∀ (n : ℕ), s.length = n → weighted (List.replicate n a) s = a * s.sum := by
  induction s with
  | nil => intro n h; subst h; simp [weighted]
  | cons v s ih =>
    intro n h
    subst h
    have := ih s.length rfl
    simp only [weighted, List.length_cons, List.replicate_succ, List.zipWith_cons_cons, List.sum_cons] at *
    rw [this]; ring

theorem var_sum (s : List ℝ) (m : ℝ) : (s.map fun v => (v - m) ^ 2).sum = (s.map fun v => v ^ 2).sum - 2 * m * s.sum + s.length * m ^ 2 := by
  induction s with
  | nil => simp
  | cons a s ih => simp only [List.map_cons, List.sum_cons, List.length_cons, ih]; push_cast; ring

theorem kdeWidth_sq {s : List ℝ} (h : 2 ≤ s.length) :
    kdeWidth s ^ 2 = (s.length : ℝ) ^ (-(2 / 5) : ℝ) * ((s.map fun v => (v - s.sum / s.length) ^ 2).sum / (s.length - 1)) := by
  have e : ((s.length : ℝ) ^ (-(1 / 5 : ℝ))) ^ 2 = (s.length : ℝ) ^ (-(2 / 5) : ℝ) := by
    rw [← Real.rpow_natCast, ← Real.rpow_mul (by positivity)]
    norm_num
  unfold kdeWidth
  rw [mul_pow, Real.sq_sqrt (sampleVar_nonneg s (by omega)), e]
  rfl

/-- **C91, the estimate is a density** with the mean of the `n` samples; its variance is the mean squared deviation of the samples plus the squared width of
the kernel, which is `n ^ (-2/5)` (Scott's rule) times the unbiased variance of the samples. -/
theorem C91_density (s : List ℝ) (f : ℝ → ℝ) (h : buildKde s = .ok f) :
    (∀ x, 0 < f x) ∧ IsMeanVar f (s.sum / s.length) ((s.map fun v => (v - s.sum / s.length) ^ 2).sum / s.length +
      (s.length : ℝ) ^ (-(2 / 5) : ℝ) * ((s.map fun v => (v - s.sum / s.length) ^ 2).sum / (s.length - 1))) := by
  obtain ⟨hn, hv, rfl⟩ := buildKde_ok h
  rw [← kdeWidth_sq hn]
  have hok := kde_mixok hn hv
  have hl : (s.length : ℝ) ≠ 0 := by exact_mod_cast (by omega : s.length ≠ 0)
  rw [kde_mix]
  refine ⟨(C90_density _ _ _ hok).1, ?_⟩
  have := C90_moments _ _ _ hok
  rw [zip_const s _ _ (fun m σ => σ ^ 2 + m ^ 2) _ rfl, weighted_rep s _ _ rfl] at this
  convert this using 1
  · field_simp
  · rw [var_sum]
    have e : ∀ l : List ℝ, (l.map fun v => 1 / (s.length : ℝ) * (kdeWidth s ^ 2 + v ^ 2)).sum =
        1 / (s.length : ℝ) * (l.length * kdeWidth s ^ 2 + (l.map fun v => v ^ 2).sum) := by
      intro l
      induction l with
      | nil => simp
      | cons a l ih => simp only [List.map_cons, List.sum_cons, List.length_cons, ih]; push_cast; ring
    rw [e]
    field_simp
    ring

theorem mean_perm {s s' : List ℝ} (h : s.Perm s') : sampleMean s = sampleMean s' := by
  unfold sampleMean; rw [np_sum, np_sum, h.sum_eq, h.length_eq]

theorem var_perm {s s' : List ℝ} (h : s.Perm s') : sampleVar s = sampleVar s' := by
  unfold sampleVar; rw [np_sum, np_sum, mean_perm h, (h.map _).sum_eq, h.length_eq]

/-- **C91, the order of the samples is irrelevant** -/
theorem C91_order (s s' : List ℝ) (h : s.Perm s') : buildKde s = buildKde s' := by
  have hw : kdeWidth s = kdeWidth s' := by unfold kdeWidth; rw [var_perm h, h.length_eq]
  have he : kdeEval s = kdeEval s' := by
    funext x
    unfold kdeEval
    rw [np_sum, np_sum, hw, h.length_eq, (h.map _).sum_eq]
  unfold buildKde
  rw [he, var_perm h, h.length_eq]

theorem sum_affine (a b : ℝ) (s : List ℝ) : (s.map fun v => a * v + b).sum = a * s.sum + s.length * b := by
  induction s with
  | nil => simp
  | cons v s ih => simp only [List.map_cons, List.sum_cons, List.length_cons, ih]; push_cast; ring

theorem mean_affine (a b : ℝ) (s : List ℝ) (hs : s ≠ []) : sampleMean (s.map fun v => a * v + b) = a * sampleMean s + b := by
  have hl : (s.length : ℝ) ≠ 0 := by exact_mod_cast (List.length_pos_of_ne_nil hs).ne'
  unfold sampleMean
  rw [np_sum, np_sum, sum_affine, List.length_map]
  field_simp

theorem var_affine (a b : ℝ) (s : List ℝ) (hs : s ≠ []) : sampleVar (s.map fun v => a * v + b) = a ^ 2 * sampleVar s := by
  unfold sampleVar
  rw [np_sum, np_sum, mean_affine a b s hs, List.map_map, List.length_map]
  rw [show ((fun v => (v - (a * sampleMean s + b)) ^ 2) ∘ fun v => a * v + b) = fun v => a ^ 2 * (v - sampleMean s) ^ 2 by funext v; simp only [Function.comp]; ring,
    List.sum_map_mul_left]
  ring

/-- **C91, units**: samples `a v + b` give the density of the rescaled and shifted variable. -/
theorem C91_units (s : List ℝ) (f : ℝ → ℝ) (h : buildKde s = .ok f) (a b : ℝ) (ha : a ≠ 0) :
    ∃ g, buildKde (s.map fun v => a * v + b) = .ok g ∧ ∀ x, g (a * x + b) = f x / |a| := by
  obtain ⟨hn, hv, rfl⟩ := buildKde_ok h
  have hs : s ≠ [] := by rintro rfl; simp at hn
  have hv' : sampleVar (s.map fun v => a * v + b) ≠ 0 := by rw [var_affine a b s hs]; exact mul_ne_zero (pow_ne_zero 2 ha) hv
  refine ⟨kdeEval (s.map fun v => a * v + b), ?_, fun x => ?_⟩
  · unfold buildKde
    rw [if_neg (by rw [List.length_map]; omega), if_neg hv']
  · have hw : kdeWidth (s.map fun v => a * v + b) = |a| * kdeWidth s := by
      unfold kdeWidth
      rw [var_affine a b s hs, List.length_map, Real.sqrt_mul (sq_nonneg a), Real.sqrt_sq_eq_abs]
      ring
    have hp := kdeWidth_pos hn hv
    have ha' : 0 < |a| := abs_pos.2 ha
    unfold kdeEval
    rw [np_sum, np_sum, hw, List.map_map, List.length_map, div_eq_mul_inv (List.sum _) |a|, ← List.sum_map_mul_right]
    congr 1
    apply List.map_congr_left
    intro v _
    simp only [Function.comp, normPdf]
    have hz : ((a * x + b - (a * v + b)) / (|a| * kdeWidth s)) ^ 2 = ((x - v) / kdeWidth s) ^ 2 := by
      rw [show a * x + b - (a * v + b) = a * (x - v) by ring, div_pow, div_pow, mul_pow, mul_pow, sq_abs]
      field_simp
    rw [neg_eq_neg_one_mul, hz, ← neg_eq_neg_one_mul]
    field_simp

/-- **C91, ensembles**: the construction succeeds exactly if there are samples and abscissae and every row of samples has two different ones; each PDF
is then made from its own samples alone. -/
theorem C91_rows (splrep : List ℝ → List ℝ → SplRow ℝ) (xs : List ℝ) (samples : List (List ℝ)) :
    ((∃ rows, splFromSamples splrep xs samples = .ok rows) ↔ xs ≠ [] ∧ samples ≠ [] ∧ ∀ s ∈ samples, ∃ u ∈ s, ∃ v ∈ s, u ≠ v) ∧
    (∀ rows, splFromSamples splrep xs samples = .ok rows → rows.length = samples.length ∧
      ∀ (i : ℕ) s, samples[i]? = some s → ∃ r, rows[i]? = some r ∧ splFromSamples splrep xs [s] = .ok [r]) := by
  have hmm : xs ≠ [] → ∃ lo hi, xs.min? = some lo ∧ xs.max? = some hi := by
    intro h
    cases h1 : xs.min? with
    | none => exact absurd (List.min?_eq_none_iff.1 h1) h
    | some lo =>
      cases h2 : xs.max? with
      | none => exact absurd (List.max?_eq_none_iff.1 h2) h
      | some hi => exact ⟨lo, hi, rfl, rfl⟩
  have hgood : ∀ samples : List (List ℝ), (∀ s ∈ samples, ∃ u ∈ s, ∃ v ∈ s, u ≠ v) → samples.mapM buildKde = .ok (samples.map kdeEval) := by
    intro samples h
    apply mapM_ok_map
    intro s hs
    obtain ⟨f, hf⟩ := (C91_defined s).1.2 (h s hs)
    rw [hf, (buildKde_ok hf).2.2]
  have hcond : (∃ rows, splFromSamples splrep xs samples = .ok rows) → xs ≠ [] ∧ samples ≠ [] ∧ ∀ s ∈ samples, ∃ u ∈ s, ∃ v ∈ s, u ≠ v := by
    rintro ⟨rows, h⟩
    unfold splFromSamples at h
    cases hm : samples.mapM buildKde with
    | error e => rw [hm] at h; simp [Bind.bind, Except.bind] at h
    | ok kdes =>
      rw [hm] at h
      simp only [Bind.bind, Except.bind] at h
      have hf := (mapM_ok_iff _ _ _).1 hm
      refine ⟨?_, ?_, ?_⟩
      · rintro rfl; split_ifs at h; simp at h
      · rintro rfl; cases hf; simp at h
      · intro s hs
        obtain ⟨i, hi, rfl⟩ := List.mem_iff_getElem.1 hs
        exact (C91_defined _).1.1 ⟨_, hf.get hi (hf.length_eq ▸ hi)⟩
  have hval : ∀ samples : List (List ℝ), samples ≠ [] → (∀ s ∈ samples, ∃ u ∈ s, ∃ v ∈ s, u ≠ v) → ∀ lo hi, xs.min? = some lo → xs.max? = some hi →
      splFromSamples splrep xs samples = .ok (samples.map fun s => splNorm (splrep xs (xs.map (kdeEval s))) (∫ x in lo..hi, splev (splrep xs (xs.map (kdeEval s))) x)) := by
    intro samples h0 h lo hi h1 h2
    unfold splFromSamples
    rw [hgood samples h]
    simp only [Bind.bind, Except.bind, h1, h2]
    rw [if_neg (by simpa using h0)]
    simp [splBuild]
  refine ⟨⟨hcond, ?_⟩, ?_⟩
  · rintro ⟨h1, h2, h3⟩
    obtain ⟨lo, hi, e1, e2⟩ := hmm h1
    exact ⟨_, hval samples h2 h3 lo hi e1 e2⟩
  · intro rows h
    obtain ⟨h1, h2, h3⟩ := hcond ⟨rows, h⟩
    obtain ⟨lo, hi, e1, e2⟩ := hmm h1
    rw [hval samples h2 h3 lo hi e1 e2] at h
    obtain rfl := Except.ok.inj h
    refine ⟨by simp, fun i s hs => ?_⟩
    refine ⟨_, by rw [List.getElem?_map, hs]; rfl, ?_⟩
    rw [hval [s] (by simp) (by simpa using h3 s (List.mem_of_getElem? hs)) lo hi e1 e2]
    rfl

/-- what is used of `splrep` at the given abscissae: the knots are as in C81, the base interval goes from the first to the last abscissa, the spline passes
through the points -/
structure Interpolates (splrep : List ℝ → List ℝ → SplRow ℝ) (xs : List ℝ) : Prop where
  ok : ∀ ys, ys.length = xs.length → SplOK (splrep xs ys)
  lo : ∀ ys, ys.length = xs.length → xs.min? = some (splrep xs ys).lo
  hi : ∀ ys, ys.length = xs.length → xs.max? = some (splrep xs ys).hi
  through : ∀ ys, ys.length = xs.length → ∀ (j : ℕ) x y, xs[j]? = some x → ys[j]? = some y → splev (splrep xs ys) x = y

/-- **C91, the PDFs**: unless the integral of the spline vanishes, the CDF of each PDF reaches 1 at the last abscissa, and its PDF at the abscissae
is the kernel density estimate divided by that integral. What is missing is that the integral is positive: it need not be (`C91_negative_wrong`,
`C91_sign`). -/
theorem C91_pdfs_partial (splrep : List ℝ → List ℝ → SplRow ℝ) (xs : List ℝ) (samples : List (List ℝ)) (hS : Interpolates splrep xs) (rows : List (SplRow ℝ))
    (h : splFromSamples splrep xs samples = .ok rows) (i : ℕ) (s : List ℝ) (hs : samples[i]? = some s) :
    ∃ f, buildKde s = .ok f ∧ ((∫ y in (splrep xs (xs.map f)).lo..(splrep xs (xs.map f)).hi, splev (splrep xs (xs.map f)) y) ≠ 0 →
      (∀ x, (∀ v ∈ xs, v ≤ x) → splCdf rows i x = .ok 1) ∧ (∀ x, (∀ v ∈ xs, x ≤ v) → splCdf rows i x = .ok 0) ∧
      ∀ x ∈ xs, splPdf rows i x =
        .ok (f x / ∫ y in (splrep xs (xs.map f)).lo..(splrep xs (xs.map f)).hi, splev (splrep xs (xs.map f)) y)) := by
  unfold splFromSamples at h
  cases hm : samples.mapM buildKde with
  | error e => rw [hm] at h; simp [Bind.bind, Except.bind] at h
  | ok kdes =>
    rw [hm] at h
    simp only [Bind.bind, Except.bind] at h
    have hf := (mapM_ok_iff _ _ _).1 hm
    obtain ⟨hi, rfl⟩ := List.getElem?_eq_some_iff.1 hs
    have hi' : i < kdes.length := hf.length_eq ▸ hi
    have hk : buildKde samples[i] = .ok kdes[i] := hf.get hi hi'
    refine ⟨kdes[i], hk, fun h0 => ?_⟩
    have hlen : (xs.map kdes[i]).length = xs.length := by simp
    set r := splrep xs (xs.map kdes[i]) with hr
    have hlo := hS.lo _ hlen
    have hhi := hS.hi _ hlen
    rw [← hr] at hlo hhi
    split_ifs at h with hk0
    simp only [hlo, hhi] at h
    have h := Except.ok.inj h
    have hri : (kdes.map fun f => splrep xs (xs.map f))[i]? = some r := by rw [List.getElem?_map, List.getElem?_eq_getElem hi']; rfl
    have hC := C82_normalised_partial _ r.lo r.hi i r hri (hS.ok _ hlen) rfl rfl h0
    rw [h] at hC
    refine ⟨fun x hx => (hC x).1 (hx _ (List.max?_eq_some_iff.1 hhi).1), fun x hx => (hC x).2.2 (hx _ (List.min?_eq_some_iff.1 hlo).1), fun x hx => ?_⟩
    have hrow : rows[i]? = some (splNorm r (∫ y in r.lo..r.hi, splev r y)) := by
      rw [← h]; unfold splBuild; rw [List.getElem?_map, hri]; rfl
    unfold splPdf
    rw [hrow]
    obtain ⟨j, hj, rfl⟩ := List.mem_iff_getElem.1 hx
    simp only [splev_norm]
    rw [hr, hS.through _ hlen j xs[j] (kdes[i] xs[j]) (List.getElem?_eq_getElem hj) (by simp [hj])]

/-- **C91, the sign of the PDFs**: where the integral of the spline does not vanish, the PDF is positive at all abscissae exactly if that integral is positive;
otherwise it is negative at all of them. -/
theorem C91_sign (splrep : List ℝ → List ℝ → SplRow ℝ) (xs : List ℝ) (samples : List (List ℝ)) (hS : Interpolates splrep xs) (rows : List (SplRow ℝ))
    (h : splFromSamples splrep xs samples = .ok rows) (i : ℕ) (s : List ℝ) (hs : samples[i]? = some s) :
    ∃ f, buildKde s = .ok f ∧
      (0 < (∫ y in (splrep xs (xs.map f)).lo..(splrep xs (xs.map f)).hi, splev (splrep xs (xs.map f)) y) → ∀ x ∈ xs, ∃ p, splPdf rows i x = .ok p ∧ 0 < p) ∧
      ((∫ y in (splrep xs (xs.map f)).lo..(splrep xs (xs.map f)).hi, splev (splrep xs (xs.map f)) y) < 0 → ∀ x ∈ xs, ∃ p, splPdf rows i x = .ok p ∧ p < 0) := by
  obtain ⟨f, hf, k⟩ := C91_pdfs_partial splrep xs samples hS rows h i s hs
  have hpos := (C91_density _ f hf).1
  exact ⟨f, hf, fun h0 x hx => ⟨_, (k h0.ne').2.2 x hx, div_pos (hpos x) h0⟩, fun h0 x hx => ⟨_, (k h0.ne).2.2 x hx, div_neg_of_pos_of_neg (hpos x) h0⟩⟩

/-! ### the cubic spline through four points -/

/-- `splrep` for the abscissae 0, 1, 2, 3 (one polynomial: no inner knots) -/
noncomputable def cubic4 (_ ys : List ℝ) : SplRow ℝ :=
  let y := fun i => ys.getD i 0
  ⟨[0, 0, 0, 0, 3, 3, 3, 3], [y 0, (-5 * y 0 + 18 * y 1 - 9 * y 2 + 2 * y 3) / 6, (2 * y 0 - 9 * y 1 + 18 * y 2 - 5 * y 3) / 6, y 3, 0, 0, 0, 0], 3⟩

theorem cubic4_ok (xs ys : List ℝ) : SplOK (cubic4 xs ys) := by
  refine ⟨by simp [cubic4], by simp [cubic4], ?_⟩
  intro i h1 h2
  have h1 : 3 ≤ i := h1
  have h2 : i ≤ 3 := h2
  obtain rfl : i = 3 := by omega
  simp [cubic4, SplRow.knot]

theorem cubic4_eval (xs ys : List ℝ) (x : ℝ) : splev (cubic4 xs ys) x =
    ys.getD 0 0 * ((1 - x) * (2 - x) * (3 - x) / 6) + ys.getD 1 0 * (x * (2 - x) * (3 - x) / 2) + ys.getD 2 0 * (x * (x - 1) * (3 - x) / 2) +
      ys.getD 3 0 * (x * (x - 1) * (x - 2) / 6) := by
  have h := cubic4_ok xs ys
  obtain ⟨a, c, -, -⟩ := interval_spec h x
  have hl : (cubic4 xs ys).interval x = 3 := by
    have : (cubic4 xs ys).k = 3 := rfl
    have : (cubic4 xs ys).last = 3 := rfl
    omega
  unfold splev
  rw [hl]
  simp [SplRow.piece, cubic4, SplRow.knot, bspl, List.range_succ]
  ring

theorem cubic4_interp : Interpolates cubic4 [0, 1, 2, 3] := by
  refine ⟨fun ys _ => cubic4_ok _ ys, fun ys _ => ?_, fun ys _ => ?_, fun ys _ j x y hx hy => ?_⟩
  · simp [List.min?, cubic4, SplRow.lo, SplRow.knot]
  · simp [List.max?, cubic4, SplRow.hi, SplRow.knot, SplRow.last]; norm_num
  · rw [cubic4_eval]
    match j, hx with
    | 0, hx => simp at hx; subst hx; simp [hy]; norm_num
    | 1, hx => simp at hx; subst hx; simp [hy]; norm_num
    | 2, hx => simp at hx; subst hx; simp [hy]; norm_num
    | 3, hx => simp at hx; subst hx; simp [hy]; norm_num

/-- its integral is positive for positive ordinates, so the hypothesis of `C91_pdfs_partial` holds for every estimate -/
theorem cubic4_integral (f : ℝ → ℝ) (hf : ∀ x, 0 < f x) :
    (∫ y in (cubic4 [0, 1, 2, 3] ([0, 1, 2, 3].map f)).lo..(cubic4 [0, 1, 2, 3] ([0, 1, 2, 3].map f)).hi, splev (cubic4 [0, 1, 2, 3] ([0, 1, 2, 3].map f)) y) ≠ 0 := by
  have h1 : (cubic4 [0, 1, 2, 3] ([0, 1, 2, 3].map f)).lo = 0 := by simp [cubic4, SplRow.lo, SplRow.knot]
  have h2 : (cubic4 [0, 1, 2, 3] ([0, 1, 2, 3].map f)).hi = 3 := by simp [cubic4, SplRow.hi, SplRow.knot, SplRow.last]
  rw [h1, h2]
  set a := f 0
  set b := f 1
  set c := f 2
  set d := f 3
  have hp : ∀ y, splev (cubic4 [0, 1, 2, 3] ([0, 1, 2, 3].map f)) y =
      a * y ^ 0 + (-11 * a / 6 + 3 * b - 3 * c / 2 + d / 3) * y ^ 1 + (a - 5 * b / 2 + 2 * c - d / 2) * y ^ 2 + (-a / 6 + b / 2 - c / 2 + d / 6) * y ^ 3 := by
    intro y
    rw [cubic4_eval]
    simp
    ring
  simp only [hp]
  have hi : ∀ g : ℝ → ℝ, Continuous g → IntervalIntegrable g volume 0 3 := fun g hg => hg.intervalIntegrable 0 3
  rw [intervalIntegral.integral_add (hi _ (by fun_prop)) (hi _ (by fun_prop)), intervalIntegral.integral_add (hi _ (by fun_prop)) (hi _ (by fun_prop)),
    intervalIntegral.integral_add (hi _ (by fun_prop)) (hi _ (by fun_prop))]
  simp only [intervalIntegral.integral_const_mul, integral_pow]
  have := hf 0
  have := hf 1
  have := hf 2
  have := hf 3
  norm_num
  apply ne_of_gt
  linarith

/-- two PDFs from three and two samples -/
theorem four_ok : ∃ rows, splFromSamples cubic4 [0, 1, 2, 3] [[1, 2, 2], [0, 3]] = .ok rows := by
  rw [(C91_rows _ _ _).1]
  refine ⟨by simp, by simp, ?_⟩
  intro s hs
  simp only [List.mem_cons, List.not_mem_nil, or_false] at hs
  rcases hs with rfl | rfl
  · exact ⟨1, by simp, 2, by simp, by norm_num⟩
  · exact ⟨0, by simp, 3, by simp, by norm_num⟩

example : ∃ rows f I, splFromSamples cubic4 [0, 1, 2, 3] [[1, 2, 2], [0, 3]] = .ok rows ∧ buildKde [1, 2, 2] = .ok f ∧ splCdf rows 0 3 = .ok 1 ∧
    splPdf rows 0 2 = .ok (f 2 / I) ∧ splPdf rows 0 1 = .ok (f 1 / I) := by
  obtain ⟨rows, h⟩ := four_ok
  obtain ⟨f, hf, k⟩ := C91_pdfs_partial cubic4 _ _ cubic4_interp rows h 0 [1, 2, 2] rfl
  obtain ⟨k1, -, k3⟩ := k (cubic4_integral f (C91_density _ f hf).1)
  exact ⟨rows, f, _, h, hf, k1 3 (by simp; norm_num), k3 2 (by simp), k3 1 (by simp)⟩

/-! ### unequal abscissae: the integral can be negative -/

/-- `splrep` for the abscissae 0, 1, 2, 12 -/
noncomputable def cubicFar (_ ys : List ℝ) : SplRow ℝ :=
  let y := fun i => ys.getD i 0
  ⟨[0, 0, 0, 0, 12, 12, 12, 12], [y 0, -(16 / 3) * y 0 + 96 / 11 * y 1 - 12 / 5 * y 2 + 1 / 165 * y 3,
    55 / 3 * y 0 - 480 / 11 * y 1 + 132 / 5 * y 2 - 16 / 165 * y 3, y 3, 0, 0, 0, 0], 3⟩

theorem cubicFar_ok (xs ys : List ℝ) : SplOK (cubicFar xs ys) := by
  refine ⟨by simp [cubicFar], by simp [cubicFar], ?_⟩
  intro i h1 h2
  have h1 : 3 ≤ i := h1
  have h2 : i ≤ 3 := h2
  obtain rfl : i = 3 := by omega
  simp [cubicFar, SplRow.knot]

theorem cubicFar_eval (xs ys : List ℝ) (x : ℝ) : splev (cubicFar xs ys) x =
    ys.getD 0 0 * ((x - 1) * (x - 2) * (x - 12) / -24) + ys.getD 1 0 * (x * (x - 2) * (x - 12) / 11) + ys.getD 2 0 * (x * (x - 1) * (x - 12) / -20) +
      ys.getD 3 0 * (x * (x - 1) * (x - 2) / 1320) := by
  have h := cubicFar_ok xs ys
  obtain ⟨a, c, -, -⟩ := interval_spec h x
  have hl : (cubicFar xs ys).interval x = 3 := by
    have : (cubicFar xs ys).k = 3 := rfl
    have : (cubicFar xs ys).last = 3 := rfl
    omega
  unfold splev
  rw [hl]
  simp [SplRow.piece, cubicFar, SplRow.knot, bspl, List.range_succ]
  ring

theorem cubicFar_interp : Interpolates cubicFar [0, 1, 2, 12] := by
  refine ⟨fun ys _ => cubicFar_ok _ ys, fun ys _ => ?_, fun ys _ => ?_, fun ys _ j x y hx hy => ?_⟩
  · simp [List.min?, cubicFar, SplRow.lo, SplRow.knot]
  · simp [List.max?, cubicFar, SplRow.hi, SplRow.knot, SplRow.last]; norm_num
  · rw [cubicFar_eval]
    match j, hx with
    | 0, hx => simp at hx; subst hx; simp [hy]; norm_num
    | 1, hx => simp at hx; subst hx; simp [hy]; norm_num
    | 2, hx => simp at hx; subst hx; simp [hy]; norm_num
    | 3, hx => simp at hx; subst hx; simp [hy]; norm_num

theorem cubicFar_integral (f : ℝ → ℝ) :
    (∫ y in (cubicFar [0, 1, 2, 12] ([0, 1, 2, 12].map f)).lo..(cubicFar [0, 1, 2, 12] ([0, 1, 2, 12].map f)).hi, splev (cubicFar [0, 1, 2, 12] ([0, 1, 2, 12].map f)) y) =
      42 * f 0 - 1152 / 11 * f 1 + 72 * f 2 + 30 / 11 * f 12 := by
  have h1 : (cubicFar [0, 1, 2, 12] ([0, 1, 2, 12].map f)).lo = 0 := by simp [cubicFar, SplRow.lo, SplRow.knot]
  have h2 : (cubicFar [0, 1, 2, 12] ([0, 1, 2, 12].map f)).hi = 12 := by simp [cubicFar, SplRow.hi, SplRow.knot, SplRow.last]
  rw [h1, h2]
  set a := f 0
  set b := f 1
  set c := f 2
  set d := f 12
  have hp : ∀ y, splev (cubicFar [0, 1, 2, 12] ([0, 1, 2, 12].map f)) y =
      a * y ^ 0 + (-38 / 24 * a + 24 / 11 * b - 12 / 20 * c + 2 / 1320 * d) * y ^ 1 + (15 / 24 * a - 14 / 11 * b + 13 / 20 * c - 3 / 1320 * d) * y ^ 2 +
        (-1 / 24 * a + 1 / 11 * b - 1 / 20 * c + 1 / 1320 * d) * y ^ 3 := by
    intro y
    rw [cubicFar_eval]
    simp
    ring
  simp only [hp]
  have hi : ∀ g : ℝ → ℝ, Continuous g → IntervalIntegrable g volume 0 12 := fun g hg => hg.intervalIntegrable 0 12
  rw [intervalIntegral.integral_add (hi _ (by fun_prop)) (hi _ (by fun_prop)), intervalIntegral.integral_add (hi _ (by fun_prop)) (hi _ (by fun_prop)),
    intervalIntegral.integral_add (hi _ (by fun_prop)) (hi _ (by fun_prop))]
  simp only [intervalIntegral.integral_const_mul, integral_pow]
  norm_num
  ring

/-- the normal density falls to less than half at a distance whose square is larger by two variances -/
theorem normPdf_half (m m' σ x x' : ℝ) (hσ : 0 < σ) (h : (x - m) ^ 2 + 2 * σ ^ 2 ≤ (x' - m') ^ 2) : normPdf m' σ x' ≤ 1 / 2 * normPdf m σ x := by
  have e : ∀ u : ℝ, (u / σ) ^ 2 = u ^ 2 / σ ^ 2 := fun u => div_pow _ _ _
  have hs : 0 < σ ^ 2 := by positivity
  have h1 : -((x' - m') / σ) ^ 2 / 2 ≤ -((x - m) / σ) ^ 2 / 2 + (-1) := by
    rw [e, e]
    have : (x - m) ^ 2 / σ ^ 2 + 2 ≤ (x' - m') ^ 2 / σ ^ 2 := by
      rw [← sub_nonneg]
      have : (x' - m') ^ 2 / σ ^ 2 - ((x - m) ^ 2 / σ ^ 2 + 2) = ((x' - m') ^ 2 - ((x - m) ^ 2 + 2 * σ ^ 2)) / σ ^ 2 := by field_simp
      rw [this]
      exact div_nonneg (by linarith) hs.le
    linarith
  have h2 : Real.exp (-1) ≤ 1 / 2 := by
    rw [Real.exp_neg, one_div]
    apply inv_anti₀ (by norm_num)
    have := Real.add_one_le_exp (1 : ℝ)
    linarith
  unfold normPdf
  have h3 := (Real.exp_le_exp.2 h1).trans_eq (Real.exp_add _ _)
  have h4 := h3.trans (mul_le_mul_of_nonneg_left h2 (Real.exp_pos _).le)
  rw [div_div, div_div, ← mul_div_assoc]
  exact div_le_div_of_nonneg_right (by linarith) (by positivity)

/-- **C91, a negative PDF**: samples 9/10 and 11/10 at the abscissae 0, 1, 2 and 12. The spline through the positive estimates has a negative integral: after
the division by it the PDF is negative at every abscissa, although the CDF goes from 0 to 1. (At 1, between the samples, the estimate is largest.) -/
theorem C91_negative_wrong : ∃ rows, splFromSamples cubicFar [0, 1, 2, 12] [[9 / 10, 11 / 10]] = .ok rows ∧ splCdf rows 0 0 = .ok 0 ∧ splCdf rows 0 12 = .ok 1 ∧
    ∀ x ∈ ([0, 1, 2, 12] : List ℝ), ∃ p, splPdf rows 0 x = .ok p ∧ p < 0 := by
  obtain ⟨rows, h⟩ := (C91_rows cubicFar [0, 1, 2, 12] [[9 / 10, 11 / 10]]).1.2 ⟨by simp, by simp, by
    intro s hs
    rw [List.mem_singleton] at hs
    subst hs
    exact ⟨9 / 10, by simp, 11 / 10, by simp, by norm_num⟩⟩
  obtain ⟨f, hf, k⟩ := C91_pdfs_partial cubicFar _ _ cubicFar_interp rows h 0 _ rfl
  have hpos := (C91_density _ f hf).1
  obtain ⟨hn, hv, hfe⟩ := buildKde_ok hf
  have hw0 := kdeWidth_pos hn hv
  set w := kdeWidth [9 / 10, 11 / 10] with hw
  have hw2 : w ^ 2 ≤ 1 / 50 := by
    rw [hw, kdeWidth_sq (by simp)]
    have h1 : ((([9 / 10, 11 / 10] : List ℝ).length : ℕ) : ℝ) ^ (-(2 / 5) : ℝ) ≤ 1 := by
      apply Real.rpow_le_one_of_one_le_of_nonpos
      · simp
      · norm_num
    have h2 : ((([9 / 10, 11 / 10] : List ℝ).map fun v => (v - ([9 / 10, 11 / 10] : List ℝ).sum / (([9 / 10, 11 / 10] : List ℝ).length : ℕ)) ^ 2).sum /
        ((([9 / 10, 11 / 10] : List ℝ).length : ℕ) - 1 : ℝ)) = 1 / 50 := by
      simp; norm_num
    rw [h2]
    linarith
  have hval : ∀ x, f x = 1 / 2 * normPdf (9 / 10) w x + 1 / 2 * normPdf (11 / 10) w x := by
    intro x
    rw [hfe]
    simp [kdeEval, np_sum, ← hw]
  have hle : ∀ x, (x = 0 ∨ x = 2 ∨ x = 12) → f x ≤ 1 / 2 * f 1 := by
    intro x hx
    rw [hval x, hval 1]
    have a : normPdf (9 / 10) w x ≤ 1 / 2 * normPdf (9 / 10) w 1 := normPdf_half _ _ _ _ _ hw0 (by
      rcases hx with rfl | rfl | rfl <;> norm_num <;> linarith)
    have b : normPdf (11 / 10) w x ≤ 1 / 2 * normPdf (11 / 10) w 1 := normPdf_half _ _ _ _ _ hw0 (by
      rcases hx with rfl | rfl | rfl <;> norm_num <;> linarith)
    linarith
  have hI := cubicFar_integral f
  have hneg : 42 * f 0 - 1152 / 11 * f 1 + 72 * f 2 + 30 / 11 * f 12 < 0 := by
    have := hle 0 (by simp)
    have := hle 2 (by simp)
    have := hle 12 (by simp)
    have := hpos 1
    linarith
  obtain ⟨k1, k2, k3⟩ := k (by rw [hI]; exact hneg.ne)
  refine ⟨rows, h, k2 0 (by simp), k1 12 (by simp; norm_num), fun x hx => ⟨_, k3 x hx, ?_⟩⟩
  rw [hI]
  exact div_neg_of_pos_of_neg (hpos x) hneg

example (rows : List (SplRow ℝ)) (h : splFromSamples cubic4 [0, 1, 2, 3] [[1, 2, 2], [0, 3]] = .ok rows) :=
  C91_sign cubic4 _ _ cubic4_interp rows h 0 [1, 2, 2] rfl
example : ∃ f, buildKde [1, 2, 2] = .ok f := (C91_defined _).1.2 ⟨1, by simp, 2, by simp, by norm_num⟩
example : buildKde [2, 2, 2] = .error .ValueError := (C91_defined _).2 (by simp)
example : buildKde [2, 1, 2] = buildKde [1, 2, 2] := C91_order _ _ (List.Perm.swap _ _ _)
example (f : ℝ → ℝ) (h : buildKde [1, 2, 2] = .ok f) := C91_units _ f h (-2) 1 (by norm_num)
example (f : ℝ → ℝ) (h : buildKde [1, 2, 2] = .ok f) := C91_density _ f h

end Verif.Props.Kde
