import Verif.Props.MixReal
import Verif.Props.EndToEnd
import Verif.Props.Sampling
import Verif.Model.Entropy
import Mathlib.MeasureTheory.Group.Integral

/-!
# C106: entropy
-/

set_option linter.unusedSectionVars false
set_option autoImplicit false

namespace Verif.Props.Entropy

open Verif Verif.Np Verif.Model Verif.Spec Verif.Lemmas.Integral Verif.Props.Hist Verif.Props.Bins Verif.Props.RealIntegral Verif.Props.Variance
  Verif.Props.InterpPdf Verif.Props.MixReal Verif.Lemmas.Gauss
open MeasureTheory Set

theorem entr_eq {y : ℝ} (h : 0 ≤ y) : entr y = Real.negMulLog y := by
  unfold entr Real.negMulLog
  split
  · ring
  · have : y = 0 := by linarith
    simp [this]

/-- Gibbs: `-y log y ≤ -y log g + g - y`, with equality only at `y = g` -/
theorem gibbs {y g : ℝ} (hy : 0 ≤ y) (hg : 0 < g) : entr y ≤ -(y * Real.log g) + (g - y) ∧ (entr y = -(y * Real.log g) + (g - y) → y = g) := by
  unfold entr
  split
  next h =>
    have h1 : Real.log (g / y) = Real.log g - Real.log y := Real.log_div hg.ne' h.ne'
    have hq : 0 < g / y := by positivity
    have hm : y * (g / y - 1) = g - y := by field_simp
    refine ⟨?_, fun he => ?_⟩
    · have := Real.log_le_sub_one_of_pos hq
      have h2 := mul_le_mul_of_nonneg_left this h.le
      rw [h1, hm] at h2
      nlinarith
    · by_contra hne
      have hq1 : g / y ≠ 1 := fun hh => hne (by field_simp at hh; exact hh.symm)
      have := Real.log_lt_sub_one_of_pos hq hq1
      have h2 := mul_lt_mul_of_pos_left this h
      rw [h1, hm] at h2
      nlinarith
  next h =>
    have : y = 0 := by linarith
    subst this
    refine ⟨by simpa using hg.le, fun h => ?_⟩
    simp at h
    linarith

theorem entropy_some (f : ℝ → ℝ) (h0 : ∀ x, 0 ≤ f x) : statsEntropy f = some (∫ x, entr (f x)) := by
  unfold statsEntropy
  rw [if_neg]
  push Not
  exact h0

theorem integrable_entr (f : ℝ → ℝ) (a b M : ℝ) (hf : Integrable f) (h0 : ∀ x, 0 ≤ f x) (hM : ∀ x, f x ≤ M) (hs : ∀ x, x < a ∨ b < x → f x = 0) :
    Integrable fun x => entr (f x) := by
  obtain ⟨C, hC⟩ := (isCompact_Icc (a := (0 : ℝ)) (b := M)).exists_bound_of_continuousOn Real.continuous_negMulLog.continuousOn
  have hind : Integrable (indicator (Icc a b) fun _ : ℝ => C) := (integrable_indicator_iff measurableSet_Icc).2 (by simp)
  have he : (fun x => entr (f x)) = fun x => Real.negMulLog (f x) := by
    funext x
    exact entr_eq (h0 x)
  rw [he]
  refine hind.mono' (Real.continuous_negMulLog.comp_aestronglyMeasurable hf.1) (Filter.Eventually.of_forall fun x => ?_)
  by_cases hx : x ∈ Icc a b
  · rw [indicator_of_mem hx]
    exact hC _ ⟨h0 x, hM x⟩
  · rw [indicator_of_notMem hx, hs x (by
      rw [mem_Icc, not_and_or, not_le, not_le] at hx
      exact hx)]
    simp

theorem integrable_of_one {f : ℝ → ℝ} {v : ℝ} (hv : v ≠ 0) (h : (∫ x, f x) = v) : Integrable f := by
  by_contra hn
  rw [integral_undef hn] at h
  exact hv h.symm

theorem log_normPdf (μ v : ℝ) (hv : 0 < v) (x : ℝ) : Real.log (normPdf μ (Real.sqrt v) x) = -(x - μ) ^ 2 / (2 * v) - Real.log (2 * Real.pi * v) / 2 := by
  have hσ : 0 < Real.sqrt v := Real.sqrt_pos.2 hv
  unfold normPdf
  rw [Real.log_div (by positivity) hσ.ne', Real.log_div (by positivity) (by positivity), Real.log_exp, Real.log_sqrt (by positivity),
    Real.log_sqrt hv.le, Real.log_mul (x := 2 * Real.pi) (by positivity) hv.ne', div_pow, Real.sq_sqrt hv.le]
  field_simp
  ring

/-- a bounded density with a second moment has an entropy -/
theorem integrable_entr_moment (f : ℝ → ℝ) (μ v M : ℝ) (hv : 0 < v) (hf : Integrable f) (hf2 : Integrable fun t => (t - μ) ^ 2 * f t) (h0 : ∀ x, 0 ≤ f x)
    (hM : ∀ x, f x ≤ M) :
    Integrable fun x => entr (f x) := by
  have hσ : 0 < Real.sqrt v := Real.sqrt_pos.2 hv
  have hg := integrable_normPdf hσ μ
  have hj : Integrable fun x => (x - μ) ^ 2 * f x * (1 / (2 * v)) := hf2.mul_const _
  have hk : Integrable fun x => f x * (|Real.log (2 * Real.pi * v)| + |Real.log M|) := hf.mul_const _
  have he : (fun x => entr (f x)) = fun x => Real.negMulLog (f x) := by
    funext x
    exact entr_eq (h0 x)
  rw [he]
  refine ((hj.add hk).add hg).mono' (Real.continuous_negMulLog.comp_aestronglyMeasurable hf.1) (Filter.Eventually.of_forall fun x => ?_)
  have h1 := (gibbs (h0 x) (normPdf_pos hσ μ x)).1
  have hp := (normPdf_pos hσ μ x).le
  rw [log_normPdf μ v hv] at h1
  rw [← entr_eq (h0 x), Real.norm_eq_abs]
  have e1 : -(f x * (-(x - μ) ^ 2 / (2 * v) - Real.log (2 * Real.pi * v) / 2)) = (x - μ) ^ 2 * f x * (1 / (2 * v)) + f x * Real.log (2 * Real.pi * v) / 2 := by
    field_simp
    ring
  rw [e1] at h1
  have q : 0 ≤ (x - μ) ^ 2 * f x * (1 / (2 * v)) := by have := h0 x; positivity
  have a1 := mul_le_mul_of_nonneg_left (le_abs_self (Real.log (2 * Real.pi * v))) (h0 x)
  have a2 := mul_nonneg (h0 x) (abs_nonneg (Real.log (2 * Real.pi * v)))
  have a3 := mul_nonneg (h0 x) (abs_nonneg (Real.log M))
  have h2 : -(f x * |Real.log M|) ≤ entr (f x) := by
    unfold entr
    split
    next h =>
      have := Real.log_le_log h (hM x)
      have := mul_le_mul_of_nonneg_left (this.trans (le_abs_self _)) h.le
      linarith
    · linarith
  have := h0 x
  show |entr (f x)| ≤ (x - μ) ^ 2 * f x * (1 / (2 * v)) + f x * (|Real.log (2 * Real.pi * v)| + |Real.log M|) + normPdf μ (Real.sqrt v) x
  rw [abs_le]
  constructor <;> linarith

/-- **C106, bounded support.** The entropy of a bounded PDF that vanishes outside an interval is at most the logarithm of the length of the interval -/
theorem C106_support (f : ℝ → ℝ) (a b M : ℝ) (hab : a < b) (h0 : ∀ x, 0 ≤ f x) (hM : ∀ x, f x ≤ M) (h1 : (∫ x, f x) = 1)
    (hs : ∀ x, x < a ∨ b < x → f x = 0) : ∃ e, statsEntropy f = some e ∧ e ≤ Real.log (b - a) := by
  refine ⟨_, entropy_some f h0, ?_⟩
  have hf : Integrable f := integrable_of_one one_ne_zero h1
  have hi := integrable_entr f a b M hf h0 hM hs
  have hL : 0 < b - a := sub_pos.2 hab
  have hind : Integrable (indicator (Icc a b) fun _ : ℝ => 1 / (b - a)) :=
    (integrable_indicator_iff measurableSet_Icc).2 (by simp)
  have hr : Integrable fun x => f x * Real.log (b - a) + (indicator (Icc a b) (fun _ : ℝ => 1 / (b - a)) x - f x) :=
    (hf.mul_const _).add (hind.sub hf)
  have hle : (∫ x, entr (f x)) ≤ ∫ x, f x * Real.log (b - a) + (indicator (Icc a b) (fun _ : ℝ => 1 / (b - a)) x - f x) := by
    refine integral_mono hi hr fun x => ?_
    by_cases hx : x ∈ Icc a b
    · have := (gibbs (h0 x) (g := 1 / (b - a)) (by positivity)).1
      simp only [indicator_of_mem hx]
      rw [one_div, Real.log_inv] at this
      rw [one_div]
      linarith
    · have hz : f x = 0 := hs x (by
        rw [mem_Icc, not_and_or, not_le, not_le] at hx
        exact hx)
      simp [indicator_of_notMem hx, hz, entr]
  have hj : Integrable fun x => f x * Real.log (b - a) := hf.mul_const _
  have hk : Integrable fun x => indicator (Icc a b) (fun _ : ℝ => 1 / (b - a)) x - f x := hind.sub hf
  rw [integral_add hj hk, integral_sub hind hf, integral_mul_const, integral_indicator measurableSet_Icc, h1] at hle
  simp only [integral_const, MeasurableSet.univ, measureReal_restrict_apply, univ_inter, Real.volume_real_Icc_of_le hab.le, smul_eq_mul] at hle
  rw [mul_one_div_cancel hL.ne'] at hle
  linarith

/-- **C106, any PDF.** The entropy of a bounded PDF is at most that of the normal distribution with the same variance -/
theorem C106_variance (f : ℝ → ℝ) (μ v M : ℝ) (hv : 0 < v) (h0 : ∀ x, 0 ≤ f x) (hM : ∀ x, f x ≤ M) (hm : IsMeanVar f μ v) :
    ∃ e, statsEntropy f = some e ∧ e ≤ Real.log (2 * Real.pi * Real.exp 1 * v) / 2 := by
  refine ⟨_, entropy_some f h0, ?_⟩
  have hf : Integrable f := integrable_of_one one_ne_zero hm.one
  have hf2 : Integrable fun t => (t - μ) ^ 2 * f t := integrable_of_one hv.ne' hm.var
  have hi := integrable_entr_moment f μ v M hv hf hf2 h0 hM
  have hσ : 0 < Real.sqrt v := Real.sqrt_pos.2 hv
  have hg := integrable_normPdf hσ μ
  have hj : Integrable fun x => (x - μ) ^ 2 * f x * (1 / (2 * v)) := hf2.mul_const _
  have hk : Integrable fun x => f x * (Real.log (2 * Real.pi * v) / 2) := hf.mul_const _
  have hd : Integrable fun x => normPdf μ (Real.sqrt v) x - f x := hg.sub hf
  have hjk : Integrable fun x => (x - μ) ^ 2 * f x * (1 / (2 * v)) + f x * (Real.log (2 * Real.pi * v) / 2) := hj.add hk
  have hle : (∫ x, entr (f x)) ≤
      ∫ x, ((x - μ) ^ 2 * f x * (1 / (2 * v)) + f x * (Real.log (2 * Real.pi * v) / 2)) + (normPdf μ (Real.sqrt v) x - f x) := by
    refine integral_mono hi (hjk.add hd) fun x => ?_
    have := (gibbs (h0 x) (normPdf_pos hσ μ x)).1
    rw [log_normPdf μ v hv] at this
    refine this.trans (le_of_eq ?_)
    field_simp
    ring
  rw [integral_add hjk hd, integral_add hj hk, integral_sub hg hf, integral_mul_const, integral_mul_const, hm.one, hm.var,
    integral_normPdf hσ] at hle
  have : Real.log (2 * Real.pi * Real.exp 1 * v) = Real.log (2 * Real.pi * v) + 1 := by
    rw [mul_right_comm, Real.log_mul (by positivity) (by positivity), Real.log_exp]
  rw [this]
  have hvv : v * (1 / (2 * v)) = 1 / 2 := by field_simp
  rw [hvv] at hle
  linarith

/-- **C106, change of units.** If every value is multiplied by `s > 0` and shifted by `c`, the entropy grows by `log s`. -/
theorem C106_units (f g : ℝ → ℝ) (c s : ℝ) (hs : 0 < s) (h0 : ∀ x, 0 ≤ f x) (h1 : (∫ x, f x) = 1) (hi : Integrable fun x => entr (f x))
    (hg : ∀ x, g (s * x + c) = f x / s) : ∃ e, statsEntropy f = some e ∧ statsEntropy g = some (e + Real.log s) := by
  have hgx : ∀ x, g x = f ((x - c) / s) / s := by
    intro x
    rw [← hg]
    congr 1
    field_simp
    ring
  refine ⟨_, entropy_some f h0, ?_⟩
  rw [entropy_some g fun x => by rw [hgx]; exact div_nonneg (h0 _) hs.le]
  congr 1
  have hf : Integrable f := integrable_of_one one_ne_zero h1
  have key : ∀ y, 0 ≤ y → entr (y / s) = (entr y + y * Real.log s) / s := by
    intro y hy
    unfold entr
    rcases hy.lt_or_eq with h | h
    · rw [if_pos h, if_pos (by positivity), Real.log_div h.ne' hs.ne']
      field_simp
      ring
    · subst h
      simp
  have : (fun x => entr (g x)) = fun x => (fun y => (entr (f (y / s)) + f (y / s) * Real.log s) / s) (x - c) := by
    funext x
    rw [hgx, key _ (h0 _)]
  rw [this, integral_sub_right_eq_self (fun y => (entr (f (y / s)) + f (y / s) * Real.log s) / s) c,
    Measure.integral_comp_div (fun y => (entr (f y) + f y * Real.log s) / s) s, integral_div]
  have hj : Integrable fun x => f x * Real.log s := hf.mul_const _
  rw [integral_add hi hj, integral_mul_const, h1, abs_of_pos hs, smul_eq_mul, one_mul]
  field_simp

theorem totalMass_zero (z : ℝ → ℝ) : ∀ (edges p : List ℝ), edges.Pairwise (· < ·) → edges.length = p.length + 1 → (∀ y ∈ p, 0 ≤ z y) →
    0 ≤ totalMass edges (p.map z) ∧ (totalMass edges (p.map z) = 0 ↔ ∀ y ∈ p, z y = 0) := by
  intro edges p
  induction p generalizing edges with
  | nil =>
    intro hs hl h
    match edges, hl with
    | [a], _ => simp [totalMass]
  | cons q p ih =>
    intro hs hl h
    match edges, hl with
    | a :: b :: e, hl =>
      obtain ⟨i0, i1⟩ := ih (b :: e) (List.pairwise_cons.1 hs).2 (by simpa using hl) fun y hy => h y (List.mem_cons_of_mem _ hy)
      have hab : 0 < b - a := sub_pos.2 ((List.pairwise_cons.1 hs).1 b (by simp))
      have hq := h q (by simp)
      have hm := mul_nonneg hq hab.le
      simp only [List.map_cons, totalMass, List.forall_mem_cons]
      refine ⟨by linarith, fun hz => ?_, fun hz => ?_⟩
      · have h2 : z q * (b - a) = 0 := by linarith
        exact ⟨(mul_eq_zero.1 h2).resolve_right hab.ne', i1.1 (by linarith)⟩
      · rw [hz.1, i1.2 hz.2]
        simp

theorem totalMass_lin (z : ℝ → ℝ) (L : ℝ) : ∀ (edges p : List ℝ) (a b : ℝ), edges.length = p.length + 1 → edges[0]? = some a →
    edges.getLast? = some b →
    totalMass edges (p.map fun y => y * Real.log L + (1 / L - y) - z y) =
      totalMass edges p * Real.log L + ((b - a) / L - totalMass edges p) - totalMass edges (p.map z) := by
  intro edges p
  induction p generalizing edges with
  | nil =>
    intro a b hl ha hb
    match edges, hl with
    | [c], _ =>
      simp at ha hb
      subst ha; subst hb
      simp [totalMass]
  | cons q p ih =>
    intro a b hl ha hb
    match edges, hl with
    | c :: d :: e, hl =>
      have := ih (d :: e) d b (by simpa using hl) rfl (by simpa using hb)
      simp at ha
      subst ha
      simp only [List.map_cons, totalMass]
      rw [this]
      ring

/-- **C106 for histograms.** The entropy is the sum over bins of `-p log p` times the width of the bin, at most the logarithm of the total width, and equal to
it only for the flat histogram. -/
theorem C106_histogram (edges p : List ℝ) (hg : Grid edges p.length) (hu : Uniform edges ∨ DetectablyNonUniform edges)
    (h1 : totalMass edges p = 1) (hp : ∀ y ∈ p, 0 ≤ y) (f : ℝ → ℝ) (hf : ∀ x, histPdf edges p x = .ok (f x)) (a b : ℝ)
    (ha : edges[0]? = some a) (hb : edges.getLast? = some b) :
    ∃ e, statsEntropy f = some e ∧ e = totalMass edges (p.map Real.negMulLog) ∧ e ≤ Real.log (b - a) ∧
      (e = Real.log (b - a) ↔ ∀ y ∈ p, y = 1 / (b - a)) := by
  have hst := hist_isStep edges p hg hu h1 f hf
  have hpos := Verif.Props.Sampling.hist_pdf_nonneg edges p hp f hf
  have hst' : IsStep edges (p.map Real.negMulLog) fun x => entr (f x) := by
    refine ⟨fun i a b v g1 g2 g3 t ht => ?_, fun t ht => ?_⟩
    · rw [List.getElem?_map, Option.map_eq_some_iff] at g3
      obtain ⟨y, hy, rfl⟩ := g3
      show entr (f t) = _
      rw [hst.1 i a b y g1 g2 hy t ht, entr_eq (hp y (List.mem_of_getElem? hy))]
    · show entr (f t) = _
      rw [hst.2 t ht]
      simp [entr]
  obtain ⟨i, e, -⟩ := step_integral edges (p.map Real.negMulLog) hg.strict (by simpa using hg.size) _ hst'
  have hab : a < b := by
    have hs := hg.size
    have hp := hg.pos
    obtain ⟨h0, rfl⟩ := List.getElem?_eq_some_iff.1 ha
    rw [List.getLast?_eq_getElem?] at hb
    obtain ⟨h2, rfl⟩ := List.getElem?_eq_some_iff.1 hb
    exact List.pairwise_iff_getElem.1 hg.strict _ _ h0 h2 (by omega)
  have hL : 0 < b - a := sub_pos.2 hab
  have hlog : Real.log (1 / (b - a)) = -Real.log (b - a) := by rw [one_div, Real.log_inv]
  obtain ⟨z0, z1⟩ := totalMass_zero (fun y => y * Real.log (b - a) + (1 / (b - a) - y) - Real.negMulLog y) edges p hg.strict hg.size fun y hy => by
    have := (gibbs (hp y hy) (g := 1 / (b - a)) (by positivity)).1
    rw [hlog, entr_eq (hp y hy)] at this
    show 0 ≤ y * Real.log (b - a) + (1 / (b - a) - y) - Real.negMulLog y
    linarith
  rw [totalMass_lin Real.negMulLog (b - a) edges p a b hg.size ha hb, h1, div_self hL.ne'] at z0 z1
  refine ⟨_, entropy_some f hpos, e, by rw [e]; linarith, ?_⟩
  rw [e]
  refine ⟨fun h y hy => ?_, fun h => ?_⟩
  · have := z1.1 (by rw [h]; ring) y hy
    refine (gibbs (hp y hy) (g := 1 / (b - a)) (by positivity)).2 ?_
    rw [hlog, entr_eq (hp y hy)]
    linarith
  · have := z1.2 fun y hy => by
      rw [h y hy, Real.negMulLog, hlog]
      ring
    linarith

/-- the variance of a density is positive -/
theorem var_pos (f : ℝ → ℝ) (μ v : ℝ) (h0 : ∀ x, 0 ≤ f x) (hm : IsMeanVar f μ v) (hf2 : Integrable fun t => (t - μ) ^ 2 * f t) : 0 < v := by
  rw [← hm.var]
  refine (integral_pos_iff_support_of_nonneg (fun x => mul_nonneg (sq_nonneg _) (h0 x)) hf2).2 ?_
  have hf := integrable_of_one one_ne_zero hm.one
  have h1 : 0 < ∫ x, f x := by rw [hm.one]; exact one_pos
  have h2 := (integral_pos_iff_support_of_nonneg h0 hf).1 h1
  refine h2.trans_le ?_
  have : Function.support f ⊆ Function.support (fun t => (t - μ) ^ 2 * f t) ∪ {μ} := by
    intro x hx
    by_cases e : x = μ
    · exact .inr e
    · exact .inl (mul_ne_zero (pow_ne_zero _ (sub_ne_zero.2 e)) hx)
  exact (measure_mono this).trans ((measure_union_le _ _).trans (by simp))

theorem le_sum_of_mem {l : List ℝ} (h : ∀ y ∈ l, 0 ≤ y) {y : ℝ} (hy : y ∈ l) : y ≤ l.sum := List.single_le_sum h y hy

/-- **C106 for interpolated PDFs.** Made from values that are not negative, the PDF has an entropy, at most the logarithm of the width of the grid and at most
that of the normal distribution with the same variance. -/
theorem C106_interp (xs ys c : List ℝ) (h : Constructed xs ys c) (hy : ∀ y ∈ ys, 0 ≤ y) (f : ℝ → ℝ) (hf : ∀ x, interpPdf xs ys x = some (f x)) (a b : ℝ)
    (ha : xs[0]? = some a) (hb : xs.getLast? = some b) :
    ∃ e μ v, statsEntropy f = some e ∧ e ≤ Real.log (b - a) ∧ IsMeanVar f μ v ∧ e ≤ Real.log (2 * Real.pi * Real.exp 1 * v) / 2 := by
  obtain ⟨x0, x1, t, u, z, r, rfl, rfl, hl, hs, h1, -⟩ := constructed_facts h
  have hg : XGrid (x0 :: x1 :: t) (u :: z :: r).length := ⟨hs, by simp [hl], by simp⟩
  obtain ⟨i0, e0⟩ := C12_lebesgue _ _ hg f hf
  obtain ⟨i1, e1, i2, e2⟩ := line_moments _ _ hg f hf
  have hm := meanVar_of f _ _ i0 i1 i2 (e0.trans h1) e1 e2
  obtain ⟨c1, c2, c3, c4⟩ := C15_pdf_through_points _ _ hg
  have h0 : ∀ x, 0 ≤ f x := by
    intro x
    obtain ⟨d, hd, h⟩ := c4 hy x
    rw [hf x] at hd
    rwa [Option.some.inj hd]
  have hedge : ∀ e ∈ x0 :: x1 :: t, a ≤ e ∧ e ≤ b := by
    intro e he
    obtain ⟨j, hj, rfl⟩ := List.mem_iff_getElem.1 he
    obtain ⟨g0, rfl⟩ := List.getElem?_eq_some_iff.1 ha
    rw [List.getLast?_eq_getElem?] at hb
    obtain ⟨g2, rfl⟩ := List.getElem?_eq_some_iff.1 hb
    have hp := List.pairwise_iff_getElem.1 hs
    constructor
    · rcases Nat.eq_zero_or_pos j with rfl | h
      · exact le_rfl
      · exact (hp _ _ _ _ h).le
    · rcases Nat.lt_or_ge j ((x0 :: x1 :: t).length - 1) with h | h
      · exact (hp _ _ _ _ h).le
      · obtain rfl : j = (x0 :: x1 :: t).length - 1 := by omega
        exact le_rfl
  have hout : ∀ x, x < a ∨ b < x → f x = 0 := by
    intro x hx
    have := c3 x (hx.imp (fun h e he => h.trans_le (hedge e he).1) fun h e he => (hedge e he).2.trans_lt h)
    rw [hf x] at this
    exact Option.some.inj this
  have hsum : 0 ≤ (u :: z :: r).sum := List.sum_nonneg hy
  have hM : ∀ x, f x ≤ (u :: z :: r).sum := by
    intro x
    rcases Verif.Props.EndToEnd.between (x0 :: x1 :: t) x (by simp) with ⟨i, p, q, hp, hq, g1, g2⟩ | hh | hh | hh
    · have hi := (List.getElem?_eq_some_iff.1 hq).1
      have hl' : (x0 :: x1 :: t).length = (u :: z :: r).length := by simp [hl]
      obtain ⟨d, hd, -, -, hle⟩ := c2 i p q _ _ x hp hq (List.getElem?_eq_getElem (by omega)) (List.getElem?_eq_getElem (by omega)) g1 g2
      rw [hf x] at hd
      rw [Option.some.inj hd]
      exact hle.trans (max_le (le_sum_of_mem hy (List.getElem_mem _)) (le_sum_of_mem hy (List.getElem_mem _)))
    · have := c1 0 x u (by simpa using hh) rfl
      rw [hf x] at this
      rw [Option.some.inj this]
      exact le_sum_of_mem hy (by simp)
    · rw [hout x (.inl ?_)]
      · exact hsum
      · have : x0 = a := by simpa using ha
        rw [← this]
        exact hh (by simp)
    · rw [hout x (.inr ?_)]
      · exact hsum
      · have := hh (by simp)
        rw [List.getLast?_eq_some_getLast (by simp)] at hb
        rwa [Option.some.inj hb] at this
  have hab : a < b := by
    have : x0 = a := by simpa using ha
    have h2 := (hedge x1 (by simp)).2
    have h3 := (List.pairwise_cons.1 hs).1 x1 (by simp)
    rw [this] at h3
    exact h3.trans_le h2
  have hv := var_pos f _ _ h0 hm (by
    have := (i2.sub (i1.const_mul (2 * lineMean (x0 :: x1 :: t) (u :: z :: r)))).add (i0.const_mul (lineMean (x0 :: x1 :: t) (u :: z :: r) ^ 2))
    refine this.congr (Filter.Eventually.of_forall fun x => ?_)
    simp only [Pi.add_apply, Pi.sub_apply]
    ring)
  obtain ⟨e, k1, k2⟩ := C106_support f a b _ hab h0 hM (e0.trans h1) hout
  obtain ⟨e', k3, k4⟩ := C106_variance f _ _ _ hv h0 hM hm
  obtain rfl : e = e' := Option.some.inj (k1.symm.trans k3)
  exact ⟨e, _, _, k1, k2, hm, k4⟩

/-- **C106 for mixtures.** The entropy is at most that of the normal distribution with the variance of the mixture. -/
theorem C106_mixture (w μs σs : List ℝ) (h : MixOK w μs σs) :
    ∃ e μ v, statsEntropy (gmixPdf w μs σs) = some e ∧ IsMeanVar (gmixPdf w μs σs) μ v ∧ e ≤ Real.log (2 * Real.pi * Real.exp 1 * v) / 2 := by
  have hm := C90_moments w μs σs h
  obtain ⟨hp, hi, -, -, -⟩ := C90_density w μs σs h
  have hM : ∀ x, gmixPdf w μs σs x ≤ weighted w (List.zipWith (fun _ s => 1 / (Real.sqrt (2 * Real.pi) * s)) μs σs) := by
    intro x
    unfold gmixPdf
    rw [mixEval_weighted, map_zipWith]
    exact weighted_mono w _ _ h.nonneg (pairwise_rel μs σs _ _ fun q hq => normPdf_le (h.pos q.2 (List.of_mem_zip hq).2) q.1 x)
  have hl : ∀ μ : ℝ, Integrable fun t => (t - μ) ^ 2 * gmixPdf w μs σs t := by
    intro μ
    refine (mix_integral volume (fun x => (x - μ) ^ 2) w (List.zipWith normPdf μs σs) ?_).1
    intro f hf
    obtain ⟨m, -, s, hs, rfl⟩ := zipWith_map_mem hf
    have i0 := integrable_normPdf (h.pos s hs) m
    have i1 := (mean_normPdf (h.pos s hs) m).1
    have i2 := (square_normPdf (h.pos s hs) m).1
    refine ((i2.sub (i1.const_mul (2 * μ))).add (i0.const_mul (μ ^ 2))).congr (Filter.Eventually.of_forall fun x => ?_)
    simp only [Pi.add_apply, Pi.sub_apply]
    ring
  have hv := var_pos _ _ _ (fun x => (hp x).le) hm (hl _)
  obtain ⟨e, k1, k2⟩ := C106_variance _ _ _ _ hv (fun x => (hp x).le) hM hm
  exact ⟨e, _, _, k1, hm, k2⟩

/-- **C106 for one normal component**: the bound is reached, `log(2πe σ²)/2` -/
theorem C106_normal (μ σ : ℝ) (hσ : 0 < σ) : statsEntropy (gmixPdf [1] [μ] [σ]) = some (Real.log (2 * Real.pi * Real.exp 1 * σ ^ 2) / 2) := by
  have h : MixOK [1] [μ] [σ] := ⟨rfl, rfl, by simp, by simp, by simpa using hσ⟩
  have hf : gmixPdf [1] [μ] [σ] = normPdf μ σ := by
    funext x
    simp [gmixPdf, mixEval, Np.sum]
  have hm := C90_moments _ _ _ h
  rw [hf] at hm ⊢
  have hv : weighted [1] (List.zipWith (fun m s => s ^ 2 + m ^ 2) [μ] [σ]) - weighted [1] [μ] * weighted [1] [μ] = σ ^ 2 := by
    simp [weighted]
    ring
  rw [hv] at hm
  rw [entropy_some _ fun x => (normPdf_pos hσ μ x).le]
  congr 1
  have hw : weighted [1] [μ] = μ := by simp [weighted]
  rw [hw] at hm
  have hf2 := integrable_of_one (pow_pos hσ 2).ne' hm.var
  have hf1 := integrable_normPdf hσ μ
  have he : (fun x => entr (normPdf μ σ x)) = fun x => (x - μ) ^ 2 * normPdf μ σ x * (1 / (2 * σ ^ 2)) + normPdf μ σ x * (Real.log (2 * Real.pi * σ ^ 2) / 2) := by
    funext x
    have := log_normPdf μ (σ ^ 2) (by positivity) x
    rw [Real.sqrt_sq hσ.le] at this
    rw [entr, if_pos (normPdf_pos hσ μ x), this]
    field_simp
    ring
  have j : Integrable fun x => (x - μ) ^ 2 * normPdf μ σ x * (1 / (2 * σ ^ 2)) := hf2.mul_const _
  have k : Integrable fun x => normPdf μ σ x * (Real.log (2 * Real.pi * σ ^ 2) / 2) := hf1.mul_const _
  rw [he, integral_add j k, integral_mul_const, integral_mul_const, hm.var, hm.one]
  have : Real.log (2 * Real.pi * Real.exp 1 * σ ^ 2) = Real.log (2 * Real.pi * σ ^ 2) + 1 := by
    rw [mul_right_comm, Real.log_mul (by positivity) (by positivity), Real.log_exp]
  rw [this]
  field_simp
  ring

/-! ## instances -/

/-- two bins with probabilities 1/4 and 3/4 -/
example (f : ℝ → ℝ) (hf : ∀ x, histPdf [0, 1, 2] [1/4, 3/4] x = .ok (f x)) :=
  C106_histogram [0, 1, 2] [1/4, 3/4] ⟨by norm_num, rfl, by decide⟩
    (.inl (show Spaced [0, 1, 2] (1 : ℝ) by
      intro i a b ha hb
      match i with
      | 0 => simp at ha hb; subst ha hb; norm_num
      | 1 => simp at ha hb; subst ha hb; norm_num
      | i + 2 => simp at hb).uniform) (by norm_num [totalMass]) (by norm_num) f hf 0 2 rfl rfl

/-- the triangle over `[0, 2]` -/
example (f : ℝ → ℝ) (c : List ℝ) (h : Constructed [0, 1, 2] [0, 1, 0] c) (hf : ∀ x, interpPdf [0, 1, 2] [0, 1, 0] x = some (f x)) :=
  C106_interp [0, 1, 2] [0, 1, 0] c h (by norm_num) f hf 0 2 rfl rfl

example : ∃ c : List ℚ, Constructed [0, 1, 2] [0, 1, 0] c := ⟨[0, 1/2, 1], [0, 1, 0], ⟨by decide +kernel, rfl, by decide⟩, by decide +kernel⟩

example := C106_mixture _ _ _ two_ok

/-- normal distribution in metres and in millimetres -/
example (hi : Integrable fun x => entr (normPdf 0 1 x)) := C106_units (normPdf 0 1) (normPdf 0 1000) 0 1000 (by norm_num) (fun x => (normPdf_pos one_pos 0 x).le)
  (integral_normPdf one_pos 0) hi (fun x => by unfold normPdf; norm_num)

end Verif.Props.Entropy
