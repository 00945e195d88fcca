import Verif.Props.QuadNear
import Verif.Props.ConvertInterpError
import Verif.Props.FineConvert
import Verif.Model.QuantPdfEval
import Mathlib.Analysis.Calculus.MeanValue

/-!
# C149: conversions with more and more quantiles

An ensemble of any class is converted to quantiles at more and more evenly spaced probabilities from 0 to 1.
-/

set_option linter.unusedSectionVars false
set_option autoImplicit false

namespace Verif.Props.QuantFine

open Verif Verif.Np Verif.Model Verif.Spec Verif.Lemmas MeasureTheory Filter Set Topology
open Verif.Props.Convert Verif.Props.QuadSpline Verif.Props.ConvertQuant Verif.Props.Metrics

/-- the `i`-th of the probabilities 0, 1/m, …, 1 -/
noncomputable def prob (m i : ℕ) : ℝ := (i : ℝ) / m

theorem linspace_prob (m : ℕ) (hm : 1 ≤ m) : linspace (0 : ℝ) 1 (m + 1) = (List.range (m + 1)).map (prob m) := by
  unfold linspace
  apply List.map_congr_left
  intro i _
  rw [if_neg (by omega)]
  unfold prob
  push_cast
  ring

theorem prob_step (m i : ℕ) : prob m (i + 1) - prob m i = 1 / m := by
  unfold prob
  push_cast
  ring

theorem prob_rising (m : ℕ) (hm : 1 ≤ m) : Rising (prob m) m := by
  intro i j h _
  unfold prob
  have : (0 : ℝ) < m := by exact_mod_cast hm
  have h' : (i : ℝ) < j := by exact_mod_cast h
  exact div_lt_div_of_pos_right h' this

theorem prob_zero (m : ℕ) : prob m 0 = 0 := by simp [prob]

theorem prob_last (m : ℕ) (hm : 1 ≤ m) : prob m m = 1 := by
  unfold prob
  have : (m : ℝ) ≠ 0 := by exact_mod_cast (by omega : m ≠ 0)
  exact div_self this

theorem prob_mem (m i : ℕ) (hm : 1 ≤ m) (h : i ≤ m) : prob m i ∈ Icc (0 : ℝ) 1 :=
  ⟨prob_zero m ▸ rising_le (prob_rising m hm) 0 i (by omega) h, prob_last m hm ▸ rising_le (prob_rising m hm) i m h le_rfl⟩

/-- the computed quantile function of one PDF -/
noncomputable def curve (m : ℕ) (X Y : ℕ → ℝ) (x : ℝ) : ℝ := quadSpline ((List.range (m + 1)).map fun i => (X i, Y i)) x

/-- between the quantiles the curve is never farther from the quantile function than two and a half times its greatest step -/
theorem ppf_row (m : ℕ) (hm : 2 ≤ m) (Q : ℝ → ℝ) (hQ : MonotoneOn Q (Icc 0 1)) (G : ℝ) (hG : ∀ u ∈ Icc (0 : ℝ) 1, ∀ v ∈ Icc (0 : ℝ) 1, u ≤ v → v - u ≤ 1 / m → Q v - Q u ≤ G) (p : ℝ) (hp : p ∈ Icc (0 : ℝ) 1) :
    |curve m (prob m) (fun i => Q (prob m i)) p - Q p| ≤ 5 / 2 * G := by
  have hm0 : (0 : ℝ) < m := by exact_mod_cast (by omega : 0 < m)
  have hst := prob_step m
  have step : ∀ i : ℕ, i < m → 0 ≤ Q (prob m (i + 1)) - Q (prob m i) ∧ Q (prob m (i + 1)) - Q (prob m i) ≤ G := by
    intro i hi
    have h1 := prob_mem m i (by omega) (by omega)
    have h2 := prob_mem m (i + 1) (by omega) (by omega)
    have h3 := (prob_rising m (by omega) i (i + 1) (by omega) (by omega)).le
    exact ⟨sub_nonneg.2 (hQ h1 h2 h3), hG _ h1 _ h2 h3 (hst i).le⟩
  have hG0 : 0 ≤ G := (step 0 (by omega)).1.trans (step 0 (by omega)).2
  obtain ⟨i, hi, h1, h2⟩ := in_interval (prob m) m p (by omega) (by rw [prob_zero]; exact hp.1) (by rw [prob_last m (by omega)]; exact hp.2)
  have key := C149_near_lines (prob m) (fun i => Q (prob m i)) m hm (prob_rising m (by omega)) 1 (G * m)
    (fun i _ => by rw [show i + 2 = (i + 1) + 1 by omega, hst, hst]; simp)
    (fun i hi => by
      rw [show i + 2 = (i + 1) + 1 by omega, hst, hst]
      simp only [div_div_eq_mul_div, div_one]
      rw [← sub_mul, abs_mul, abs_of_pos hm0]
      refine mul_le_mul_of_nonneg_right ?_ hm0.le
      have s1 := step i (by omega)
      have s2 := step (i + 1) hi
      rw [abs_le]
      constructor <;> linarith [s1.1, s1.2, s2.1, s2.2]) i hi p h1 h2
  have s1 := step i hi
  have e := hst i
  have hd0 : 0 ≤ p - prob m i := by linarith
  have hd1 : (p - prob m i) * m ≤ 1 := by
    have : p - prob m i ≤ 1 / m := by linarith
    calc (p - prob m i) * m ≤ 1 / m * m := mul_le_mul_of_nonneg_right this hm0.le
      _ = 1 := by field_simp
  rw [e, div_div_eq_mul_div, div_one] at key
  have t1 : (1 + 1 / 2) * (G * m) * (p - prob m i) ≤ 3 / 2 * G := by
    nlinarith [mul_le_mul_of_nonneg_left hd1 hG0]
  have t2 : 0 ≤ (Q (prob m (i + 1)) - Q (prob m i)) * m * (p - prob m i) ∧ (Q (prob m (i + 1)) - Q (prob m i)) * m * (p - prob m i) ≤ G := by
    have : 0 ≤ (p - prob m i) * m := mul_nonneg hd0 hm0.le
    constructor
    · nlinarith [mul_nonneg s1.1 this]
    · nlinarith [mul_le_mul s1.2 hd1 this hG0]
  have t3 : 0 ≤ Q p - Q (prob m i) ∧ Q p - Q (prob m i) ≤ G := by
    have g1 := prob_mem m i (by omega) (by omega)
    exact ⟨sub_nonneg.2 (hQ g1 hp h1), hG _ g1 _ hp h1 (by linarith)⟩
  have key := key.trans t1
  unfold curve
  rw [abs_le] at key ⊢
  constructor <;> linarith [key.1, key.2, t2.1, t2.2, t3.1, t3.2]

/-- what the conversion stores and answers -/
theorem quant_ens (ev : Evals ℝ) (e : Ens ℝ) (m : ℕ) (hm : 2 ≤ m) (Q : ℕ → ℝ → ℝ) (hs0 : e.frozen.shape.prod ≠ 0)
    (hppf : ev.ppf e.frozen (.arr (vec (linspace 0 1 (m + 1)))) = .ok ⟨e.frozen.shape ++ [m + 1], nums ((List.range e.frozen.shape.prod).map fun i => (linspace 0 1 (m + 1)).map (Q i)).flatten⟩) :
    ∃ e', convertTo (quantPy ev) e none [("quants", .arr (vec (linspace 0 1 (m + 1))))] = .ok e' ∧ e'.frozen.shape = e.frozen.shape ∧ e'.frozen.npdf = e.frozen.shape.prod ∧
      metaGrid e'.frozen.metadata "quants" = (List.range (m + 1)).map (prob m) ∧
      ∀ i < e.frozen.shape.prod, tableRow e'.frozen i "locs" = nums ((List.range (m + 1)).map fun j => Q i (prob m j)) := by
  have hl := linspace_prob m (by omega)
  have hlen : (linspace (0 : ℝ) 1 (m + 1)).length = m + 1 := length_linspace _ _ _
  have hh : (linspace (0 : ℝ) 1 (m + 1)).head? = some 0 := head_linspace 0 1 (m + 1) (by omega)
  have ht : (linspace (0 : ℝ) 1 (m + 1)).getLast? = some 1 := last_linspace 0 1 (m + 1) (by omega)
  have hpad : ∀ locs : List (List ℝ), (∀ r ∈ locs, r.length = m + 1) → quantInit (linspace (0 : ℝ) 1 (m + 1)) locs true = .ok (linspace 0 1 (m + 1), locs) := by
    intro locs hlocs
    have h1 : padQuantiles (linspace (0 : ℝ) 1 (m + 1)) locs = .ok (linspace 0 1 (m + 1), locs) := by
      unfold padQuantiles
      rw [hh, ht]
      have : ¬ (floatEps : ℝ) < 0 := by unfold floatEps; norm_num
      simp [this]
    unfold quantInit
    rw [if_pos rfl, h1]
    simp only
    rw [if_neg]
    simp only [List.any_eq_true, decide_eq_true_eq, not_exists, not_and, not_not, hlen]
    simpa using hlocs
  have hc := quant_conversion ev e (linspace 0 1 (m + 1)) (linspace 0 1 (m + 1)) hs0 (by intro h; rw [h] at hlen; simp at hlen) (fun i => (linspace 0 1 (m + 1)).map (Q i))
    (fun i => (linspace 0 1 (m + 1)).map (Q i)) (fun i _ => by simp) (hpad [] (by simp)) (by rw [hlen]; exact hppf) (fun i _ => hpad _ (by simp [hlen]))
  refine ⟨_, hc, rfl, by simp [frozenOf], ?_, ?_⟩
  · rw [metaGrid_quant, hl]
  · intro i hi
    simp only
    rw [tableRow_quant (linspace 0 1 (m + 1)) _ (fun i => (linspace 0 1 (m + 1)).map (Q i)) _ (fun i _ => by simp) i hi, hl, List.map_map]
    rfl

theorem zip_curve (m : ℕ) (X Y : ℕ → ℝ) : ((List.range (m + 1)).map X).zip ((List.range (m + 1)).map Y) = (List.range (m + 1)).map fun i => (X i, Y i) := by
  rw [List.zip_map']

theorem head_range (m : ℕ) (X : ℕ → ℝ) : ((List.range (m + 1)).map X).head? = some (X 0) := by rw [List.range_succ_eq_map]; simp

theorem last_range (m : ℕ) (X : ℕ → ℝ) : ((List.range (m + 1)).map X).getLast? = some (X m) := by rw [List.range_succ]; simp

theorem ppf_curve (m : ℕ) (hm : 1 ≤ m) (Y : ℕ → ℝ) (lo hi p : ℝ) (hp : p ∈ Icc (0 : ℝ) 1) :
    quantPpf quadSpline lo hi ((List.range (m + 1)).map (prob m)) ((List.range (m + 1)).map Y) p = some (curve m (prob m) Y p) := by
  rw [ppf_inside quadSpline lo hi _ _ 0 1 p (by rw [head_range, prob_zero]) (by rw [last_range, prob_last m hm]) hp.1 hp.2, zip_curve]
  rfl

/-- **C149: more quantiles, the quantile function.** An ensemble of any class whose quantile functions are continuous on [0,1] (so that they are finite at 0 and 1) and increase there is
converted to quantiles at `m + 1` evenly spaced probabilities from 0 to 1, `m` = 2, 3, …. Every conversion succeeds, and the quantiles of the converted ensembles tend to those of the original,
uniformly over all probabilities: the error is at most 5/2 times the greatest increase of the quantile function over a step of `1/m`. -/
theorem C149_ppf (ev : Evals ℝ) (e : Ens ℝ) (Q : ℕ → ℝ → ℝ) (hs0 : e.frozen.shape.prod ≠ 0)
    (hppf : ∀ t : List ℝ, t.Pairwise (· < ·) → (∀ p ∈ t, 0 ≤ p ∧ p ≤ 1) →
      ev.ppf e.frozen (.arr (vec t)) = .ok ⟨e.frozen.shape ++ [t.length], nums ((List.range e.frozen.shape.prod).map fun i => t.map (Q i)).flatten⟩)
    (hQ : ∀ i < e.frozen.shape.prod, MonotoneOn (Q i) (Icc 0 1)) (lo hi : ℝ) :
    ∃ (c : ℕ → Ens ℝ) (R : ℕ → ℕ → ℝ → ℝ),
      (∀ m, 2 ≤ m → convertTo (quantPy ev) e none [("quants", .arr (vec (linspace 0 1 (m + 1))))] = .ok (c m) ∧
        ∀ t : List ℝ, t.Pairwise (· < ·) → (∀ p ∈ t, 0 ≤ p ∧ p ≤ 1) → ensArr (quantPpfElem quadSpline lo hi) (c m).frozen (.arr (vec t))
          = .ok ⟨e.frozen.shape ++ [t.length], nums ((List.range e.frozen.shape.prod).map fun i => t.map (R m i)).flatten⟩) ∧
      (∀ m : ℕ, 2 ≤ m → ∀ i < e.frozen.shape.prod, ∀ G, (∀ u v, 0 ≤ u → u ≤ v → v ≤ 1 → v - u ≤ 1 / (m : ℝ) → Q i v - Q i u ≤ G) → ∀ p, 0 ≤ p → p ≤ 1 → |R m i p - Q i p| ≤ 5 / 2 * G) ∧
      ∀ i < e.frozen.shape.prod, ContinuousOn (Q i) (Icc 0 1) → TendstoUniformlyOn (fun m => R m i) (Q i) atTop (Icc 0 1) := by
  have hconv : ∀ m, ∃ c : Ens ℝ, 2 ≤ m → convertTo (quantPy ev) e none [("quants", .arr (vec (linspace 0 1 (m + 1))))] = .ok c ∧ c.frozen.shape = e.frozen.shape ∧ c.frozen.npdf = e.frozen.shape.prod ∧
      metaGrid c.frozen.metadata "quants" = (List.range (m + 1)).map (prob m) ∧
      ∀ i < e.frozen.shape.prod, tableRow c.frozen i "locs" = nums ((List.range (m + 1)).map fun j => Q i (prob m j)) := by
    intro m
    by_cases hm : 2 ≤ m
    · obtain ⟨c, hc⟩ := quant_ens ev e m hm Q hs0 (by
        have := hppf (linspace 0 1 (m + 1)) (linspace_pairwise 0 1 (m + 1) (by omega) zero_lt_one) (by
          rw [linspace_prob m (by omega)]
          intro p hp
          obtain ⟨j, hj, rfl⟩ := List.mem_map.1 hp
          exact prob_mem m j (by omega) (by have := List.mem_range.1 hj; omega))
        rwa [length_linspace] at this)
      exact ⟨c, fun _ => hc⟩
    · exact ⟨e, fun h => absurd h hm⟩
  choose c hc using hconv
  have bound : ∀ m : ℕ, 2 ≤ m → ∀ i < e.frozen.shape.prod, ∀ G, (∀ u v, 0 ≤ u → u ≤ v → v ≤ 1 → v - u ≤ 1 / (m : ℝ) → Q i v - Q i u ≤ G) → ∀ p, 0 ≤ p → p ≤ 1 →
      |curve m (prob m) (fun j => Q i (prob m j)) p - Q i p| ≤ 5 / 2 * G :=
    fun m hm i hi G hG p h0 h1 => ppf_row m hm (Q i) (hQ i hi) G (fun u hu v hv huv hd => hG u v hu.1 huv hv.2 hd) p ⟨h0, h1⟩
  refine ⟨c, fun m i => curve m (prob m) (fun j => Q i (prob m j)), fun m hm => ⟨(hc m hm).1, fun t ht h01 => ?_⟩, bound, fun i hi hcont => ?_⟩
  · obtain ⟨-, h1, h2, h3, h4⟩ := hc m hm
    have := ConvertInterpError.ensArr_at (quantPpfElem quadSpline lo hi) (c m).frozen (by rw [h2, h1]) t ht (fun i => curve m (prob m) (fun j => Q i (prob m j))) (by
      intro i hi v hv
      rw [h1] at hi
      simp only [quantPpfElem, quantPpfRow, h3, h4 i hi, finites_nums, Option.bind_some]
      rw [ppf_curve m (by omega) _ lo _ v (h01 v hv)])
    rw [h1] at this
    exact this
  · rw [Metric.tendstoUniformlyOn_iff]
    intro ε hε
    obtain ⟨δ, hδ, hd⟩ := Metric.uniformContinuousOn_iff.1 (isCompact_Icc.uniformContinuousOn_of_continuous hcont) (ε / 3) (by positivity)
    obtain ⟨N, hN⟩ := exists_nat_gt (1 / δ)
    filter_upwards [eventually_ge_atTop (max N 2)] with m hm p hp
    have hm2 : 2 ≤ m := (le_max_right _ _).trans hm
    have hmN : (N : ℝ) ≤ m := by exact_mod_cast (le_max_left _ _).trans hm
    have hm0 : (0 : ℝ) < m := by exact_mod_cast (by omega : 0 < m)
    have hlt : 1 / (m : ℝ) < δ := by
      rw [div_lt_iff₀ hm0]
      have : 1 / δ < m := hN.trans_le hmN
      rw [div_lt_iff₀ hδ] at this
      linarith
    have := bound m hm2 i hi (ε / 3) (fun u v h0 huv h1 hdist => by
      have := hd v ⟨h0.trans huv, h1⟩ u ⟨h0, huv.trans h1⟩ (by rw [Real.dist_eq, abs_of_nonneg (by linarith)]; linarith)
      rw [Real.dist_eq] at this
      exact (le_abs_self _).trans this.le) p hp.1 hp.2
    rw [dist_comm, Real.dist_eq]
    linarith

/-! ### the CDF and the density -/

/-- a PDF on `[a, b]` with a continuous positive density `f`, CDF `F` and quantile function `Q` -/
structure Smooth (a b : ℝ) (F f Q : ℝ → ℝ) : Prop where
  lt : a < b
  cont : ContinuousOn F (Icc a b)
  dens : ∀ x ∈ Ioo a b, HasDerivAt F (f x) x
  fcont : ContinuousOn f (Icc a b)
  pos : ∀ x ∈ Icc a b, 0 < f x
  left : F a = 0
  right : F b = 1
  quant : ∀ p ∈ Icc (0 : ℝ) 1, Q p ∈ Icc a b ∧ F (Q p) = p

section

variable {a b : ℝ} {F f Q : ℝ → ℝ}

theorem Smooth.slope (h : Smooth a b F f Q) {u v : ℝ} (hu : a ≤ u) (huv : u < v) (hv : v ≤ b) : ∃ ξ ∈ Icc u v, F v - F u = f ξ * (v - u) := by
  obtain ⟨ξ, hξ, e⟩ := exists_hasDerivAt_eq_slope F f huv (h.cont.mono (Icc_subset_Icc hu hv)) (fun x hx => h.dens x ⟨hu.trans_lt hx.1, hx.2.trans_le hv⟩)
  refine ⟨ξ, Ioo_subset_Icc_self hξ, ?_⟩
  rw [e]
  have : v - u ≠ 0 := by linarith
  field_simp

theorem Smooth.strict (h : Smooth a b F f Q) : StrictMonoOn F (Icc a b) := by
  intro u hu v hv huv
  obtain ⟨ξ, hξ, e⟩ := h.slope hu.1 huv hv.2
  have := mul_pos (h.pos ξ ⟨hu.1.trans hξ.1, hξ.2.trans hv.2⟩) (sub_pos.2 huv)
  linarith

theorem Smooth.bounds (h : Smooth a b F f Q) : ∃ c M, 0 < c ∧ c ≤ M ∧ ∀ x ∈ Icc a b, c ≤ f x ∧ f x ≤ M := by
  have ne : (Icc a b).Nonempty := ⟨a, le_rfl, h.lt.le⟩
  obtain ⟨u, hu, hmin⟩ := isCompact_Icc.exists_isMinOn ne h.fcont
  obtain ⟨v, hv, hmax⟩ := isCompact_Icc.exists_isMaxOn ne h.fcont
  exact ⟨f u, f v, h.pos u hu, hmax hu, fun x hx => ⟨hmin hx, hmax hx⟩⟩

theorem Smooth.ends (h : Smooth a b F f Q) : Q 0 = a ∧ Q 1 = b := by
  have h0 := h.quant 0 (by simp)
  have h1 := h.quant 1 (by simp)
  exact ⟨h.strict.injOn h0.1 ⟨le_rfl, h.lt.le⟩ (by rw [h0.2, h.left]), h.strict.injOn h1.1 ⟨h.lt.le, le_rfl⟩ (by rw [h1.2, h.right])⟩

/-- the stored locations -/
noncomputable def loc (Q : ℝ → ℝ) (m i : ℕ) : ℝ := Q (prob m i)

theorem Smooth.rising (h : Smooth a b F f Q) (m : ℕ) (hm : 1 ≤ m) : Rising (loc Q m) m := by
  intro i j hij hj
  have hi := h.quant _ (prob_mem m i hm (by omega))
  have hj' := h.quant _ (prob_mem m j hm hj)
  unfold loc
  rw [← h.strict.lt_iff_lt hi.1 hj'.1]
  rw [hi.2, hj'.2]
  exact prob_rising m hm i j hij hj

/-- one step of probability -/
theorem Smooth.step (h : Smooth a b F f Q) (m : ℕ) (hm : 1 ≤ m) (i : ℕ) (hi : i < m) :
    loc Q m i ∈ Icc a b ∧ loc Q m (i + 1) ∈ Icc a b ∧ ∃ ξ ∈ Icc (loc Q m i) (loc Q m (i + 1)), chord (loc Q m) (prob m) i = f ξ ∧ f ξ * (loc Q m (i + 1) - loc Q m i) = 1 / m := by
  have h1 := h.quant _ (prob_mem m i hm (by omega))
  have h2 := h.quant _ (prob_mem m (i + 1) hm (by omega))
  have hr := h.rising m hm i (i + 1) (by omega) (by omega)
  obtain ⟨ξ, hξ, e⟩ := h.slope (u := loc Q m i) (v := loc Q m (i + 1)) h1.1.1 hr h2.1.2
  have e1 : F (loc Q m (i + 1)) = prob m (i + 1) := h2.2
  have e2 : F (loc Q m i) = prob m i := h1.2
  rw [e1, e2] at e
  refine ⟨h1.1, h2.1, ξ, hξ, ?_, ?_⟩
  · rw [chord, e]
    have : loc Q m (i + 1) - loc Q m i ≠ 0 := by linarith
    field_simp
  · rw [← e, prob_step]

/-- how uneven the stored locations are, and how much the slopes vary -/
theorem Smooth.bends (h : Smooth a b F f Q) (m : ℕ) (hm : 2 ≤ m) (c M : ℝ) (hc : 0 < c) (hM : ∀ x ∈ Icc a b, c ≤ f x ∧ f x ≤ M) (w : ℝ)
    (hw : ∀ x ∈ Icc a b, ∀ y ∈ Icc a b, |x - y| ≤ 2 / (m * c) → |f x - f y| ≤ w) :
    (∀ i : ℕ, i < m → loc Q m (i + 1) - loc Q m i ≤ 1 / (m * c)) ∧ Bends (loc Q m) (prob m) m (M / c) w := by
  have hm0 : (0 : ℝ) < m := by exact_mod_cast (by omega : 0 < m)
  have up : ∀ i : ℕ, i < m → loc Q m (i + 1) - loc Q m i ≤ 1 / (m * c) ∧ 1 / m ≤ M * (loc Q m (i + 1) - loc Q m i) := by
    intro i hi
    obtain ⟨h1, h2, ξ, hξ, -, e⟩ := h.step m (by omega) i hi
    have hξ' : ξ ∈ Icc a b := ⟨h1.1.trans hξ.1, hξ.2.trans h2.2⟩
    have hp : 0 < loc Q m (i + 1) - loc Q m i := sub_pos.2 (h.rising m (by omega) i (i + 1) (by omega) (by omega))
    constructor
    · rw [← div_div, ← e, le_div_iff₀ hc]
      nlinarith [mul_le_mul_of_nonneg_right (hM ξ hξ').1 hp.le]
    · rw [← e]
      exact mul_le_mul_of_nonneg_right (hM ξ hξ').2 hp.le
  have ratio : ∀ i j : ℕ, i < m → j < m → loc Q m (i + 1) - loc Q m i ≤ M / c * (loc Q m (j + 1) - loc Q m j) := by
    intro i j hi hj
    refine (up i hi).1.trans ?_
    rw [← div_div, div_mul_eq_mul_div]
    exact div_le_div_of_nonneg_right (up j hj).2 hc.le
  refine ⟨fun i hi => (up i hi).1, fun i hi => ratio (i + 1) i (by omega) (by omega), fun i hi => ratio i (i + 1) (by omega) (by omega), fun i hi => ?_⟩
  obtain ⟨h1, h2, ξ, hξ, e, -⟩ := h.step m (by omega) i (by omega)
  obtain ⟨h3, h4, η, hη, e', -⟩ := h.step m (by omega) (i + 1) hi
  rw [e, e']
  refine hw η ⟨h3.1.trans hη.1, hη.2.trans h4.2⟩ ξ ⟨h1.1.trans hξ.1, hξ.2.trans h2.2⟩ ?_
  have g1 := (up i (by omega)).1
  have g2 := (up (i + 1) hi).1
  have : 2 / (m * c) = 1 / (m * c) + 1 / (m * c) := by ring
  rw [this, abs_le]
  constructor <;> linarith [hξ.1, hξ.2, hη.1, hη.2]

/-- the CDF of one PDF -/
theorem Smooth.cdf_near (h : Smooth a b F f Q) (m : ℕ) (hm : 2 ≤ m) (c M : ℝ) (hc : 0 < c) (hM : ∀ x ∈ Icc a b, c ≤ f x ∧ f x ≤ M) (w : ℝ)
    (hw : ∀ x ∈ Icc a b, ∀ y ∈ Icc a b, |x - y| ≤ 2 / (m * c) → |f x - f y| ≤ w) (x : ℝ) (hx : x ∈ Icc a b) :
    |curve m (loc Q m) (prob m) x - F x| ≤ (2 + M / c / 2) * w * (1 / (m * c)) := by
  have hm0 : (0 : ℝ) < m := by exact_mod_cast (by omega : 0 < m)
  obtain ⟨hstep, hb⟩ := h.bends m hm c M hc hM w hw
  obtain ⟨i, hi, h1, h2⟩ := in_interval (loc Q m) m x (by omega) (by unfold loc; rw [prob_zero, h.ends.1]; exact hx.1) (by unfold loc; rw [prob_last m (by omega), h.ends.2]; exact hx.2)
  have key := C149_near_lines (loc Q m) (prob m) m hm (h.rising m (by omega)) (M / c) w (fun i hi => ⟨hb.ratio_right i hi, hb.ratio_left i hi⟩) hb.bend i hi x h1 h2
  obtain ⟨g1, g2, ξ, hξ, e, -⟩ := h.step m (by omega) i hi
  have hM0 : 0 < M := hc.trans_le ((hM x hx).1.trans (hM x hx).2)
  have hw0 : 0 ≤ w := (abs_nonneg _).trans (hw x hx x hx (by rw [sub_self, abs_zero]; positivity))
  change |curve m (loc Q m) (prob m) x - (prob m i + chord (loc Q m) (prob m) i * (x - loc Q m i))| ≤ _ at key
  rw [e] at key
  have hF : |F x - (prob m i + f ξ * (x - loc Q m i))| ≤ w * (x - loc Q m i) := by
    have e2 : F (loc Q m i) = prob m i := (h.quant _ (prob_mem m i (by omega) (by omega))).2
    rcases h1.eq_or_lt with h1' | h1'
    · rw [← h1', e2]; simp
    · obtain ⟨η, hη, e3⟩ := h.slope g1.1 h1' hx.2
      rw [show F x - (prob m i + f ξ * (x - loc Q m i)) = (f η - f ξ) * (x - loc Q m i) by rw [← e2]; linear_combination e3, abs_mul, abs_of_pos (sub_pos.2 h1')]
      refine mul_le_mul_of_nonneg_right ?_ (sub_pos.2 h1').le
      refine hw η ⟨g1.1.trans hη.1, hη.2.trans hx.2⟩ ξ ⟨g1.1.trans hξ.1, hξ.2.trans g2.2⟩ ?_
      have := hstep i hi
      have : 2 / (m * c) = 1 / (m * c) + 1 / (m * c) := by ring
      have hp : 0 < 1 / (m * c) := by positivity
      rw [this, abs_le]
      constructor <;> linarith [hξ.1, hξ.2, hη.1, hη.2]
  have hd : x - loc Q m i ≤ 1 / (m * c) := by have := hstep i hi; linarith
  have hd0 : 0 ≤ x - loc Q m i := by linarith
  calc |curve m (loc Q m) (prob m) x - F x|
      = |(curve m (loc Q m) (prob m) x - (prob m i + f ξ * (x - loc Q m i))) - (F x - (prob m i + f ξ * (x - loc Q m i)))| := by congr 1; ring
    _ ≤ (1 + M / c / 2) * w * (x - loc Q m i) + w * (x - loc Q m i) := (abs_sub _ _).trans (add_le_add key hF)
    _ = (2 + M / c / 2) * w * (x - loc Q m i) := by ring
    _ ≤ _ := mul_le_mul_of_nonneg_left hd (by positivity)

/-- the CDF is one when the density varies little over a step -/
theorem Smooth.cdf_mono (h : Smooth a b F f Q) (m : ℕ) (hm : 2 ≤ m) (c M : ℝ) (hc : 0 < c) (hM : ∀ x ∈ Icc a b, c ≤ f x ∧ f x ≤ M) (w : ℝ)
    (hw : ∀ x ∈ Icc a b, ∀ y ∈ Icc a b, |x - y| ≤ 2 / (m * c) → |f x - f y| ≤ w) (hs : (1 + M / c / 2) * w ≤ c) :
    (∀ x y F G, x ≤ y → quantCdf quadSpline ((List.range (m + 1)).map (prob m)) ((List.range (m + 1)).map (loc Q m)) x = some F →
      quantCdf quadSpline ((List.range (m + 1)).map (prob m)) ((List.range (m + 1)).map (loc Q m)) y = some G → F ≤ G) ∧
    ∀ x, ∃ F, quantCdf quadSpline ((List.range (m + 1)).map (prob m)) ((List.range (m + 1)).map (loc Q m)) x = some F ∧ 0 ≤ F ∧ F ≤ 1 := by
  obtain ⟨-, hb⟩ := h.bends m hm c M hc hM w hw
  refine C149_enough (loc Q m) (prob m) m hm (h.rising m (by omega)) (prob_zero m) (prob_last m (by omega)) (M / c) w (fun i hi => ⟨hb.ratio_right i hi, hb.ratio_left i hi⟩) hb.bend fun i hi => ?_
  obtain ⟨g1, g2, ξ, hξ, e, -⟩ := h.step m (by omega) i hi
  rw [show (prob m (i + 1) - prob m i) / (loc Q m (i + 1) - loc Q m i) = chord (loc Q m) (prob m) i from rfl, e]
  exact hs.trans (hM ξ ⟨g1.1.trans hξ.1, hξ.2.trans g2.2⟩).1

theorem diff_range (X : ℕ → ℝ) (m : ℕ) : diff ((List.range (m + 1)).map X) = (List.range m).map fun i => X (i + 1) - X i := by
  apply List.ext_getElem?
  intro i
  by_cases hi : i < m
  · rw [getElem?_diff _ i (X i) (X (i + 1)) (by simp [show i < m + 1 by omega]) (by simp [hi])]
    simp [hi]
  · rw [List.getElem?_eq_none (by rw [Np.length_diff]; simp; omega), List.getElem?_eq_none (by simp; omega)]

/-- the density of one PDF, between the first and the last midpoint -/
theorem Smooth.pdf_near (h : Smooth a b F f Q) (m : ℕ) (hm : 2 ≤ m) (c M : ℝ) (hc : 0 < c) (hM : ∀ x ∈ Icc a b, c ≤ f x ∧ f x ≤ M) (w : ℝ)
    (hw : ∀ x ∈ Icc a b, ∀ y ∈ Icc a b, |x - y| ≤ 2 / (m * c) → |f x - f y| ≤ w) (x : ℝ) (h1 : a + 1 / (m * c) ≤ x) (h2 : x ≤ b - 1 / (m * c)) :
    ∃ v, linearPdf ((List.range (m + 1)).map (prob m)) ((List.range (m + 1)).map (loc Q m)) x = some v ∧ |v - f x| ≤ w := by
  have hm0 : (0 : ℝ) < m := by exact_mod_cast (by omega : 0 < m)
  have hp0 : 0 < 1 / (m * c) := by positivity
  have hX := h.rising m (by omega)
  obtain ⟨hstep, hb⟩ := h.bends m hm c M hc hM w hw
  set L := (List.range (m + 1)).map (loc Q m) with hL
  set q := (List.range (m + 1)).map (prob m) with hq
  have el : ∀ i : ℕ, i ≤ m → L[i]? = some (loc Q m i) := fun i hi => by simp [hL, show i < m + 1 by omega]
  have ea : ∀ i : ℕ, i < m → (adjustedLocs L)[i]? = some (mid (loc Q m) i) := by
    intro i hi
    have := Quant.getElem?_adjusted L i _ _ (el i (by omega)) (el (i + 1) (by omega))
    rw [this]
    rfl
  have ed : ∀ i : ℕ, i < m → (cdfDerivs q L)[i]? = some (chord (loc Q m) (prob m) i) := by
    intro i hi
    unfold cdfDerivs
    rw [hq, hL, diff_range, diff_range]
    simp [hi, chord]
  have hlen : q.length = L.length := by simp [hL, hq]
  have hg : InterpPdf.XGrid (adjustedLocs L) (cdfDerivs q L).length := by
    have l1 := Quant.length_adjusted L
    have l2 := Quant.length_derivs q L hlen
    have l3 : L.length = m + 1 := by simp [hL]
    exact ⟨(Quant.strict_adjusted L (pairwise_rising hX)).1, by omega, by omega⟩
  have e0 : loc Q m 0 = a := by unfold loc; rw [prob_zero, h.ends.1]
  have e1 : loc Q m m = b := by unfold loc; rw [prob_last m (by omega), h.ends.2]
  -- the cell between midpoints
  have lo : mid (loc Q m) 0 ≤ x := by
    have := (mid_bounds hX 0 (by omega)).2
    have := hstep 0 (by omega)
    linarith
  have hi' : x ≤ mid (loc Q m) (m - 1) := by
    have g1 := (mid_bounds hX (m - 1) (by omega)).1
    have g2 := hstep (m - 1) (by omega)
    rw [show m - 1 + 1 = m by omega] at g2
    linarith
  obtain ⟨i, hi, h3, h4⟩ := in_interval (mid (loc Q m)) (m - 1) x (by omega) lo hi'
  obtain ⟨d, hd, -, hmin, hmax⟩ := (InterpPdf.C15_pdf_through_points (adjustedLocs L) (cdfDerivs q L) hg).2.1 i _ _ _ _ x (ea i (by omega)) (ea (i + 1) (by omega)) (ed i (by omega)) (ed (i + 1) (by omega)) h3 h4
  refine ⟨d, hd, ?_⟩
  obtain ⟨g1, g2, ξ, hξ, e, -⟩ := h.step m (by omega) i (by omega)
  obtain ⟨g3, g4, η, hη, e', -⟩ := h.step m (by omega) (i + 1) (by omega)
  rw [e, e'] at hmin hmax
  have hxm : x ∈ Icc a b := ⟨by linarith, by linarith⟩
  have b1 := mid_bounds hX i (by omega)
  have b2 := mid_bounds hX (i + 1) (by omega)
  have s1 := hstep i (by omega)
  have s2 := hstep (i + 1) (by omega)
  have two : 2 / (m * c) = 1 / (m * c) + 1 / (m * c) := by ring
  have w1 := hw ξ ⟨g1.1.trans hξ.1, hξ.2.trans g2.2⟩ x hxm (by rw [two, abs_le]; constructor <;> linarith [hξ.1, hξ.2])
  have w2 := hw η ⟨g3.1.trans hη.1, hη.2.trans g4.2⟩ x hxm (by rw [two, abs_le]; constructor <;> linarith [hη.1, hη.2])
  rw [abs_le] at w1 w2 ⊢
  constructor
  · rcases min_choice (f ξ) (f η) with hh | hh <;> rw [hh] at hmin <;> linarith [w1.1, w2.1]
  · rcases max_choice (f ξ) (f η) with hh | hh <;> rw [hh] at hmax <;> linarith [w1.2, w2.2]

/-- for a given accuracy there are enough quantiles -/
theorem Smooth.enough (h : Smooth a b F f Q) (c : ℝ) (w : ℝ) (hw : 0 < w) :
    ∀ᶠ m : ℕ in atTop, 2 ≤ m ∧ ∀ x ∈ Icc a b, ∀ y ∈ Icc a b, |x - y| ≤ 2 / (m * c) → |f x - f y| ≤ w := by
  obtain ⟨δ, hδ, hd⟩ := Metric.uniformContinuousOn_iff.1 (isCompact_Icc.uniformContinuousOn_of_continuous h.fcont) w hw
  have : Tendsto (fun m : ℕ => 2 / ((m : ℝ) * c)) atTop (𝓝 0) := by
    have := (tendsto_one_div_atTop_nhds_zero_nat (𝕜 := ℝ)).const_mul (2 / c)
    rw [mul_zero] at this
    refine this.congr fun m => ?_
    rw [div_mul_div_comm, mul_one, mul_comm]
  filter_upwards [this.eventually_lt_const hδ, eventually_ge_atTop 2] with m hm h2
  refine ⟨h2, fun x hx y hy hxy => ?_⟩
  have := hd x hx y hy (by rw [Real.dist_eq]; linarith)
  rw [Real.dist_eq] at this
  exact this.le

end

/-- the CDF outside the locations -/
theorem cdf_outside (spl : List (ℝ × ℝ) → ℝ → ℝ) (quants locs : List ℝ) (a b x : ℝ) (ha : locs.head? = some a) (hb : locs.getLast? = some b) :
    (x < a → quantCdf spl quants locs x = some 0) ∧ (a ≤ x → b < x → quantCdf spl quants locs x = some 1) := by
  match locs with
  | [] => simp at ha
  | l0 :: t =>
    simp only [List.head?_cons, Option.some.injEq] at ha
    subst ha
    rw [List.getLast?_eq_some_getLast (by simp)] at hb
    have hb := Option.some.inj hb
    refine ⟨fun h => by simp [quantCdf, h], fun h h' => ?_⟩
    rw [quantCdf, if_neg (not_lt.2 h), if_pos (by rw [hb]; exact h')]

/-- **C149: more quantiles, the CDF and the density.** An ensemble of any class whose PDFs have a continuous positive density on an interval `[a, b]` each is converted to quantiles at `m + 1`
evenly spaced probabilities from 0 to 1. The CDFs of the converted ensembles tend to the original ones, uniformly and faster than `1/m`; from some `m` on they really are CDFs; and the
densities (with the default reconstruction) tend to the original ones, uniformly away from the two ends. -/
theorem C149_smooth (ev : Evals ℝ) (e : Ens ℝ) (a b : ℕ → ℝ) (F f Q : ℕ → ℝ → ℝ) (hs0 : e.frozen.shape.prod ≠ 0)
    (hppf : ∀ t : List ℝ, t.Pairwise (· < ·) → (∀ p ∈ t, 0 ≤ p ∧ p ≤ 1) →
      ev.ppf e.frozen (.arr (vec t)) = .ok ⟨e.frozen.shape ++ [t.length], nums ((List.range e.frozen.shape.prod).map fun i => t.map (Q i)).flatten⟩)
    (hQ : ∀ i < e.frozen.shape.prod, Smooth (a i) (b i) (F i) (f i) (Q i)) :
    ∃ (c : ℕ → Ens ℝ) (G g : ℕ → ℕ → ℝ → ℝ),
      (∀ m, 2 ≤ m → convertTo (quantPy ev) e none [("quants", .arr (vec (linspace 0 1 (m + 1))))] = .ok (c m) ∧
        (∀ t : List ℝ, t.Pairwise (· < ·) → ensArr (quantCdfElem quadSpline) (c m).frozen (.arr (vec t))
          = .ok ⟨e.frozen.shape ++ [t.length], nums ((List.range e.frozen.shape.prod).map fun i => t.map (G m i)).flatten⟩) ∧
        ∀ t : List ℝ, t.Pairwise (· < ·) → ensArr quantPdfElem (c m).frozen (.arr (vec t))
          = .ok ⟨e.frozen.shape ++ [t.length], nums ((List.range e.frozen.shape.prod).map fun i => t.map (g m i)).flatten⟩) ∧
      (∀ i < e.frozen.shape.prod, TendstoUniformlyOn (fun (m : ℕ) x => m * (G m i x - F i x)) 0 atTop (Icc (a i) (b i))) ∧
      (∀ m, 2 ≤ m → ∀ i < e.frozen.shape.prod, ∀ x, (x < a i → G m i x = 0) ∧ (b i < x → G m i x = 1)) ∧
      (∀ i < e.frozen.shape.prod, ∀ᶠ m in atTop, Monotone (G m i) ∧ ∀ x, 0 ≤ G m i x ∧ G m i x ≤ 1) ∧
      (∀ i < e.frozen.shape.prod, ∀ δ > 0, TendstoUniformlyOn (fun m => g m i) (f i) atTop (Icc (a i + δ) (b i - δ))) := by
  have hconv : ∀ m, ∃ c : Ens ℝ, 2 ≤ m → convertTo (quantPy ev) e none [("quants", .arr (vec (linspace 0 1 (m + 1))))] = .ok c ∧ c.frozen.shape = e.frozen.shape ∧ c.frozen.npdf = e.frozen.shape.prod ∧
      metaGrid c.frozen.metadata "quants" = (List.range (m + 1)).map (prob m) ∧
      ∀ i < e.frozen.shape.prod, tableRow c.frozen i "locs" = nums ((List.range (m + 1)).map fun j => Q i (prob m j)) := by
    intro m
    by_cases hm : 2 ≤ m
    · obtain ⟨c, hc⟩ := quant_ens ev e m hm Q hs0 (by
        have := hppf (linspace 0 1 (m + 1)) (linspace_pairwise 0 1 (m + 1) (by omega) zero_lt_one) (by
          rw [linspace_prob m (by omega)]
          intro p hp
          obtain ⟨j, hj, rfl⟩ := List.mem_map.1 hp
          exact prob_mem m j (by omega) (by have := List.mem_range.1 hj; omega))
        rwa [length_linspace] at this)
      exact ⟨c, fun _ => hc⟩
    · exact ⟨e, fun h => absurd h hm⟩
  choose c hc using hconv
  set C : ℕ → ℕ → ℝ → Option ℝ := fun m i x => quantCdf quadSpline ((List.range (m + 1)).map (prob m)) ((List.range (m + 1)).map (loc (Q i) m)) x with hC
  set P : ℕ → ℕ → ℝ → Option ℝ := fun m i x => linearPdf ((List.range (m + 1)).map (prob m)) ((List.range (m + 1)).map (loc (Q i) m)) x with hP
  have ends : ∀ m, 1 ≤ m → ∀ i < e.frozen.shape.prod, ((List.range (m + 1)).map (loc (Q i) m)).head? = some (a i) ∧ ((List.range (m + 1)).map (loc (Q i) m)).getLast? = some (b i) := by
    intro m hm i hi
    rw [head_range, last_range]
    unfold loc
    rw [prob_zero, prob_last m hm, (hQ i hi).ends.1, (hQ i hi).ends.2]
    exact ⟨rfl, rfl⟩
  have inside : ∀ m, 1 ≤ m → ∀ i < e.frozen.shape.prod, ∀ x ∈ Icc (a i) (b i), C m i x = some (curve m (loc (Q i) m) (prob m) x) := by
    intro m hm i hi x hx
    obtain ⟨e1, e2⟩ := ends m hm i hi
    rw [hC]
    simp only
    rw [cdf_inside quadSpline _ _ (a i) (b i) x e1 e2 hx.1 hx.2, zip_curve]
    rfl
  have outside : ∀ m, 2 ≤ m → ∀ i < e.frozen.shape.prod, ∀ x, (x < a i → C m i x = some 0) ∧ (b i < x → C m i x = some 1) := by
    intro m hm i hi x
    obtain ⟨e1, e2⟩ := ends m (by omega) i hi
    obtain ⟨o1, o2⟩ := cdf_outside quadSpline ((List.range (m + 1)).map (prob m)) _ (a i) (b i) x e1 e2
    exact ⟨o1, fun h => o2 ((hQ i hi).lt.le.trans h.le) h⟩
  have total : ∀ m, 2 ≤ m → ∀ i < e.frozen.shape.prod, ∀ x, C m i x = some ((C m i x).getD 0) := by
    intro m hm i hi x
    by_cases h1 : x < a i
    · rw [(outside m hm i hi x).1 h1]; rfl
    · by_cases h2 : b i < x
      · rw [(outside m hm i hi x).2 h2]; rfl
      · rw [inside m (by omega) i hi x ⟨not_lt.1 h1, not_lt.1 h2⟩]; rfl
  have totalP : ∀ m, 2 ≤ m → ∀ i < e.frozen.shape.prod, ∀ x, P m i x = some ((P m i x).getD 0) := by
    intro m hm i hi x
    obtain ⟨v, hv, -⟩ := Quant.C20_linear_partial ((List.range (m + 1)).map (prob m)) ((List.range (m + 1)).map (loc (Q i) m)) (pairwise_rising (prob_rising m (by omega)))
      (pairwise_rising ((hQ i hi).rising m (by omega))) (by simp) (by simp; omega) x
    have : P m i x = some v := hv
    rw [this]; rfl
  refine ⟨c, fun m i x => (C m i x).getD 0, fun m i x => (P m i x).getD 0, fun m hm => ⟨(hc m hm).1, fun t ht => ?_, fun t ht => ?_⟩, ?_, ?_, ?_, ?_⟩
  · obtain ⟨-, h1, h2, h3, h4⟩ := hc m hm
    have := ConvertInterpError.ensArr_at (quantCdfElem quadSpline) (c m).frozen (by rw [h2, h1]) t ht (fun i x => (C m i x).getD 0) (by
      intro i hi v _
      rw [h1] at hi
      simp only [quantCdfElem, h3, h4 i hi, finites_nums, Option.bind_some]
      exact congrArg Elem.num (total m hm i hi v))
    rw [h1] at this
    exact this
  · obtain ⟨-, h1, h2, h3, h4⟩ := hc m hm
    have := ConvertInterpError.ensArr_at quantPdfElem (c m).frozen (by rw [h2, h1]) t ht (fun i x => (P m i x).getD 0) (by
      intro i hi v _
      rw [h1] at hi
      simp only [quantPdfElem, h3, h4 i hi, finites_nums, Option.bind_some]
      exact congrArg Elem.num (totalP m hm i hi v))
    rw [h1] at this
    exact this
  · intro i hi
    have h := hQ i hi
    obtain ⟨k, M, hk, hkM, hb⟩ := h.bounds
    rw [Metric.tendstoUniformlyOn_iff]
    intro ε hε
    have hM : 0 < M := hk.trans_le hkM
    filter_upwards [h.enough k (ε * k / (2 * (2 + M / k / 2))) (by positivity)] with m hm x hx
    have hm0 : (0 : ℝ) < m := by exact_mod_cast (by omega : 0 < m)
    have := h.cdf_near m hm.1 k M hk hb _ hm.2 x hx
    simp only [inside m (by omega) i hi x hx, Option.getD_some, Pi.zero_apply]
    rw [dist_comm, Real.dist_eq, sub_zero, abs_mul, abs_of_pos hm0]
    calc (m : ℝ) * |curve m (loc (Q i) m) (prob m) x - F i x| ≤ m * ((2 + M / k / 2) * (ε * k / (2 * (2 + M / k / 2))) * (1 / (m * k))) := mul_le_mul_of_nonneg_left this hm0.le
      _ = ε / 2 := by
        have : 2 + M / k / 2 ≠ 0 := by positivity
        generalize 2 + M / k / 2 = A at *
        field_simp
      _ < ε := by linarith
  · intro m hm i hi x
    obtain ⟨o1, o2⟩ := outside m hm i hi x
    exact ⟨fun h => by simp only [o1 h, Option.getD_some], fun h => by simp only [o2 h, Option.getD_some]⟩
  · intro i hi
    have h := hQ i hi
    obtain ⟨k, M, hk, hkM, hb⟩ := h.bounds
    have hM : 0 < M := hk.trans_le hkM
    filter_upwards [h.enough k (k / (1 + M / k / 2)) (by positivity)] with m hm
    obtain ⟨k1, k2⟩ := h.cdf_mono m hm.1 k M hk hb _ hm.2 (by
      have : (1 + M / k / 2) ≠ 0 := by positivity
      generalize 1 + M / k / 2 = A at *
      rw [mul_div_cancel₀ _ this])
    refine ⟨fun x y hxy => k1 x y _ _ hxy (total m hm.1 i hi x) (total m hm.1 i hi y), fun x => ?_⟩
    obtain ⟨v, hv, h0, h1⟩ := k2 x
    have : C m i x = some v := hv
    simp only [this, Option.getD_some]
    exact ⟨h0, h1⟩
  · intro i hi δ hδ
    have h := hQ i hi
    obtain ⟨k, M, hk, hkM, hb⟩ := h.bounds
    rw [Metric.tendstoUniformlyOn_iff]
    intro ε hε
    have ht : Tendsto (fun m : ℕ => 1 / ((m : ℝ) * k)) atTop (𝓝 0) := by
      have := (tendsto_one_div_atTop_nhds_zero_nat (𝕜 := ℝ)).const_mul (1 / k)
      rw [mul_zero] at this
      refine this.congr fun m => ?_
      rw [div_mul_div_comm, mul_one, mul_comm]
    filter_upwards [h.enough k (ε / 2) (by positivity), ht.eventually_lt_const hδ] with m hm hmd x hx
    obtain ⟨v, hv, hvx⟩ := h.pdf_near m hm.1 k M hk hb _ hm.2 x (by linarith [hx.1]) (by linarith [hx.2])
    have : P m i x = some v := hv
    simp only [this, Option.getD_some]
    rw [dist_comm, Real.dist_eq]
    linarith

/-! ### a case: the PDF `(1 + 2x)/2` on the unit interval -/

/-- its quantile function -/
noncomputable def rampQ (p : ℝ) : ℝ := (Real.sqrt (1 + 8 * p) - 1) / 2

theorem ramp_smooth : Smooth 0 1 (fun x => (x + x ^ 2) / 2) (fun x => (1 + 2 * x) / 2) rampQ where
  lt := one_pos
  cont := by fun_prop
  dens := by
    intro x _
    have := ((hasDerivAt_id x).add (hasDerivAt_pow 2 x)).div_const 2
    simpa using this
  fcont := by fun_prop
  pos := by intro x hx; have := hx.1; positivity
  left := by norm_num
  right := by norm_num
  quant := by
    intro p hp
    have h1 : 1 ≤ Real.sqrt (1 + 8 * p) := by
      rw [Real.le_sqrt' (by norm_num)]
      linarith [hp.1]
    have h2 : Real.sqrt (1 + 8 * p) ≤ 3 := by
      rw [Real.sqrt_le_left (by norm_num)]
      linarith [hp.2]
    have h3 := Real.sq_sqrt (show (0 : ℝ) ≤ 1 + 8 * p by linarith [hp.1])
    refine ⟨⟨?_, ?_⟩, ?_⟩
    · unfold rampQ; linarith
    · unfold rampQ; linarith
    · unfold rampQ
      nlinarith

example (fr : Frozen ℝ) (hfr : fr.shape = [2]) := C149_smooth
  ⟨fun _ _ => .error .Unmodelled, fun _ _ => .error .Unmodelled, fun _ v => match v with
    | .arr t => .ok ⟨[2] ++ [((finites t.data).getD []).length], nums ((List.range 2).map fun _ => ((finites t.data).getD []).map rampQ).flatten⟩
    | _ => .error .Unmodelled⟩
  ⟨rowCreate histCls, rowCreate histCls, fr, none⟩ (fun _ => 0) (fun _ => 1) _ _ (fun _ => rampQ) (by simp [hfr])
  (fun t _ _ => by simp [hfr, vec, finites_nums]) (fun _ _ => ramp_smooth)

theorem ramp_mono : MonotoneOn rampQ (Icc 0 1) := fun p _ q _ h => by
  unfold rampQ
  have := Real.sqrt_le_sqrt (show 1 + 8 * p ≤ 1 + 8 * q by linarith)
  linarith

example (fr : Frozen ℝ) (hfr : fr.shape = [2]) := C149_ppf
  ⟨fun _ _ => .error .Unmodelled, fun _ _ => .error .Unmodelled, fun _ v => match v with
    | .arr t => .ok ⟨[2] ++ [((finites t.data).getD []).length], nums ((List.range 2).map fun _ => ((finites t.data).getD []).map rampQ).flatten⟩
    | _ => .error .Unmodelled⟩
  ⟨rowCreate histCls, rowCreate histCls, fr, none⟩ (fun _ => rampQ) (by simp [hfr])
  (fun t _ _ => by simp [hfr, vec, finites_nums]) (fun _ _ => ramp_mono) 0 1

end Verif.Props.QuantFine
