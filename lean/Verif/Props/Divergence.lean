import Mathlib.Analysis.InnerProductSpace.PiL2
import Mathlib.Tactic.Linarith
import Verif.Model.MetricsReal
import Verif.Props.MetricGrid
import Verif.Props.Brier

/-!
# C68: Kullback-Leibler divergence, C69: root mean square error
-/

set_option linter.unusedSectionVars false
set_option autoImplicit false

namespace Verif.Props.Metrics

open Verif Verif.Np Verif.Model

/-- the divergence of one PDF from another on a grid: `r * ∑ f * (log f - log h)`, with values below the machine epsilon raised to it inside
the logarithms -/
noncomputable def kldOn (xs : List ℝ) (r : ℝ) (f h : ℝ → ℝ) : ℝ :=
  r * (xs.map fun x => f x * (Real.log (max (f x) machEps) - Real.log (max (h x) machEps))).sum

theorem quickKld_eq (xs : List ℝ) (r : ℝ) (f h : ℝ → ℝ) : quickKld (xs.map f) (xs.map h) r = kldOn xs r f h := by
  rw [quickKld, kldOn, sum_eq]
  congr 2
  induction xs with
  | nil => rfl
  | cons x xs ih => simp only [List.map_cons, List.zipWith_cons_cons, ih]; rfl

theorem machEps_pos : 0 < machEps := by unfold machEps; positivity

theorem kld_unfold {p q : FnEns ℝ} {l0 l1 dx : ℝ} {g : MGrid ℝ} (hs : p.shape = q.shape) (hg : gridParams l0 l1 dx = .ok g) :
    calculateKld p q l0 l1 dx = .ok (
      if (∃ v ∈ List.zipWith (kldOn g.values g.resolution) p.fns q.fns, v < 0)
      then (List.zipWith (kldOn g.values g.resolution) p.fns q.fns).map fun _ => machEps
      else List.zipWith (kldOn g.values g.resolution) p.fns q.fns) := by
  unfold calculateKld
  rw [if_neg (by simpa using hs), hg]
  simp only [Bind.bind, Except.bind, quickKld_eq, List.any_eq_true, decide_eq_true_eq]

theorem kld_grid {p q : FnEns ℝ} {l0 l1 dx : ℝ} {ds : List ℝ} (h : calculateKld p q l0 l1 dx = .ok ds) :
    p.shape = q.shape ∧ ∃ g, gridParams l0 l1 dx = .ok g := by
  unfold calculateKld at h
  split_ifs at h with hs
  refine ⟨not_not.1 hs, ?_⟩
  cases hg : gridParams l0 l1 dx with
  | error e => simp [hg, Bind.bind, Except.bind] at h
  | ok g => exact ⟨g, rfl⟩

/-- The divergence of an ensemble from itself is 0 for every PDF. -/
theorem C68_self (p : FnEns ℝ) (l0 l1 dx : ℝ) (g : MGrid ℝ) (hg : gridParams l0 l1 dx = .ok g) :
    calculateKld p p l0 l1 dx = .ok (List.replicate p.fns.length 0) := by
  have hz : List.zipWith (kldOn g.values g.resolution) p.fns p.fns = List.replicate p.fns.length 0 := by
    induction p.fns with
    | nil => rfl
    | cons f fs ih =>
      simp only [List.zipWith_cons_cons, ih, List.length_cons, List.replicate_succ]
      congr 1
      simp [kldOn]
  rw [kld_unfold rfl hg, hz, if_neg]
  rintro ⟨v, hv, hneg⟩
  rw [(List.mem_replicate.1 hv).2] at hneg
  exact lt_irrefl _ hneg

/-- No reported divergence is negative. -/
theorem C68_nonneg (p q : FnEns ℝ) (l0 l1 dx : ℝ) (ds : List ℝ) (h : calculateKld p q l0 l1 dx = .ok ds) : ∀ d ∈ ds, 0 ≤ d := by
  obtain ⟨hs, g, hg⟩ := kld_grid h
  rw [kld_unfold hs hg] at h
  cases h
  intro d hd
  split_ifs at hd with hn
  · simp only [List.mem_map] at hd
    obtain ⟨_, _, rfl⟩ := hd
    exact machEps_pos.le
  · by_contra hneg
    exact hn ⟨d, hd, not_le.1 hneg⟩

/-- Ensembles of different shapes are rejected, whatever the limits. -/
theorem C68_shape (p q : FnEns ℝ) (l0 l1 dx : ℝ) (h : p.shape ≠ q.shape) : calculateKld p q l0 l1 dx = .error .ValueError := by
  unfold calculateKld; rw [if_pos h]

/-- **C68**, independence of the other PDFs, as long as no PDF of the ensemble has a negative sum on the grid: every value is the one that the
PDF has alone. (False of the code otherwise: `C68_any_negative`, `C68_depends_on_others`.) -/
theorem C68_rows_partial (p q : FnEns ℝ) (l0 l1 dx : ℝ) (g : MGrid ℝ) (hg : gridParams l0 l1 dx = .ok g) (hs : p.shape = q.shape)
    (hpos : ∀ v ∈ List.zipWith (kldOn g.values g.resolution) p.fns q.fns, 0 ≤ v) :
    ∃ ds, calculateKld p q l0 l1 dx = .ok ds ∧ ∀ (i : ℕ) f h, p.fns[i]? = some f → q.fns[i]? = some h →
      ∃ d, ds[i]? = some d ∧ d = kldOn g.values g.resolution f h ∧ calculateKld ⟨[1], [f]⟩ ⟨[1], [h]⟩ l0 l1 dx = .ok [d] := by
  refine ⟨_, kld_unfold hs hg, ?_⟩
  intro i f h hf hh
  have hget : (List.zipWith (kldOn g.values g.resolution) p.fns q.fns)[i]? = some (kldOn g.values g.resolution f h) := by
    rw [List.getElem?_zipWith, hf, hh]
  have hi := hpos _ (List.mem_of_getElem? hget)
  refine ⟨_, ?_, rfl, ?_⟩
  · rw [if_neg]
    · exact hget
    · rintro ⟨v, hv, hn⟩
      exact absurd (hpos v hv) (not_le.2 hn)
  · rw [kld_unfold (p := ⟨[1], [f]⟩) (q := ⟨[1], [h]⟩) rfl hg, if_neg]
    · rfl
    · rintro ⟨v, hv, hn⟩
      simp only [List.zipWith_cons_cons, List.zipWith_nil_left, List.mem_singleton] at hv
      rw [hv] at hn
      exact absurd hi (not_le.2 hn)

/-- When a single PDF has a negative sum on the grid, **all** values are replaced by the machine epsilon. -/
theorem C68_any_negative (p q : FnEns ℝ) (l0 l1 dx : ℝ) (g : MGrid ℝ) (hg : gridParams l0 l1 dx = .ok g) (hs : p.shape = q.shape)
    (hneg : ∃ v ∈ List.zipWith (kldOn g.values g.resolution) p.fns q.fns, v < 0) :
    calculateKld p q l0 l1 dx = .ok (List.replicate (min p.fns.length q.fns.length) machEps) := by
  rw [kld_unfold hs hg, if_pos hneg, List.map_const', List.length_zipWith]

/-- the summand is bounded below by the difference of the values -/
theorem kld_term (a b : ℝ) : a - max b machEps ≤ a * (Real.log (max a machEps) - Real.log (max b machEps)) := by
  have he := machEps_pos
  have hB : 0 < max b machEps := lt_max_of_lt_right he
  have key (c : ℝ) (hc : 0 < c) : c - max b machEps ≤ c * (Real.log c - Real.log (max b machEps)) := by
    have h1 := Real.log_le_sub_one_of_pos (div_pos hB hc)
    rw [Real.log_div hB.ne' hc.ne'] at h1
    have h2 := mul_le_mul_of_nonneg_left h1 hc.le
    have h3 : c * (max b machEps / c - 1) = max b machEps - c := by field_simp
    rw [h3] at h2
    linarith
  rcases le_total machEps a with h | h
  · rw [max_eq_left h]
    exact key a (lt_of_lt_of_le he h)
  · rw [max_eq_right h]
    have h1 := key machEps he
    have h2 : Real.log machEps - Real.log (max b machEps) ≤ 0 := by
      have := Real.log_le_log he (le_max_right b machEps)
      linarith
    have h3 := mul_le_mul_of_nonpos_right h h2
    linarith

/-- Gibbs' inequality on the grid: the divergence is at least the mass of `f` minus the mass of `h` (with the
values of `h` raised to the machine epsilon). A negative value -- and with it the replacement -- can only come from a mass defect of `f`. -/
theorem C68_gibbs (xs : List ℝ) (r : ℝ) (hr : 0 ≤ r) (f h : ℝ → ℝ) :
    r * ((xs.map f).sum - (xs.map fun x => max (h x) machEps).sum) ≤ kldOn xs r f h := by
  unfold kldOn
  apply mul_le_mul_of_nonneg_left _ hr
  induction xs with
  | nil => simp
  | cons x xs ih =>
    simp only [List.map_cons, List.sum_cons]
    have := kld_term (f x) (h x)
    linarith

theorem grid_0_2_1 : gridParams (0 : ℝ) 2 1 = .ok ⟨[0, 2], 2, 2, [-1, 1, 3], (0, 2)⟩ := by
  have h2 : pyInt ((2 - 0 : ℝ) / 1) = 2 := by
    unfold pyInt
    norm_num
  have e1 : (((2 : ℤ).toNat : ℕ) : ℝ) = 2 := by
    have : (2 : ℤ).toNat = 2 := rfl
    rw [this]; norm_num
  unfold gridParams
  rw [if_neg (by norm_num), h2, if_neg (by norm_num), if_neg (by norm_num)]
  simp only [e1]
  have e : histogramBinEdges ((0 : ℝ) - (2 - 0) / (2 - 1) / 2) (2 + (2 - 0) / (2 - 1) / 2) (2 : ℤ).toNat = .ok [-1, 1, 3] := by
    have : (2 : ℤ).toNat = 2 := rfl
    rw [this]
    norm_num [histogramBinEdges, linspace, List.range_succ]
  rw [e]
  simp only [Bind.bind, Except.bind, Except.ok.injEq, MGrid.mk.injEq]
  refine ⟨?_, rfl, by norm_num, trivial, trivial⟩
  have : (2 : ℤ).toNat = 2 := rfl
  rw [this]
  norm_num [linspace, List.range_succ]

/-- The reported value depends on the other PDFs: alone, the first PDF has divergence `4 log 2`; in an ensemble with a second PDF whose sum is
negative it is reported as the machine epsilon. -/
theorem C68_depends_on_others : ∃ (f f' h h' : ℝ → ℝ) (v : ℝ),
    calculateKld ⟨[1], [f]⟩ ⟨[1], [h]⟩ 0 2 1 = .ok [v] ∧ calculateKld ⟨[2], [f, f']⟩ ⟨[2], [h, h']⟩ 0 2 1 = .ok [machEps, machEps] ∧
    v ≠ machEps := by
  have hlog : 0 < Real.log 2 := Real.log_pos (by norm_num)
  have heps : machEps ≤ 1 / 2 := by unfold machEps; norm_num
  have m1 : max (1 : ℝ) machEps = 1 := max_eq_left (by linarith)
  have m2 : max (1 / 2 : ℝ) machEps = 1 / 2 := max_eq_left heps
  have l2 : Real.log (1 / 2) = - Real.log 2 := by rw [one_div, Real.log_inv]
  have k1 : kldOn [0, 2] 2 (fun _ => 1) (fun _ => 1 / 2) = 4 * Real.log 2 := by
    simp only [kldOn, m1, m2, l2, Real.log_one, List.map_cons, List.map_nil, List.sum_cons, List.sum_nil]; ring
  have k2 : kldOn [0, 2] 2 (fun _ => 1 / 2) (fun _ => 1) = - 2 * Real.log 2 := by
    simp only [kldOn, m1, m2, l2, Real.log_one, List.map_cons, List.map_nil, List.sum_cons, List.sum_nil]; ring
  refine ⟨fun _ => 1, fun _ => 1 / 2, fun _ => 1 / 2, fun _ => 1, 4 * Real.log 2, ?_, ?_, ?_⟩
  · rw [kld_unfold (p := ⟨[1], [fun _ => 1]⟩) (q := ⟨[1], [fun _ => 1 / 2]⟩) rfl grid_0_2_1, if_neg]
    · simp only [List.zipWith_cons_cons, List.zipWith_nil_left, k1]
    · rintro ⟨v, hv, hn⟩
      simp only [List.zipWith_cons_cons, List.zipWith_nil_left, List.mem_singleton, k1] at hv
      rw [hv] at hn
      linarith
  · rw [C68_any_negative ⟨[2], [fun _ => 1, fun _ => 1 / 2]⟩ ⟨[2], [fun _ => 1 / 2, fun _ => 1]⟩ _ _ _ _ grid_0_2_1 rfl]
    · rfl
    · refine ⟨_, by simp only [List.zipWith_cons_cons, List.zipWith_nil_left]; exact List.mem_cons_of_mem _ (List.mem_singleton.2 rfl), ?_⟩
      rw [k2]
      linarith
  · have h4 : (1 / 2 : ℝ) < 4 * Real.log 2 := by
      have := Real.one_sub_inv_le_log_of_pos (show (0 : ℝ) < 2 by norm_num)
      norm_num at this
      linarith
    exact ne_of_gt (lt_of_le_of_lt heps h4)

/-! ## C69 -/

/-- the root mean square difference of two PDFs over the points of a grid -/
noncomputable def rmseOn (xs : List ℝ) (n : ℕ) (f h : ℝ → ℝ) : ℝ := Real.sqrt ((xs.map fun x => (f x - h x) ^ 2).sum / (n : ℝ))

theorem quickRmse_eq (xs : List ℝ) (n : ℕ) (f h : ℝ → ℝ) : quickRmse (xs.map f) (xs.map h) n = rmseOn xs n f h := by
  rw [quickRmse, rmseOn, sum_eq]
  congr 3
  induction xs with
  | nil => rfl
  | cons x xs ih => simp only [List.map_cons, List.zipWith_cons_cons, ih]

/-- What is computed: for ensembles of the same shape the root mean square differences on the grid, PDF by PDF; `ValueError` otherwise. -/
theorem C69_value (p q : FnEns ℝ) (l0 l1 dx : ℝ) :
    (p.shape ≠ q.shape → calculateRmse p q l0 l1 dx = .error .ValueError) ∧
    (∀ g, p.shape = q.shape → gridParams l0 l1 dx = .ok g →
      calculateRmse p q l0 l1 dx = .ok (List.zipWith (rmseOn g.values g.card) p.fns q.fns)) := by
  constructor
  · intro h; unfold calculateRmse; rw [if_pos h]
  · intro g h hg
    unfold calculateRmse
    rw [if_neg (by simpa using h), hg]
    simp only [Bind.bind, Except.bind, quickRmse_eq]

/-- the distance of the gridded values as points of Euclidean space -/
theorem rmse_dist (xs : List ℝ) (n : ℕ) (f h : ℝ → ℝ) :
    rmseOn xs n f h = dist (WithLp.toLp 2 (fun i : Fin xs.length => f xs[i]) : EuclideanSpace ℝ (Fin xs.length))
      (WithLp.toLp 2 fun i : Fin xs.length => h xs[i]) / Real.sqrt n := by
  rw [EuclideanSpace.dist_eq, rmseOn, Real.sqrt_div' _ (Nat.cast_nonneg n)]
  congr 2
  have : (xs.map fun x => (f x - h x) ^ 2) = List.ofFn fun i : Fin xs.length => (f xs[i] - h xs[i]) ^ 2 := by
    apply List.ext_getElem <;> simp
  rw [this, List.sum_ofFn]
  simp [Real.dist_eq, sq_abs]

/-- **C69.** On the values at the grid points the error is a metric: non-negative, symmetric, zero exactly for equal values, and with the
triangle inequality. -/
theorem C69_metric (xs : List ℝ) (n : ℕ) (hn : 0 < n) (f h k : ℝ → ℝ) :
    0 ≤ rmseOn xs n f h ∧ rmseOn xs n f h = rmseOn xs n h f ∧ (rmseOn xs n f h = 0 ↔ ∀ x ∈ xs, f x = h x) ∧
    rmseOn xs n f k ≤ rmseOn xs n f h + rmseOn xs n h k := by
  have hs : 0 < Real.sqrt n := Real.sqrt_pos.2 (by exact_mod_cast hn)
  refine ⟨Real.sqrt_nonneg _, ?_, ?_, ?_⟩
  · rw [rmse_dist, rmse_dist, dist_comm]
  · rw [rmse_dist, div_eq_zero_iff, or_iff_left hs.ne', dist_eq_zero]
    constructor
    · intro he x hx
      obtain ⟨i, hi, rfl⟩ := List.mem_iff_getElem.1 hx
      exact congrFun (congrArg WithLp.ofLp he) ⟨i, hi⟩
    · intro he
      congr 1
      funext i
      exact he _ (List.getElem_mem _)
  · rw [rmse_dist, rmse_dist, rmse_dist, ← add_div]
    exact div_le_div_of_nonneg_right (dist_triangle _ _ _) hs.le

/-- **C69**, for the entry point: three ensembles of the same shape, compared on the same grid. -/
theorem C69_ensembles (p q s : FnEns ℝ) (l0 l1 dx : ℝ) (hpq : p.shape = q.shape) (hqs : q.shape = s.shape) (hp : p.Wf) (hq : q.Wf) (hs : s.Wf)
    (hg : ∃ g, gridParams l0 l1 dx = .ok g) :
    ∃ g a b c a', gridParams l0 l1 dx = .ok g ∧ calculateRmse p q l0 l1 dx = .ok a ∧ calculateRmse q s l0 l1 dx = .ok b ∧
      calculateRmse p s l0 l1 dx = .ok c ∧
      calculateRmse q p l0 l1 dx = .ok a' ∧ a = a' ∧ a.length = p.npdf ∧ b.length = p.npdf ∧ c.length = p.npdf ∧ (∀ v ∈ a, 0 ≤ v) ∧
      (∀ (i : ℕ) u v w, a[i]? = some u → b[i]? = some v → c[i]? = some w → w ≤ u + v) ∧
      ∀ (i : ℕ) f h u, p.fns[i]? = some f → q.fns[i]? = some h → a[i]? = some u → (u = 0 ↔ ∀ x ∈ g.values, f x = h x) := by
  obtain ⟨g, hg⟩ := hg
  have hc : 0 < g.card := by have := (gridParams_ok hg).2.2.2.1; omega
  refine ⟨g, _, _, _, _, hg, (C69_value p q l0 l1 dx).2 g hpq hg, (C69_value q s l0 l1 dx).2 g hqs hg,
    (C69_value p s l0 l1 dx).2 g (hpq.trans hqs) hg, (C69_value q p l0 l1 dx).2 g hpq.symm hg, ?_, ?_, ?_, ?_, ?_, ?_, ?_⟩
  · rw [List.zipWith_comm]
    congr 1
    funext f h
    exact (C69_metric g.values g.card hc h f f).2.1
  · rw [List.length_zipWith, hp, hq, hpq, min_self]; exact congrArg List.prod hpq.symm
  · rw [List.length_zipWith, hq, hs, ← hqs, min_self]; exact congrArg List.prod hpq.symm
  · rw [List.length_zipWith, hp, hs, ← hqs, ← hpq, min_self]; rfl
  · intro v hv
    obtain ⟨i, hi, rfl⟩ := List.mem_iff_getElem.1 hv
    rw [List.getElem_zipWith]
    exact Real.sqrt_nonneg _
  · intro i u v w hu hv hw
    simp only [List.getElem?_zipWith] at hu hv hw
    cases hfi : p.fns[i]? with
    | none => simp [hfi] at hu
    | some f =>
      cases hhi : q.fns[i]? with
      | none => simp [hfi, hhi] at hu
      | some h =>
        cases hki : s.fns[i]? with
        | none => simp [hhi, hki] at hv
        | some k =>
          simp only [hfi, hhi, hki, Option.some.injEq] at hu hv hw
          subst hu hv hw
          exact (C69_metric g.values g.card hc f h k).2.2.2
  · intro i f h u hf hh hu
    simp only [List.getElem?_zipWith, hf, hh, Option.some.injEq] at hu
    subst hu
    exact (C69_metric g.values g.card hc f h f).2.2.1

/-- two constant densities on the grid `[0, 2]`: distance 3; the hypotheses of the theorems hold -/
example : calculateRmse ⟨[1], [fun _ => 1]⟩ ⟨[1], [fun _ => 4]⟩ 0 2 1 = .ok [3] ∧ (⟨[1], [fun _ => 1]⟩ : FnEns ℝ).Wf := by
  refine ⟨?_, rfl⟩
  rw [(C69_value ⟨[1], [fun _ => 1]⟩ ⟨[1], [fun _ => 4]⟩ _ _ _).2 _ rfl grid_0_2_1]
  simp only [List.zipWith_cons_cons, List.zipWith_nil_left, rmseOn, List.map_cons, List.map_nil, List.sum_cons, List.sum_nil]
  norm_num
  rw [show (9 : ℝ) = 3 ^ 2 by norm_num, Real.sqrt_sq (by norm_num)]

end Verif.Props.Metrics
