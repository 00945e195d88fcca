import Verif.Lemmas.Riemann
import Verif.Props.Divergence
import Verif.Props.CdeLoss
import Verif.Model.Moments
import Mathlib.Data.List.GetD
import Mathlib.Topology.Algebra.Monoid
import Mathlib.Topology.Algebra.Order.Floor
import Mathlib.Analysis.SpecialFunctions.Log.Basic
import Mathlib.Analysis.SpecialFunctions.Sqrt
import Mathlib.Analysis.SpecialFunctions.Integrals.Basic

/-!
# C146: metrics on finer and finer grids

The metrics that evaluate densities on a grid with step `dx` are compared with the integrals they stand for, in the limit `dx → 0` from above. Densities are
arbitrary bounded functions that are continuous almost everywhere between the limits (`Tame`: histograms, interpolated and smooth densities).
-/

set_option linter.unusedSectionVars false
set_option autoImplicit false

namespace Verif.Props.FineGrid

open Verif Verif.Np Verif.Model Verif.Spec Verif.Lemmas.Riemann Verif.Props.Metrics MeasureTheory Filter Set Topology

/-- the number of points of the grid that the metrics make -/
noncomputable def points (l0 l1 dx : ℝ) : ℕ := ⌊(l1 - l0) / dx⌋₊

theorem points_tendsto {l0 l1 : ℝ} (h : l0 < l1) : Tendsto (points l0 l1) (𝓝[>] 0) atTop := by
  refine tendsto_nat_floor_atTop.comp ?_
  have := (tendsto_inv_nhdsGT_zero (𝕜 := ℝ)).const_mul_atTop (sub_pos.2 h)
  exact this.congr fun x => (div_eq_mul_inv _ _).symm

theorem grid_ok {l0 l1 : ℝ} (h : l0 < l1) : ∀ᶠ dx in 𝓝[>] (0 : ℝ), ∃ g, gridParams l0 l1 dx = .ok g ∧ g.card = points l0 l1 dx ∧
    g.values = linspace l0 l1 (points l0 l1 dx) ∧ g.resolution = (l1 - l0) / ((points l0 l1 dx : ℝ) - 1) ∧ 2 ≤ points l0 l1 dx := by
  filter_upwards [(points_tendsto h).eventually_ge_atTop 2, self_mem_nhdsWithin] with dx h2 hpos
  have hpos : 0 < dx := hpos
  have h0 : 0 ≤ (l1 - l0) / dx := div_nonneg (by linarith) hpos.le
  have h2' : 2 ≤ (l1 - l0) / dx := by
    have := (Nat.le_floor_iff h0).1 h2
    simpa using this
  obtain ⟨g, hg⟩ := (C60_success_iff l0 l1 dx).2 ⟨hpos.ne', h2'⟩
  obtain ⟨-, -, hc, h4, hr, hv, -⟩ := gridParams_ok hg
  have hcard : g.card = points l0 l1 dx := by
    have : (g.card : ℤ) = ⌊(l1 - l0) / dx⌋ := by rw [hc, pyInt, if_pos h0]
    rw [points, ← Int.floor_toNat, ← this, Int.toNat_natCast]
  exact ⟨g, hg, hcard, hcard ▸ hv, by rw [hr, hcard], h2⟩

/-- the sums over the grid of a metric approach the integral -/
theorem sums {l0 l1 : ℝ} (h : l0 < l1) {f : ℝ → ℝ} (hf : Tame l0 l1 f) :
    Tendsto (fun dx => (l1 - l0) / ((points l0 l1 dx : ℝ) - 1) * ((linspace l0 l1 (points l0 l1 dx)).map f).sum) (𝓝[>] 0) (𝓝 (∫ x in l0..l1, f x)) :=
  (riemann h hf).comp (points_tendsto h)

theorem inv_points {l0 l1 : ℝ} (h : l0 < l1) : Tendsto (fun dx => (1 : ℝ) / points l0 l1 dx) (𝓝[>] 0) (𝓝 0) :=
  (tendsto_const_div_atTop_nhds_zero_nat 1).comp (points_tendsto h)

theorem moment_sum (xs : List ℝ) (N : ℕ) (f : ℝ → ℝ) (r : ℝ) : quickMoment (xs.map f) (xs.map (· ^ N)) r = r * (xs.map fun x => f x * x ^ N).sum := by
  rw [quickMoment, sum_eq, mul_comm]
  congr 2
  induction xs with
  | nil => rfl
  | cons x xs ih => simp only [Np.mul, List.map_cons, List.zipWith_cons_cons] at ih ⊢; rw [ih]

theorem tame_pow {a b : ℝ} {f : ℝ → ℝ} (hf : Tame a b f) (N : ℕ) : Tame a b fun x => f x * x ^ N :=
  hf.map2 (tame_of_continuous continuous_id) (fun p => p.1 * p.2 ^ N) (by fun_prop)

/-- **C146: moments.** With finer grids `calculate_moment` approaches the integral of `x ^ N` times the density over the limits, for every PDF of every ensemble. -/
theorem C146_moment (e : FnEns ℝ) (N : ℕ) (l0 l1 : ℝ) (h : l0 < l1) (hf : ∀ f ∈ e.fns, Tame l0 l1 f) :
    ∃ m : ℝ → List ℝ, (∀ᶠ dx in 𝓝[>] 0, calculateMoment e N l0 l1 dx = .ok (m dx)) ∧
      ∀ (i : ℕ) f, e.fns[i]? = some f → Tendsto (fun dx => (m dx).getD i 0) (𝓝[>] 0) (𝓝 (∫ x in l0..l1, f x * x ^ N)) := by
  refine ⟨fun dx => e.fns.map fun f => (l1 - l0) / ((points l0 l1 dx : ℝ) - 1) * ((linspace l0 l1 (points l0 l1 dx)).map fun x => f x * x ^ N).sum, ?_, ?_⟩
  · filter_upwards [grid_ok h] with dx ⟨g, hg, hc, hv, hr, _⟩
    simp only [calculateMoment, hg, Bind.bind, Except.bind, moment_sum, hv, hr]
  · intro i f hi
    simp only [List.getD_eq_getElem?_getD, List.getElem?_map, hi, Option.map_some, Option.getD_some]
    exact sums h (tame_pow (hf f (List.mem_of_getElem? hi)) N)

/-- **C146: how fine is fine enough.** For an integrand that changes by at most `L` per unit the moment is off by at most the distance of the grid points times
`L (l1 - l0) + |the integrand at l1|`: on every grid, not only in the limit. -/
theorem C146_moment_error (e : FnEns ℝ) (N : ℕ) (l0 l1 dx : ℝ) (h : l0 < l1) (g : MGrid ℝ) (hg : gridParams l0 l1 dx = .ok g) :
    ∃ m, calculateMoment e N l0 l1 dx = .ok m ∧ m.length = e.fns.length ∧ ∀ (i : ℕ) f, e.fns[i]? = some f → ∀ L,
      (∀ x ∈ Icc l0 l1, ∀ y ∈ Icc l0 l1, |f x * x ^ N - f y * y ^ N| ≤ L * |x - y|) →
        |m.getD i 0 - ∫ x in l0..l1, f x * x ^ N| ≤ g.resolution * (L * (l1 - l0) + |f l1 * l1 ^ N|) := by
  obtain ⟨-, -, hc, h4, hr, hv, -⟩ := gridParams_ok hg
  obtain ⟨k, hk⟩ : ∃ k, g.card = k + 1 := ⟨g.card - 1, by omega⟩
  refine ⟨_, by simp only [calculateMoment, hg, Bind.bind, Except.bind, moment_sum]; rfl, by simp, fun i f hi L hL => ?_⟩
  have := riemann_error h (f := fun x => f x * x ^ N) hL k (by omega)
  simp only [List.getD_eq_getElem?_getD, List.getElem?_map, hi, Option.map_some, Option.getD_some]
  rw [hr, hv, hk]
  push_cast
  rw [add_sub_cancel_right]
  exact this

/-- **C146: on no grid exact.** The sum has one term more than there are steps, so the zeroth moment of the uniform density over the limits is not one
but `n / (n - 1)` on a grid of `n` points. -/
theorem C146_moment_uniform (s : List ℕ) (l0 l1 dx : ℝ) (h : l0 < l1) (g : MGrid ℝ) (hg : gridParams l0 l1 dx = .ok g) :
    calculateMoment ⟨s, [fun _ => 1 / (l1 - l0)]⟩ 0 l0 l1 dx = .ok [(g.card : ℝ) / ((g.card : ℝ) - 1)] ∧ (g.card : ℝ) / ((g.card : ℝ) - 1) ≠ 1 := by
  obtain ⟨-, -, hc, h4, hr, hv, -⟩ := gridParams_ok hg
  have h5 : (2 : ℝ) ≤ g.card := by exact_mod_cast h4
  have h6 : (g.card : ℝ) - 1 ≠ 0 := by linarith
  have h7 : l1 - l0 ≠ 0 := (sub_pos.2 h).ne'
  constructor
  · simp only [calculateMoment, hg, Bind.bind, Except.bind, List.map_cons, List.map_nil]
    rw [moment_sum, hr, hv]
    simp only [pow_zero, mul_one, List.map_const', List.sum_replicate, length_linspace, nsmul_eq_mul]
    congr 2
    field_simp
  · rw [Ne, div_eq_one_iff_eq h6]
    intro e
    linarith

/-- **C146: moments over limits.** `ens.moment_partial` multiplies by `dx` instead of the distance of the grid points; the limit is the same. -/
theorem C146_moment_limits (e : FnEns ℝ) (N : ℕ) (l0 l1 : ℝ) (h : l0 < l1) (hf : ∀ f ∈ e.fns, Tame l0 l1 f) :
    ∃ m : ℝ → List ℝ, (∀ᶠ dx in 𝓝[>] 0, momentPartial e N l0 l1 dx = .ok (m dx)) ∧
      ∀ (i : ℕ) f, e.fns[i]? = some f → Tendsto (fun dx => (m dx).getD i 0) (𝓝[>] 0) (𝓝 (∫ x in l0..l1, f x * x ^ N)) := by
  refine ⟨fun dx => e.fns.map fun f => dx * ((linspace l0 l1 (points l0 l1 dx)).map fun x => f x * x ^ N).sum, ?_, ?_⟩
  · filter_upwards [self_mem_nhdsWithin] with dx hpos
    have hpos : 0 < dx := hpos
    have h0 : 0 ≤ (l1 - l0) / dx := div_nonneg (by linarith) hpos.le
    have hp : pyInt ((l1 - l0) / dx) = ⌊(l1 - l0) / dx⌋ := by rw [pyInt, if_pos h0]
    rw [momentPartial, if_neg hpos.ne', hp, if_neg (not_lt.2 (Int.floor_nonneg.2 h0)), Int.floor_toNat]
    simp only [moment_sum]
    rfl
  · intro i f hi
    simp only [List.getD_eq_getElem?_getD, List.getElem?_map, hi, Option.map_some, Option.getD_some]
    have h1 := sums h (tame_pow (hf f (List.mem_of_getElem? hi)) N)
    have hL : 0 < l1 - l0 := sub_pos.2 h
    have hdx : Tendsto (fun dx : ℝ => dx) (𝓝[>] 0) (𝓝 0) := tendsto_id.mono_left nhdsWithin_le_nhds
    have hratio : Tendsto (fun dx => dx * ((points l0 l1 dx : ℝ) - 1) / (l1 - l0)) (𝓝[>] 0) (𝓝 1) := by
      have hlo : Tendsto (fun dx : ℝ => 1 - 2 * dx / (l1 - l0)) (𝓝[>] 0) (𝓝 1) := by
        have := tendsto_const_nhds (x := (1 : ℝ)) |>.sub ((hdx.const_mul 2).div_const (l1 - l0))
        simpa using this
      refine tendsto_of_tendsto_of_tendsto_of_le_of_le' hlo tendsto_const_nhds ?_ ?_
      · filter_upwards [self_mem_nhdsWithin] with dx hpos
        have hpos : 0 < dx := hpos
        have h3 := Nat.lt_floor_add_one ((l1 - l0) / dx)
        rw [div_lt_iff₀ hpos] at h3
        rw [sub_le_iff_le_add, ← add_div, le_div_iff₀ hL]
        unfold points
        nlinarith
      · filter_upwards [self_mem_nhdsWithin] with dx hpos
        have hpos : 0 < dx := hpos
        have h3 := Nat.floor_le (div_nonneg hL.le hpos.le : 0 ≤ (l1 - l0) / dx)
        rw [le_div_iff₀ hpos] at h3
        rw [div_le_iff₀ hL]
        unfold points
        nlinarith
    have := hratio.mul h1
    rw [one_mul] at this
    refine this.congr' ?_
    filter_upwards [grid_ok h] with dx ⟨g, _, _, _, _, h2⟩
    have h3 : ((points l0 l1 dx : ℝ) - 1) ≠ 0 := by
      have : (2 : ℝ) ≤ points l0 l1 dx := by exact_mod_cast h2
      linarith
    field_simp

/-- **C146: root mean square error.** The limit is the root of the mean over the limits of the squared difference of the densities. -/
theorem C146_rmse (p q : FnEns ℝ) (hs : p.shape = q.shape) (l0 l1 : ℝ) (h : l0 < l1) (hp : ∀ f ∈ p.fns, Tame l0 l1 f) (hq : ∀ f ∈ q.fns, Tame l0 l1 f) :
    ∃ m : ℝ → List ℝ, (∀ᶠ dx in 𝓝[>] 0, calculateRmse p q l0 l1 dx = .ok (m dx)) ∧
      ∀ (i : ℕ) f k, p.fns[i]? = some f → q.fns[i]? = some k →
        Tendsto (fun dx => (m dx).getD i 0) (𝓝[>] 0) (𝓝 (Real.sqrt ((∫ x in l0..l1, (f x - k x) ^ 2) / (l1 - l0)))) := by
  refine ⟨fun dx => List.zipWith (rmseOn (linspace l0 l1 (points l0 l1 dx)) (points l0 l1 dx)) p.fns q.fns, ?_, ?_⟩
  · filter_upwards [grid_ok h] with dx ⟨g, hg, hc, hv, hr, _⟩
    rw [(C69_value p q l0 l1 dx).2 g hs hg, hv, hc]
  · intro i f k hi hk
    simp only [List.getD_eq_getElem?_getD, List.getElem?_zipWith, hi, hk, Option.getD_some]
    refine (Real.continuous_sqrt.tendsto _).comp ?_
    have h1 := sums h ((hp f (List.mem_of_getElem? hi)).map2 (hq k (List.mem_of_getElem? hk)) (fun p => (p.1 - p.2) ^ 2) (by fun_prop))
    have hL : 0 < l1 - l0 := sub_pos.2 h
    have h2 : Tendsto (fun dx => (1 - 1 / (points l0 l1 dx : ℝ)) / (l1 - l0)) (𝓝[>] 0) (𝓝 (1 / (l1 - l0))) := by
      have := (tendsto_const_nhds (x := (1 : ℝ)) |>.sub (inv_points h)).div_const (l1 - l0)
      simpa using this
    have := h1.mul h2
    rw [mul_one_div] at this
    refine this.congr' ?_
    filter_upwards [grid_ok h] with dx ⟨g, _, _, _, _, h2⟩
    have h3 : (2 : ℝ) ≤ points l0 l1 dx := by exact_mod_cast h2
    have h4 : ((points l0 l1 dx : ℝ) - 1) ≠ 0 := by linarith
    have h5 : (points l0 l1 dx : ℝ) ≠ 0 := by linarith
    field_simp

/-- the divergence over the limits, with densities below the machine epsilon raised to it inside the logarithms -/
noncomputable def kldIntegral (l0 l1 : ℝ) (f k : ℝ → ℝ) : ℝ := ∫ x in l0..l1, f x * (Real.log (max (f x) machEps) - Real.log (max (k x) machEps))

theorem kld_sums {l0 l1 : ℝ} (h : l0 < l1) {f k : ℝ → ℝ} (hf : Tame l0 l1 f) (hk : Tame l0 l1 k) :
    Tendsto (fun dx => kldOn (linspace l0 l1 (points l0 l1 dx)) ((l1 - l0) / ((points l0 l1 dx : ℝ) - 1)) f k) (𝓝[>] 0) (𝓝 (kldIntegral l0 l1 f k)) := by
  have hpos : ∀ u : ℝ, max u machEps ≠ 0 := fun u => (lt_of_lt_of_le machEps_pos (le_max_right _ _)).ne'
  exact sums h (hf.map2 hk (fun p => p.1 * (Real.log (max p.1 machEps) - Real.log (max p.2 machEps)))
    (by
      refine continuous_fst.mul (Continuous.sub (Continuous.log (by fun_prop) fun p => hpos _) (Continuous.log (by fun_prop) fun p => hpos _))))

/-- **C146: divergences.** If the divergences of all pairs over the limits are positive, `calculate_kld` approaches each of them. -/
theorem C146_kld (p q : FnEns ℝ) (hs : p.shape = q.shape) (l0 l1 : ℝ) (h : l0 < l1) (hp : ∀ f ∈ p.fns, Tame l0 l1 f) (hq : ∀ f ∈ q.fns, Tame l0 l1 f)
    (hpos : ∀ v ∈ List.zipWith (kldIntegral l0 l1) p.fns q.fns, 0 < v) :
    ∃ m : ℝ → List ℝ, (∀ᶠ dx in 𝓝[>] 0, calculateKld p q l0 l1 dx = .ok (m dx)) ∧
      ∀ (i : ℕ) f k, p.fns[i]? = some f → q.fns[i]? = some k → Tendsto (fun dx => (m dx).getD i 0) (𝓝[>] 0) (𝓝 (kldIntegral l0 l1 f k)) := by
  set m := fun dx => List.zipWith (kldOn (linspace l0 l1 (points l0 l1 dx)) ((l1 - l0) / ((points l0 l1 dx : ℝ) - 1))) p.fns q.fns with hm
  have hlim : ∀ (i : ℕ) f k, p.fns[i]? = some f → q.fns[i]? = some k → Tendsto (fun dx => (m dx).getD i 0) (𝓝[>] 0) (𝓝 (kldIntegral l0 l1 f k)) := by
    intro i f k hi hk
    simp only [hm, List.getD_eq_getElem?_getD, List.getElem?_zipWith, hi, hk, Option.getD_some]
    exact kld_sums h (hp f (List.mem_of_getElem? hi)) (hq k (List.mem_of_getElem? hk))
  refine ⟨m, ?_, hlim⟩
  have hev : ∀ᶠ dx in 𝓝[>] (0 : ℝ), ∀ i ∈ Finset.range (List.zipWith (kldIntegral l0 l1) p.fns q.fns).length, 0 ≤ (m dx).getD i 0 := by
    rw [Filter.eventually_all_finset]
    intro i hi
    rw [Finset.mem_range, List.length_zipWith, lt_min_iff] at hi
    obtain ⟨f, hf⟩ : ∃ f, p.fns[i]? = some f := ⟨_, List.getElem?_eq_getElem hi.1⟩
    obtain ⟨k, hk⟩ : ∃ k, q.fns[i]? = some k := ⟨_, List.getElem?_eq_getElem hi.2⟩
    have h0 : 0 < kldIntegral l0 l1 f k := hpos _ (List.mem_of_getElem? (i := i) (by rw [List.getElem?_zipWith, hf, hk]))
    filter_upwards [(hlim i f k hf hk).eventually (lt_mem_nhds h0)] with dx hdx using hdx.le
  filter_upwards [grid_ok h, hev] with dx ⟨g, hg, hc, hv, hr, _⟩ hnn
  rw [kld_unfold hs hg, hv, hr, if_neg]
  rintro ⟨v, hv, hneg⟩
  obtain ⟨i, hi⟩ := List.mem_iff_getElem?.1 hv
  have hlt := (List.getElem?_eq_some_iff.1 hi).1
  have := hnn i (by simpa [List.length_zipWith] using hlt)
  rw [hm, List.getD_eq_getElem?_getD, hi] at this
  exact absurd hneg (not_lt.2 this)

/-- **C146 fails for divergences** of ensembles in which one of them is negative over the limits (it can be: the densities need not be normalised there):
on all fine grids every PDF gets the machine epsilon, whatever its own divergence. -/
theorem C146_kld_negative (p q : FnEns ℝ) (hs : p.shape = q.shape) (l0 l1 : ℝ) (h : l0 < l1) (hp : ∀ f ∈ p.fns, Tame l0 l1 f) (hq : ∀ f ∈ q.fns, Tame l0 l1 f)
    (hneg : ∃ v ∈ List.zipWith (kldIntegral l0 l1) p.fns q.fns, v < 0) :
    ∀ᶠ dx in 𝓝[>] 0, calculateKld p q l0 l1 dx = .ok (List.replicate (min p.fns.length q.fns.length) machEps) := by
  obtain ⟨v, hv, hlt⟩ := hneg
  obtain ⟨i, hi⟩ := List.mem_iff_getElem?.1 hv
  rw [List.getElem?_zipWith] at hi
  cases hf : p.fns[i]? with
  | none => simp [hf] at hi
  | some f =>
    cases hk : q.fns[i]? with
    | none => simp [hf, hk] at hi
    | some k =>
      simp only [hf, hk, Option.some.injEq] at hi
      subst hi
      filter_upwards [grid_ok h, (kld_sums h (hp f (List.mem_of_getElem? hf)) (hq k (List.mem_of_getElem? hk))).eventually (gt_mem_nhds hlt)] with dx ⟨g, hg, hc, hv, hr, _⟩ hn
      refine C68_any_negative p q l0 l1 dx g hg hs ⟨_, List.mem_of_getElem? (i := i) (by rw [List.getElem?_zipWith, hf, hk]), ?_⟩
      rwa [hv, hr]

/-! ## the Brier score -/

theorem mem_linspace {a b x : ℝ} {n : ℕ} (h : a < b) (hn : 2 ≤ n) (hx : x ∈ linspace a b n) : x ∈ Icc a b := by
  obtain ⟨j, hj, rfl⟩ := List.mem_map.1 hx
  rw [List.mem_range] at hj
  rw [if_neg (by omega)]
  have h2 : (2 : ℝ) ≤ n := by exact_mod_cast hn
  have h1 : (0 : ℝ) < (n : ℝ) - 1 := by linarith
  have hj' : (j : ℝ) ≤ (n : ℝ) - 1 := by
    have : ((j + 1 : ℕ) : ℝ) ≤ n := by exact_mod_cast hj
    push_cast at this
    linarith
  have hq : 0 ≤ (b - a) / ((n : ℝ) - 1) := div_nonneg (by linarith) h1.le
  refine ⟨by nlinarith [Nat.cast_nonneg (α := ℝ) j], ?_⟩
  have := mul_le_mul_of_nonneg_right hj' hq
  rw [mul_div_cancel₀ _ h1.ne'] at this
  linarith

theorem sqDist_oneHot (f : ℝ → ℝ) : ∀ (xs : List ℝ) (i : ℕ) (v : ℝ), xs[i]? = some v →
    sqDist (xs.map f) ((oneHot xs.length i).map fun (c : ℕ) => (c : ℝ)) = (xs.map fun x => f x ^ 2).sum - 2 * f v + 1 := by
  intro xs i v hv
  have hi := (List.getElem?_eq_some_iff.1 hv).1
  have hvi := (List.getElem?_eq_some_iff.1 hv).2
  rw [sqDist, sum_eq]
  have e : List.zipWith (fun a b => (a - b) ^ 2) (xs.map f) ((oneHot xs.length i).map fun (c : ℕ) => (c : ℝ)) =
      (List.range xs.length).map fun j => (f (xs.getD j 0) ^ 2 + if j = i then 1 - 2 * f v else 0) := by
    apply List.ext_getElem
    · simp [oneHot]
    · intro j h1 h2
      have hj : j < xs.length := by simpa using h2
      simp only [List.getElem_zipWith, List.getElem_map, oneHot, List.getElem_range, List.getD_eq_getElem _ _ hj]
      by_cases h : j = i
      · subst h
        simp [hvi]
        ring
      · simp [h]
  rw [e, range_sum, Finset.sum_add_distrib, Finset.sum_ite_eq' (Finset.range xs.length) i, if_pos (Finset.mem_range.2 hi), ← range_sum]
  have e2 : (List.range xs.length).map (fun j => f (xs.getD j 0) ^ 2) = xs.map fun x => f x ^ 2 := by
    apply List.ext_getElem
    · simp
    · intro j h1 h2
      have hj : j < xs.length := by simpa using h2
      simp [List.getElem?_eq_getElem hj]
  rw [e2]
  ring

/-- **C146: the Brier score (partial).** Multiplied by the distance of the grid points, the score approaches the mean of the integrals of the squared densities. The true
values have no influence on the limit. Missing: that the score itself approaches a number (false, `C146_brier_diverges`). -/
theorem C146_brier_partial (e : FnEns ℝ) (truth : List ℝ) (l0 l1 : ℝ) (h : l0 < l1) (hc : GoodChunk l0 l1 (e, truth)) (h2 : 2 ≤ truth.length)
    (hf : ∀ f ∈ e.fns, Tame l0 l1 f) :
    ∃ s : ℝ → ℝ, (∀ᶠ dx in 𝓝[>] 0, calculateBrier e truth l0 l1 dx = .ok (some (s dx))) ∧
      Tendsto (fun dx => (l1 - l0) / ((points l0 l1 dx : ℝ) - 1) * s dx) (𝓝[>] 0)
        (𝓝 ((e.fns.map fun f => ∫ x in l0..l1, f x ^ 2).sum / truth.length)) := by
  set G : ℝ → MGrid ℝ := fun dx => (gridParams l0 l1 dx).toOption.getD ⟨[], 0, 0, [], (0, 0)⟩ with hG
  set R : ℝ → ℝ := fun dx => (l1 - l0) / ((points l0 l1 dx : ℝ) - 1) with hR
  have hlen : e.fns.length = truth.length := hc.fns
  refine ⟨fun dx => (brierTerms (G dx) (e, truth)).sum / truth.length, ?_, ?_⟩
  · filter_upwards [grid_ok h] with dx ⟨g, hg, _⟩
    obtain ⟨p, t, hp, ht⟩ := brierSums_chunk l0 l1 dx g hg (e, truth) hc h2
    have hGg : G dx = g := by simp [hG, hg, Except.toOption]
    have hl : (brierTerms g (e, truth)).length = truth.length := by simp [brierTerms, hlen]
    have hne : brierTerms g (e, truth) ≠ [] := by intro h0; rw [h0] at hl; simp at hl; omega
    have hp' : prepareBrier e truth l0 l1 dx = .ok (p, t) := hp
    rw [calculateBrier, hp', hGg]
    simp only [Bind.bind, Except.bind, brierEvaluate, ht, Except.map, npMean, if_neg hne, sum_eq, hl]
  · have hR0 : Tendsto R (𝓝[>] 0) (𝓝 0) := by
      have hd : Tendsto (fun n : ℕ => (l1 - l0) / ((n : ℝ) - 1)) atTop (𝓝 0) := by
        rw [← tendsto_add_atTop_iff_nat 1]
        refine (tendsto_const_div_atTop_nhds_zero_nat (l1 - l0)).congr fun n => ?_
        push_cast
        rw [add_sub_cancel_right]
      exact hd.comp (points_tendsto h)
    have hterm : ∀ c ∈ e.fns.zip truth, Tendsto (fun dx => R dx * sqDist ((G dx).values.map c.1) (histRow (G dx).edges c.2)) (𝓝[>] 0) (𝓝 (∫ x in l0..l1, c.1 x ^ 2)) := by
      rintro ⟨f, t⟩ hmem
      obtain ⟨hfm, htm⟩ := List.of_mem_zip hmem
      have hft := hf f hfm
      obtain ⟨B, hB⟩ := hft.bound
      have hmain := sums h (hft.map2 hft (fun p => p.1 ^ 2) (by fun_prop))
      have hrest : Tendsto (fun dx => R dx * sqDist ((G dx).values.map f) (histRow (G dx).edges t) - R dx * (((linspace l0 l1 (points l0 l1 dx)).map fun x => f x ^ 2).sum))
          (𝓝[>] 0) (𝓝 0) := by
        have hb : Tendsto (fun dx => R dx * (2 * B + 1)) (𝓝[>] 0) (𝓝 0) := by simpa using hR0.mul_const (2 * B + 1)
        refine squeeze_zero_norm' ?_ hb
        filter_upwards [grid_ok h] with dx ⟨g, hg, hcard, hv, hr, hp2⟩
        have hGg : G dx = g := by simp [hG, hg, Except.toOption]
        obtain ⟨i, hi, hone, v, hvi, -, -⟩ := C61_one_hot l0 l1 dx g h hg t (hc.limits t htm).1 (hc.limits t htm).2
        have hgl : g.values.length = g.card := by rw [hv, length_linspace, hcard]
        have hrow : histRow g.edges t = (oneHot g.values.length i).map fun (c : ℕ) => (c : ℝ) := by simp [histRow, hone, Except.toOption, hgl]
        rw [hGg, hrow, sqDist_oneHot f g.values i v hvi, hv]
        have hvm : v ∈ Icc l0 l1 := by
          have hm : v ∈ linspace l0 l1 (points l0 l1 dx) := hv ▸ List.mem_of_getElem? hvi
          exact mem_linspace h hp2 hm
        have hRp : 0 ≤ R dx := by
          have : (2 : ℝ) ≤ points l0 l1 dx := by exact_mod_cast hp2
          exact div_nonneg (by linarith) (by linarith)
        have e : R dx * ((List.map (fun x => f x ^ 2) (linspace l0 l1 (points l0 l1 dx))).sum - 2 * f v + 1) -
            R dx * (List.map (fun x => f x ^ 2) (linspace l0 l1 (points l0 l1 dx))).sum = R dx * (1 - 2 * f v) := by ring
        rw [e, Real.norm_eq_abs, abs_mul, abs_of_nonneg hRp]
        have := abs_le.1 (hB v hvm)
        exact mul_le_mul_of_nonneg_left (abs_le.2 ⟨by linarith [this.2], by linarith [this.1]⟩) hRp
      have := hrest.add hmain
      rw [zero_add] at this
      exact this.congr fun dx => by simp only [hR]; ring
    have hsum := (tendsto_list_sum (e.fns.zip truth) hterm).div_const (truth.length : ℝ)
    have e1 : ((e.fns.zip truth).map fun c => ∫ x in l0..l1, c.1 x ^ 2) = e.fns.map fun f => ∫ x in l0..l1, f x ^ 2 := by
      conv_rhs => rw [← List.map_fst_zip (l₁ := e.fns) (l₂ := truth) (by omega), List.map_map]
      rfl
    rw [e1] at hsum
    refine hsum.congr fun dx => ?_
    have e2 : brierTerms (G dx) (e, truth) = (e.fns.zip truth).map fun c => sqDist ((G dx).values.map c.1) (histRow (G dx).edges c.2) := by
      rw [brierTerms, ← List.map_uncurry_zip_eq_zipWith]
      rfl
    simp only [e2]
    rw [List.sum_map_mul_left]
    ring

/-- **C146 fails for the Brier score**: on finer and finer grids it grows without limit (unless all densities vanish between the limits). -/
theorem C146_brier_diverges (e : FnEns ℝ) (truth : List ℝ) (l0 l1 : ℝ) (h : l0 < l1) (hc : GoodChunk l0 l1 (e, truth)) (h2 : 2 ≤ truth.length)
    (hf : ∀ f ∈ e.fns, Tame l0 l1 f) (hpos : 0 < (e.fns.map fun f => ∫ x in l0..l1, f x ^ 2).sum) :
    ∃ s : ℝ → ℝ, (∀ᶠ dx in 𝓝[>] 0, calculateBrier e truth l0 l1 dx = .ok (some (s dx))) ∧ Tendsto s (𝓝[>] 0) atTop := by
  obtain ⟨s, h1, h3⟩ := C146_brier_partial e truth l0 l1 h hc h2 hf
  refine ⟨s, h1, ?_⟩
  have hn : (0 : ℝ) < truth.length := by exact_mod_cast (by omega : 0 < truth.length)
  have hp : Tendsto (fun dx => ((points l0 l1 dx : ℝ) - 1) / (l1 - l0)) (𝓝[>] 0) atTop := by
    have hd : Tendsto (fun n : ℕ => ((n : ℝ) - 1) / (l1 - l0)) atTop atTop :=
      (tendsto_atTop_add_const_right atTop (-1 : ℝ) tendsto_natCast_atTop_atTop).atTop_div_const (sub_pos.2 h)
    exact hd.comp (points_tendsto h)
  refine (hp.atTop_mul_pos (div_pos hpos hn) h3).congr' ?_
  filter_upwards [grid_ok h] with dx ⟨g, _, _, _, _, hp2⟩
  have h3 : (2 : ℝ) ≤ points l0 l1 dx := by exact_mod_cast hp2
  have h4 : ((points l0 l1 dx : ℝ) - 1) ≠ 0 := by linarith
  have h5 : l1 - l0 ≠ 0 := (sub_pos.2 h).ne'
  field_simp


/-! ## the CDE loss -/

theorem linspace_succ (a b : ℝ) (m : ℕ) (hm : 1 ≤ m) : linspace a b (m + 1) = (List.range (m + 1)).map fun j : ℕ => a + j * ((b - a) / m) := by
  simp only [linspace]
  refine List.map_congr_left fun j _ => ?_
  rw [if_neg (by omega)]
  push_cast
  ring_nf

/-- every number between the limits is next to a point of the grid -/
theorem linspace_dense {a b : ℝ} (h : a < b) (m : ℕ) (hm : 1 ≤ m) {z : ℝ} (hz : z ∈ Icc a b) : ∃ y ∈ linspace a b (m + 1), |y - z| ≤ (b - a) / m := by
  have hm0 : (0 : ℝ) < m := by exact_mod_cast hm
  have hr : 0 < (b - a) / m := div_pos (sub_pos.2 h) hm0
  have hq : 0 ≤ (z - a) / ((b - a) / m) := div_nonneg (sub_nonneg.2 hz.1) hr.le
  have h1 := Nat.floor_le hq
  have h2 := Nat.lt_floor_add_one ((z - a) / ((b - a) / m))
  rw [le_div_iff₀ hr] at h1
  rw [div_lt_iff₀ hr] at h2
  have h3 : ⌊(z - a) / ((b - a) / m)⌋₊ < m + 1 := by
    rw [Nat.lt_succ_iff]
    refine Nat.floor_le_of_le ?_
    rw [div_le_iff₀ hr, mul_div_cancel₀ _ hm0.ne']
    linarith [hz.2]
  refine ⟨a + ⌊(z - a) / ((b - a) / m)⌋₊ * ((b - a) / m), ?_, ?_⟩
  · rw [linspace_succ a b m hm]
    exact List.mem_map.2 ⟨_, List.mem_range.2 h3, rfl⟩
  · rw [abs_le]
    constructor <;> linarith

theorem linspace_last (a b : ℝ) (m : ℕ) (hm : 1 ≤ m) : a ∈ linspace a b (m + 1) ∧ b ∈ linspace a b (m + 1) := by
  have hm0 : (m : ℝ) ≠ 0 := by exact_mod_cast (by omega : m ≠ 0)
  rw [linspace_succ a b m hm]
  exact ⟨List.mem_map.2 ⟨0, by simp, by simp⟩, List.mem_map.2 ⟨m, by simp, by field_simp; ring⟩⟩

/-- a number brought between the limits -/
noncomputable def within (a b z : ℝ) : ℝ := max a (min b z)

theorem near_tendsto {a b : ℝ} (h : a < b) (z : ℝ) : Tendsto (fun m : ℕ => nearPoint (linspace a b (m + 1)) z) atTop (𝓝[Icc a b] (within a b z)) := by
  have hmem : ∀ m : ℕ, 1 ≤ m → nearPoint (linspace a b (m + 1)) z ∈ Icc a b ∧ |nearPoint (linspace a b (m + 1)) z - within a b z| ≤ (b - a) / m := by
    intro m hm
    have hne : linspace a b (m + 1) ≠ [] := List.ne_nil_of_mem (linspace_last a b m hm).1
    obtain ⟨h1, h2⟩ := nearPoint_spec (linspace a b (m + 1)) z hne
    have h3 := mem_linspace h (by omega) h1
    refine ⟨h3, ?_⟩
    have hpos : 0 ≤ (b - a) / (m : ℝ) := div_nonneg (by linarith) (Nat.cast_nonneg m)
    rcases lt_or_ge z a with hza | hza
    · have e : within a b z = a := by rw [within, min_eq_right (by linarith), max_eq_left hza.le]
      have h4 := h2 a (linspace_last a b m hm).1
      rw [abs_of_nonneg (by linarith [h3.1]), abs_of_nonneg (by linarith)] at h4
      rw [e, le_antisymm (by linarith) h3.1]
      simpa using hpos
    · rcases lt_or_ge b z with hzb | hzb
      · have e : within a b z = b := by rw [within, min_eq_left hzb.le, max_eq_right h.le]
        have h4 := h2 b (linspace_last a b m hm).2
        rw [abs_of_nonpos (by linarith [h3.2]), abs_of_nonpos (by linarith)] at h4
        rw [e, le_antisymm h3.2 (by linarith)]
        simpa using hpos
      · have e : within a b z = z := by rw [within, min_eq_right hzb, max_eq_right hza]
        obtain ⟨y, hy, hyz⟩ := linspace_dense h m hm ⟨hza, hzb⟩
        rw [e]
        exact (h2 y hy).trans hyz
  refine tendsto_nhdsWithin_iff.2 ⟨?_, ?_⟩
  · refine tendsto_iff_norm_sub_tendsto_zero.2 ?_
    refine squeeze_zero' (Eventually.of_forall fun _ => norm_nonneg _) ?_ (tendsto_const_div_atTop_nhds_zero_nat (b - a))
    filter_upwards [eventually_ge_atTop 1] with m hm using (hmem m hm).2
  · filter_upwards [eventually_ge_atTop 1] with m hm using (hmem m hm).1

theorem trapz_cons₂ (x x' y y' : ℝ) (xs ys : List ℝ) : trapz (x :: x' :: xs) (y :: y' :: ys) = (x' - x) * (y + y') / 2 + trapz (x' :: xs) (y' :: ys) := by
  simp only [trapz, sum_eq, trapezoids, List.sum_cons]
  ring

theorem trapz_even (r : ℝ) (x y : ℕ → ℝ) (hx : ∀ j, x (j + 1) - x j = r) : ∀ (m k : ℕ),
    trapz ((List.range' k (m + 1)).map x) ((List.range' k (m + 1)).map y) = r * (((List.range' k (m + 1)).map y).sum - (y k + y (k + m)) / 2)
  | 0, k => by simp [trapz, sum_eq, trapezoids]
  | m + 1, k => by
    have ih := trapz_even r x y hx m (k + 1)
    rw [List.range'_succ, List.range'_succ, List.map_cons, List.map_cons, List.map_cons, List.map_cons, trapz_cons₂, hx]
    rw [List.range'_succ, List.map_cons, List.map_cons] at ih
    rw [ih]
    simp only [List.sum_cons]
    rw [show k + 1 + m = k + (m + 1) by omega]
    ring

/-- the trapezoidal rule over finer and finer grids -/
theorem trapz_tendsto {a b : ℝ} (h : a < b) {f : ℝ → ℝ} (hf : Tame a b f) :
    Tendsto (fun m : ℕ => trapz (linspace a b (m + 1)) ((linspace a b (m + 1)).map f)) atTop (𝓝 (∫ x in a..b, f x)) := by
  have h1 := (tendsto_add_atTop_iff_nat 1).2 (riemann h hf)
  have h2 : Tendsto (fun m : ℕ => (b - a) / (m : ℝ) * ((f a + f b) / 2)) atTop (𝓝 0) := by
    simpa using (tendsto_const_div_atTop_nhds_zero_nat (b - a)).mul_const ((f a + f b) / 2)
  have h3 := h1.sub h2
  rw [sub_zero] at h3
  refine h3.congr' ?_
  filter_upwards [eventually_ge_atTop 1] with m hm
  have hm0 : (m : ℝ) ≠ 0 := by exact_mod_cast (by omega : m ≠ 0)
  have e := trapz_even ((b - a) / m) (fun j : ℕ => a + j * ((b - a) / m)) (fun j : ℕ => f (a + j * ((b - a) / m))) (fun j => by push_cast; ring) m 0
  rw [← List.range_eq_range'] at e
  rw [linspace_succ a b m hm, List.map_map]
  simp only [Function.comp_def]
  have e2 : a + ((0 + m : ℕ) : ℝ) * ((b - a) / m) = b := by
    rw [zero_add, mul_div_cancel₀ _ hm0]
    ring
  rw [e, e2]
  simp only [Nat.cast_zero, zero_mul, add_zero, Nat.cast_add, Nat.cast_one, add_sub_cancel_right]
  ring

/-- **C146: CDE loss.** With finer evaluation grids over `[a, b]` the loss approaches the mean integral of the squared densities less twice the mean density
at the true values; a true value outside the grid is scored with the density at the nearer end of the grid. -/
theorem C146_cde (c : FnEns ℝ × List ℝ) (hc : Matched c) (hn : c.2 ≠ []) (a b : ℝ) (h : a < b) (hf : ∀ f ∈ c.1.fns, Tame a b f)
    (hz : ∀ p ∈ c.1.fns.zip c.2, ContinuousWithinAt p.1 (Icc a b) (within a b p.2)) :
    ∃ s : ℕ → ℝ, (∀ᶠ n in atTop, cdeEvaluate (linspace a b n) c.1 c.2 = .ok (some (s n))) ∧
      Tendsto s atTop (𝓝 ((c.1.fns.map fun f => ∫ x in a..b, f x ^ 2).sum / c.2.length
        - 2 * (((c.1.fns.zip c.2).map fun p => p.1 (within a b p.2)).sum / c.2.length))) := by
  refine ⟨fun n => (c.1.fns.map fun f => trapz (linspace a b n) ((linspace a b n).map fun x => f x ^ 2)).sum / (c.2.length : ℝ)
      - 2 * (((c.1.fns.zip c.2).map fun p => p.1 (nearPoint (linspace a b n) p.2)).sum / (c.2.length : ℝ)), ?_, ?_⟩
  · filter_upwards [eventually_ge_atTop 2] with n hn2
    obtain ⟨m, rfl⟩ : ∃ m, n = m + 1 := ⟨n - 1, by omega⟩
    rw [C64_value _ c (List.ne_nil_of_mem (linspace_last a b m (by omega)).1) hc hn, ← List.map_uncurry_zip_eq_zipWith]
    rfl
  · rw [← tendsto_add_atTop_iff_nat 1]
    have h1 := tendsto_list_sum c.1.fns fun f hfm => trapz_tendsto h ((hf f hfm).map2 (hf f hfm) (fun p => p.1 ^ 2) (by fun_prop))
    have h2 := tendsto_list_sum (c.1.fns.zip c.2) fun p hp => (hz p hp).tendsto.comp (near_tendsto h p.2)
    exact (h1.div_const _).sub ((h2.div_const _).const_mul 2)

/-! ## the mode -/

/-- **C146: modes.** On finer and finer grids over `[a, b]` the density of a PDF that is continuous there, at the point returned by `ens.mode`, approaches its
maximum over `[a, b]`; if the maximum is reached at one point only, the mode approaches that point. -/
theorem C146_mode (fns : List (ℝ → ℝ)) (a b : ℝ) (h : a < b) :
    ∃ v : ℕ → List ℝ, (∀ᶠ n in atTop, mode (linspace a b n) ⟨[fns.length, n], (fns.map fun f => (linspace a b n).map f).flatten⟩ = .ok ⟨[fns.length, 1], v n⟩) ∧
      ∀ (i : ℕ) f, fns[i]? = some f → ContinuousOn f (Icc a b) → ∀ x ∈ Icc a b, (∀ y ∈ Icc a b, f y ≤ f x) →
        Tendsto (fun n => f ((v n).getD i 0)) atTop (𝓝 (f x)) ∧
          ((∀ y ∈ Icc a b, f y = f x → y = x) → Tendsto (fun n => (v n).getD i 0) atTop (𝓝 x)) := by
  have hmode : ∀ n, 2 ≤ n → ∃ v, mode (linspace a b n) ⟨[fns.length, n], (fns.map fun f => (linspace a b n).map f).flatten⟩ = .ok ⟨[fns.length, 1], v⟩ ∧
      ∀ (i : ℕ) f, fns[i]? = some f → v.getD i 0 ∈ linspace a b n ∧ ∀ y ∈ linspace a b n, f y ≤ f (v.getD i 0) := by
    intro n hn
    obtain ⟨m, rfl⟩ : ∃ m, n = m + 1 := ⟨n - 1, by omega⟩
    have hne : linspace a b (m + 1) ≠ [] := List.ne_nil_of_mem (linspace_last a b m (by omega)).1
    obtain ⟨v, h1, h2, h3⟩ := Shapes.C43_mode_partial (linspace a b (m + 1)) hne (fns.map fun f => (linspace a b (m + 1)).map f) (by simp)
    refine ⟨v, by simpa [length_linspace] using h1, fun i f hi => ?_⟩
    obtain ⟨k, ⟨w, hw, hmax, -⟩, h5, h6⟩ := h3 i ((linspace a b (m + 1)).map f) (by simp [hi])
    rw [List.getElem?_eq_getElem h6] at h5
    have hv : v.getD i 0 = (linspace a b (m + 1))[k] := by rw [List.getD_eq_getElem?_getD, h5, Option.getD_some]
    rw [List.getElem?_map, List.getElem?_eq_getElem h6, Option.map_some, Option.some_inj] at hw
    rw [hv]
    refine ⟨List.getElem_mem h6, fun y hy => ?_⟩
    obtain ⟨j, hj⟩ := List.mem_iff_getElem?.1 hy
    rw [hw]
    exact hmax j (f y) (by simp [hj])
  choose! v hv1 hv2 using hmode
  refine ⟨v, (eventually_ge_atTop 2).mono hv1, fun i f hi hf x hx hmax => ?_⟩
  have hin : ∀ n, 2 ≤ n → (v n).getD i 0 ∈ Icc a b := fun n hn => mem_linspace h hn (hv2 n hn i f hi).1
  have hlim : Tendsto (fun n => f ((v n).getD i 0)) atTop (𝓝 (f x)) := by
    rw [← tendsto_add_atTop_iff_nat 1]
    have hw : within a b x = x := by rw [within, min_eq_right hx.2, max_eq_right hx.1]
    have hnear := (hf x hx).tendsto.comp (hw ▸ near_tendsto h x)
    refine tendsto_of_tendsto_of_tendsto_of_le_of_le' hnear tendsto_const_nhds ?_ ?_
    · filter_upwards [eventually_ge_atTop 1] with m hm
      have hne : linspace a b (m + 1) ≠ [] := List.ne_nil_of_mem (linspace_last a b m hm).1
      exact (hv2 (m + 1) (by omega) i f hi).2 _ (nearPoint_spec _ x hne).1
    · filter_upwards [eventually_ge_atTop 1] with m hm
      exact hmax _ (hin (m + 1) (by omega))
  refine ⟨hlim, fun huniq => ?_⟩
  rw [tendsto_nhds]
  intro U hU hxU
  have hK : IsCompact (Icc a b \ U) := isCompact_Icc.diff hU
  rcases (Icc a b \ U).eq_empty_or_nonempty with he | hne
  · filter_upwards [eventually_ge_atTop 2] with n hn
    by_contra hu
    have : (v n).getD i 0 ∈ Icc a b \ U := ⟨hin n hn, hu⟩
    rw [he] at this
    exact this
  · obtain ⟨y, hy, hymax⟩ := hK.exists_isMaxOn hne (hf.mono sdiff_subset)
    have hlt : f y < f x := lt_of_le_of_ne (hmax y hy.1) fun e => hy.2 (huniq y hy.1 e ▸ hxU)
    filter_upwards [eventually_ge_atTop 2, hlim.eventually (lt_mem_nhds hlt)] with n hn hl
    by_contra hu
    exact absurd (hymax (⟨hin n hn, hu⟩ : (v n).getD i 0 ∈ Icc a b \ U)) (not_le.2 hl)

/-! ## cases meeting the hypotheses -/

/-- the uniform density on `[0, 1]`, over limits that contain its jump -/
theorem tame_uniform : Tame 0 2 fun x => if 0 ≤ x ∧ x ≤ 1 then 1 else 0 where
  bound := ⟨1, fun x _ => by split <;> simp⟩
  cont := by
    have hne : ∀ᵐ x : ℝ, x ≠ 1 := by simp [ae_iff, measure_singleton]
    filter_upwards [hne] with x hx hmem
    rcases lt_or_gt_of_ne hx with hlt | hgt
    · have : (fun x : ℝ => if 0 ≤ x ∧ x ≤ 1 then (1 : ℝ) else 0) =ᶠ[𝓝 x] fun _ => 1 := by
        filter_upwards [Ioo_mem_nhds hmem.1 hlt] with y hy
        rw [if_pos ⟨hy.1.le, hy.2.le⟩]
      exact (continuousAt_const).congr this.symm
    · have : (fun x : ℝ => if 0 ≤ x ∧ x ≤ 1 then (1 : ℝ) else 0) =ᶠ[𝓝 x] fun _ => 0 := by
        filter_upwards [Ioi_mem_nhds hgt] with y hy
        rw [if_neg fun c => absurd c.2 (not_le.2 hy)]
      exact (continuousAt_const).congr this.symm

theorem int_uniform : ∫ x in (0 : ℝ)..2, (if 0 ≤ x ∧ x ≤ 1 then (1 : ℝ) else 0) ^ 2 = 1 := by
  have e : (fun x : ℝ => (if 0 ≤ x ∧ x ≤ 1 then (1 : ℝ) else 0) ^ 2) = (Icc (0 : ℝ) 1).indicator fun _ => 1 := by
    funext x
    by_cases hx : 0 ≤ x ∧ x ≤ 1
    · rw [if_pos hx, indicator_of_mem (show x ∈ Icc (0 : ℝ) 1 from hx)]; simp
    · rw [if_neg hx, indicator_of_notMem (show x ∉ Icc (0 : ℝ) 1 from hx)]; simp
  rw [e, intervalIntegral.integral_of_le (by norm_num), integral_indicator measurableSet_Icc, Measure.restrict_restrict measurableSet_Icc]
  have : Icc (0 : ℝ) 1 ∩ Ioc 0 2 = Ioc 0 1 := by
    ext x
    simp only [mem_inter_iff, mem_Icc, mem_Ioc]
    constructor
    · rintro ⟨h1, h2⟩
      exact ⟨h2.1, h1.2⟩
    · rintro ⟨h1, h2⟩
      exact ⟨⟨h1.le, h2⟩, h1, by linarith⟩
  rw [this]
  simp

/-- an ensemble with a jump: all the hypotheses of the theorems about moments and Brier scores -/
example : ∃ (e : FnEns ℝ) (truth : List ℝ), GoodChunk 0 2 (e, truth) ∧ 2 ≤ truth.length ∧ (∀ f ∈ e.fns, Tame 0 2 f) ∧
    0 < (e.fns.map fun f => ∫ x in (0 : ℝ)..2, f x ^ 2).sum ∧ ∃ s : ℝ → ℝ, Tendsto s (𝓝[>] 0) atTop ∧ ∀ᶠ dx in 𝓝[>] 0, calculateBrier e truth 0 2 dx = .ok (some (s dx)) := by
  set e : FnEns ℝ := ⟨[2], [fun x => if 0 ≤ x ∧ x ≤ 1 then 1 else 0, fun x => if 0 ≤ x ∧ x ≤ 1 then 1 else 0]⟩ with he
  have h1 : GoodChunk 0 2 (e, [1 / 2, 3 / 2]) := ⟨rfl, rfl, by intro t ht; simp only [List.mem_cons, List.not_mem_nil, or_false] at ht; rcases ht with rfl | rfl <;> norm_num⟩
  have h2 : ∀ f ∈ e.fns, Tame 0 2 f := by
    intro f hf
    simp only [he, List.mem_cons, List.not_mem_nil, or_false, or_self] at hf
    rw [hf]
    exact tame_uniform
  have h3 : 0 < (e.fns.map fun f => ∫ x in (0 : ℝ)..2, f x ^ 2).sum := by
    simp only [he, List.map_cons, List.map_nil, List.sum_cons, List.sum_nil, int_uniform]
    norm_num
  obtain ⟨s, h4, h5⟩ := C146_brier_diverges e [1 / 2, 3 / 2] 0 2 (by norm_num) h1 (by simp) h2 h3
  exact ⟨e, [1 / 2, 3 / 2], h1, by simp, h2, h3, s, h5, h4⟩

/-- root mean square error of that density against zero over `[0, 2]`: it approaches the root of one half -/
example : ∃ m : ℝ → List ℝ, (∀ᶠ dx in 𝓝[>] 0, calculateRmse ⟨[1], [fun x => if 0 ≤ x ∧ x ≤ 1 then 1 else 0]⟩ ⟨[1], [fun _ => 0]⟩ 0 2 dx = .ok (m dx)) ∧
    Tendsto (fun dx => (m dx).getD 0 0) (𝓝[>] 0) (𝓝 (Real.sqrt (1 / 2))) := by
  obtain ⟨m, h1, h2⟩ := C146_rmse ⟨[1], [fun x => if 0 ≤ x ∧ x ≤ 1 then 1 else 0]⟩ ⟨[1], [fun _ => 0]⟩ rfl 0 2 (by norm_num) (by simp; exact tame_uniform)
    (by simp; exact tame_of_continuous continuous_const)
  refine ⟨m, h1, ?_⟩
  have := h2 0 _ _ rfl rfl
  simp only [sub_zero] at this
  rwa [int_uniform] at this

/-- moments of the density `x ↦ x` on `[0, 1]`: error at most the step times two -/
example (dx : ℝ) (g : MGrid ℝ) (hg : gridParams 0 1 dx = .ok g) :
    ∃ m, calculateMoment ⟨[1], [fun x => x]⟩ 0 0 1 dx = .ok m ∧ |m.getD 0 0 - 1 / 2| ≤ g.resolution * 2 := by
  obtain ⟨m, h1, -, h2⟩ := C146_moment_error ⟨[1], [fun x => x]⟩ 0 0 1 dx one_pos g hg
  have := h2 0 (fun x => x) rfl 1 (fun x _ y _ => by simp)
  refine ⟨m, h1, ?_⟩
  simp only [pow_zero, mul_one, integral_id, sub_zero, abs_one] at this
  norm_num at this ⊢
  exact this

theorem kld_const (c d : ℝ) (hc : machEps ≤ c) (hd : machEps ≤ d) : kldIntegral 0 1 (fun _ => c) (fun _ => d) = c * (Real.log c - Real.log d) := by
  simp [kldIntegral, max_eq_left hc, max_eq_left hd]

theorem eps_le_one : (machEps : ℝ) ≤ 1 := by
  unfold machEps
  norm_num

/-- a positive divergence: `C146_kld` applies -/
example : ∃ m : ℝ → List ℝ, (∀ᶠ dx in 𝓝[>] 0, calculateKld ⟨[1], [fun _ => 2]⟩ ⟨[1], [fun _ => 1]⟩ 0 1 dx = .ok (m dx)) ∧
    Tendsto (fun dx => (m dx).getD 0 0) (𝓝[>] 0) (𝓝 (2 * Real.log 2)) := by
  have e : kldIntegral 0 1 (fun _ => 2) (fun _ => 1) = 2 * Real.log 2 := by rw [kld_const 2 1 (by linarith [eps_le_one]) eps_le_one]; simp
  obtain ⟨m, h1, h2⟩ := C146_kld ⟨[1], [fun _ => 2]⟩ ⟨[1], [fun _ => 1]⟩ rfl 0 1 one_pos (by simp; exact tame_of_continuous continuous_const)
    (by simp; exact tame_of_continuous continuous_const) (by simp [e]; exact Real.log_pos (by norm_num))
  exact ⟨m, h1, e ▸ h2 0 _ _ rfl rfl⟩

/-- one negative divergence among two: both PDFs get the machine epsilon -/
example : ∀ᶠ dx in 𝓝[>] (0 : ℝ), calculateKld ⟨[2], [fun _ => 1, fun _ => 2]⟩ ⟨[2], [fun _ => 2, fun _ => 1]⟩ 0 1 dx = .ok [machEps, machEps] := by
  have e : kldIntegral 0 1 (fun _ => 1) (fun _ => 2) = - Real.log 2 := by rw [kld_const 1 2 eps_le_one (by linarith [eps_le_one])]; simp
  refine C146_kld_negative ⟨[2], [fun _ => 1, fun _ => 2]⟩ ⟨[2], [fun _ => 2, fun _ => 1]⟩ rfl 0 1 one_pos (by simp; exact ⟨tame_of_continuous continuous_const, tame_of_continuous continuous_const⟩)
    (by simp; exact ⟨tame_of_continuous continuous_const, tame_of_continuous continuous_const⟩) ⟨_, List.mem_cons_self, ?_⟩
  rw [e]
  have := Real.log_pos (show (1 : ℝ) < 2 by norm_num)
  linarith

/-- CDE loss of the density `x ↦ x` with the true value `7`, outside the grid: it is scored with the density at the end of the grid, one -/
example : ∃ s : ℕ → ℝ, (∀ᶠ n in atTop, cdeEvaluate (linspace 0 1 n) ⟨[1], [fun x => x]⟩ [7] = .ok (some (s n))) ∧ Tendsto s atTop (𝓝 (1 / 3 - 2)) := by
  obtain ⟨s, h1, h2⟩ := C146_cde (⟨[1], [fun x => x]⟩, [7]) ⟨rfl, rfl⟩ (by simp) 0 1 one_pos (by simp; exact tame_of_continuous continuous_id)
    (by simp; exact continuousWithinAt_id)
  refine ⟨s, h1, ?_⟩
  have e : within 0 1 7 = 1 := by norm_num [within]
  simp only [List.map_cons, List.map_nil, List.sum_cons, List.sum_nil, List.zip_cons_cons, List.zip_nil_right, integral_pow, e, List.length_cons, List.length_nil] at h2
  norm_num at h2 ⊢
  exact h2

/-- the mode of `x ↦ x (2 - x)` over `[0, 3]` approaches `1` -/
example : ∃ v : ℕ → List ℝ, (∀ᶠ n in atTop, mode (linspace 0 3 n) ⟨[1, n], ((linspace 0 3 n).map fun x => x * (2 - x))⟩ = .ok ⟨[1, 1], v n⟩) ∧
    Tendsto (fun n => (v n).getD 0 0) atTop (𝓝 1) := by
  obtain ⟨v, h1, h2⟩ := C146_mode [fun x => x * (2 - x)] 0 3 (by norm_num)
  refine ⟨v, by simpa using h1, (h2 0 _ rfl (by fun_prop) 1 ⟨by norm_num, by norm_num⟩ fun y _ => by nlinarith [sq_nonneg (y - 1)]).2 fun y _ hy => ?_⟩
  nlinarith [sq_nonneg (y - 1), pow_eq_zero_iff (two_ne_zero) (a := y - 1) |>.1 (by nlinarith)]

end Verif.Props.FineGrid
