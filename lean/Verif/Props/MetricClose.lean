import Verif.Props.FineGrid
import Verif.Props.Stability
import Verif.Props.PitLaw
import Verif.Props.ConvertError
import Verif.Props.ConvertInterpError

/-!
# C150: close PDFs have close metrics

Two ensembles for the same objects, whose densities (or distribution functions) differ by at most `δ`: an original and its conversion, or two estimates.
-/

set_option linter.unusedSectionVars false
set_option autoImplicit false

namespace Verif.Props.MetricClose

open Verif Verif.Np Verif.Model Verif.Spec Verif.Lemmas Verif.Props.Metrics Verif.Props.FineGrid

/-- the PDFs of the second ensemble differ by at most `δ` from those of the first, at the points `xs` -/
structure Close (δ : ℝ) (xs : List ℝ) (e e' : FnEns ℝ) : Prop where
  shape : e'.shape = e.shape
  fns : List.Forall₂ (fun f f' => ∀ x ∈ xs, |f' x - f x| ≤ δ) e.fns e'.fns

/-- no value of the PDFs at the points `xs` is larger than `M` -/
def Bounded (M : ℝ) (xs : List ℝ) (e : FnEns ℝ) : Prop := ∀ f ∈ e.fns, ∀ x ∈ xs, |f x| ≤ M

theorem sum_close {l l' : List ℝ} {ε : ℝ} (h : List.Forall₂ (fun a b => |b - a| ≤ ε) l l') : |l'.sum - l.sum| ≤ l.length * ε := by
  induction h with
  | nil => simp
  | @cons a b l l' hab h ih =>
    simp only [List.sum_cons, List.length_cons]
    push_cast
    calc |b + l'.sum - (a + l.sum)| = |(b - a) + (l'.sum - l.sum)| := by ring_nf
      _ ≤ |b - a| + |l'.sum - l.sum| := abs_add_le _ _
      _ ≤ ε + l.length * ε := add_le_add hab ih
      _ = _ := by ring

theorem sum_map_close {xs : List ℝ} {f f' w : ℝ → ℝ} (h : ∀ x ∈ xs, |f' x - f x| ≤ w x) : |(xs.map f').sum - (xs.map f).sum| ≤ (xs.map w).sum := by
  induction xs with
  | nil => simp
  | cons a l ih =>
    simp only [List.map_cons, List.sum_cons]
    calc |f' a + (l.map f').sum - (f a + (l.map f).sum)| = |(f' a - f a) + ((l.map f').sum - (l.map f).sum)| := by ring_nf
      _ ≤ |f' a - f a| + |(l.map f').sum - (l.map f).sum| := abs_add_le _ _
      _ ≤ _ := add_le_add (h a (by simp)) (ih fun x hx => h x (by simp [hx]))

/-- **C150, moments.** -/
theorem C150_moment (e e' : FnEns ℝ) (N : ℕ) (l0 l1 dx δ : ℝ) (g : MGrid ℝ) (hg : gridParams l0 l1 dx = .ok g) (hc : Close δ g.values e e') :
    ∃ m m', calculateMoment e N l0 l1 dx = .ok m ∧ calculateMoment e' N l0 l1 dx = .ok m' ∧
      List.Forall₂ (fun v v' => |v' - v| ≤ δ * (|g.resolution| * (g.values.map fun x => |x| ^ N).sum)) m m' := by
  refine ⟨_, _, by simp only [calculateMoment, hg, Bind.bind, Except.bind]; rfl, by simp only [calculateMoment, hg, Bind.bind, Except.bind]; rfl, ?_⟩
  rw [List.forall₂_map_left_iff, List.forall₂_map_right_iff]
  refine hc.fns.imp fun f f' hf => ?_
  rw [moment_sum, moment_sum, ← mul_sub, abs_mul]
  have : |(g.values.map fun x => f' x * x ^ N).sum - (g.values.map fun x => f x * x ^ N).sum| ≤ (g.values.map fun x => δ * |x| ^ N).sum := by
    refine sum_map_close fun x hx => ?_
    rw [← sub_mul, abs_mul, abs_pow]
    exact mul_le_mul_of_nonneg_right (hf x hx) (by positivity)
  rw [List.sum_map_mul_left] at this
  calc _ ≤ |g.resolution| * (δ * (g.values.map fun x => |x| ^ N).sum) := mul_le_mul_of_nonneg_left this (abs_nonneg _)
    _ = _ := by ring

/-- **C150, RMSE.** The distances to any third ensemble change by at most `δ`. -/
theorem C150_rmse (e e' q : FnEns ℝ) (l0 l1 dx δ : ℝ) (hδ : 0 ≤ δ) (g : MGrid ℝ) (hg : gridParams l0 l1 dx = .ok g) (hc : Close δ g.values e e') (hq : e.shape = q.shape) :
    ∃ r r', calculateRmse e q l0 l1 dx = .ok r ∧ calculateRmse e' q l0 l1 dx = .ok r' ∧ List.Forall₂ (fun v v' => |v' - v| ≤ δ) r r' := by
  refine ⟨_, _, (C69_value e q l0 l1 dx).2 g hq hg, (C69_value e' q l0 l1 dx).2 g (hc.shape.trans hq) hg, ?_⟩
  obtain ⟨-, -, -, h4, -, hv, -⟩ := gridParams_ok hg
  have hlen : g.values.length = g.card := by rw [hv, length_linspace]
  have hn : 0 < g.card := by omega
  have key : ∀ f f' h : ℝ → ℝ, (∀ x ∈ g.values, |f' x - f x| ≤ δ) → |rmseOn g.values g.card f' h - rmseOn g.values g.card f h| ≤ δ := by
    intro f f' h hf
    have hs : rmseOn g.values g.card f f' ≤ δ := by
      unfold rmseOn
      apply Real.sqrt_le_iff.2 ⟨hδ, ?_⟩
      rw [div_le_iff₀ (by exact_mod_cast hn)]
      have : ((g.values.map fun x => (f x - f' x) ^ 2)).sum ≤ (g.values.map fun _ => δ ^ 2).sum := by
        apply List.sum_le_sum
        intro x hx
        rw [← sq_abs, abs_sub_comm]
        exact pow_le_pow_left₀ (abs_nonneg _) (hf x hx) 2
      simpa [hlen, mul_comm] using this
    obtain ⟨-, hsym, -, h1⟩ := C69_metric g.values g.card hn f f' h
    obtain ⟨-, -, -, h2⟩ := C69_metric g.values g.card hn f' f h
    rw [← hsym] at h2
    rw [abs_le]
    constructor <;> linarith
  generalize hl : q.fns = l
  clear hq hl
  have hfns := hc.fns
  generalize e.fns = a at hfns
  generalize e'.fns = b at hfns
  induction hfns generalizing l with
  | nil => simp
  | cons hab h ih =>
    cases l with
    | nil => simp
    | cons k l => exact .cons (key _ _ k hab) (ih l)

theorem trapz_close : ∀ (xs ys ys' : List ℝ) (ε a b : ℝ), xs.Pairwise (· < ·) → xs.head? = some a → xs.getLast? = some b → ys.length = xs.length →
    List.Forall₂ (fun v v' => |v' - v| ≤ ε) ys ys' → |trapz xs ys' - trapz xs ys| ≤ (b - a) * ε
  | [], _, _, _, _, _, _, h, _, _, _ => by simp at h
  | [x], ys, ys', ε, a, b, _, ha, hb, hl, hc => by
    simp at ha hb
    subst ha hb
    match ys, ys', hl, hc with
    | [y], _, _, .cons _ .nil => simp [trapz, trapezoids]
  | x :: x' :: xs, ys, ys', ε, a, b, hs, ha, hb, hl, hc => by
    match ys, ys', hl, hc with
    | y :: z :: ys, _, hl, .cons (b := y') h1 (.cons (b := z') (l₂ := ys') h2 h3) =>
      rw [trapz_cons₂, trapz_cons₂]
      have hs' := List.pairwise_cons.1 hs
      have ih := trapz_close (x' :: xs) (z :: ys) (z' :: ys') ε x' b hs'.2 rfl (by simpa using hb) (by simpa using hl) (.cons h2 h3)
      have hx : 0 < x' - x := sub_pos.2 (hs'.1 x' (by simp))
      simp at ha
      subst ha
      have h4 : |(x' - x) * (y' + z') / 2 - (x' - x) * (y + z) / 2| ≤ (x' - x) * ε := by
        rw [show (x' - x) * (y' + z') / 2 - (x' - x) * (y + z) / 2 = (x' - x) * ((y' - y + (z' - z)) / 2) by ring, abs_mul, abs_of_pos hx]
        refine mul_le_mul_of_nonneg_left ?_ hx.le
        rw [abs_div, abs_two, div_le_iff₀ two_pos]
        calc _ ≤ |y' - y| + |z' - z| := abs_add_le _ _
          _ ≤ ε * 2 := by linarith
      calc _ = |((x' - x) * (y' + z') / 2 - (x' - x) * (y + z) / 2) + (trapz (x' :: xs) (z' :: ys') - trapz (x' :: xs) (z :: ys))| := by ring_nf
        _ ≤ _ := abs_add_le _ _
        _ ≤ (x' - x) * ε + (b - x') * ε := add_le_add h4 ih
        _ = _ := by ring

theorem sq_close {u u' M δ : ℝ} (h : |u' - u| ≤ δ) (h1 : |u| ≤ M) (h2 : |u'| ≤ M) : |u' ^ 2 - u ^ 2| ≤ 2 * M * δ := by
  rw [show u' ^ 2 - u ^ 2 = (u' + u) * (u' - u) by ring, abs_mul]
  refine mul_le_mul ((abs_add_le _ _).trans (by linarith)) h (abs_nonneg _) ?_
  have := abs_nonneg u
  linarith

/-- **C150, CDE loss.** On a grid from `a` to `b`, for densities that are at most `M` at the grid points. -/
theorem C150_cde (e e' : FnEns ℝ) (zs xs : List ℝ) (δ M a b : ℝ) (hs : xs.Pairwise (· < ·)) (ha : xs.head? = some a) (hb : xs.getLast? = some b) (hm : Matched (e, zs)) (hz : zs ≠ [])
    (hc : Close δ xs e e') (hM : Bounded M xs e) (hM' : Bounded M xs e') :
    ∃ v v', cdeEvaluate xs e zs = .ok (some v) ∧ cdeEvaluate xs e' zs = .ok (some v') ∧ |v' - v| ≤ 2 * δ * (M * (b - a) + 1) := by
  have hx : xs ≠ [] := by rintro rfl; simp at ha
  have hl : e'.fns.length = e.fns.length := hc.fns.length_eq.symm
  have hm' : Matched (e', zs) := ⟨by rw [hc.shape]; exact hm.shape, by rw [hl]; exact hm.fns⟩
  refine ⟨_, _, C64_value xs (e, zs) hx hm hz, C64_value xs (e', zs) hx hm' hz, ?_⟩
  have hn : (0 : ℝ) < zs.length := by exact_mod_cast List.length_pos_iff.2 hz
  have h1 : |(e'.fns.map fun f => trapz xs (xs.map fun x => f x ^ 2)).sum - (e.fns.map fun f => trapz xs (xs.map fun x => f x ^ 2)).sum|
      ≤ e.fns.length * ((b - a) * (2 * M * δ)) := by
    have : List.Forall₂ (fun u v => |v - u| ≤ (b - a) * (2 * M * δ)) (e.fns.map fun f => trapz xs (xs.map fun x => f x ^ 2))
        (e'.fns.map fun f => trapz xs (xs.map fun x => f x ^ 2)) := by
      rw [List.forall₂_map_left_iff, List.forall₂_map_right_iff, List.forall₂_iff_get]
      refine ⟨hl.symm, fun i hi hi' => ?_⟩
      have hf := (List.forall₂_iff_get.1 hc.fns).2 i hi hi'
      refine trapz_close xs _ _ _ a b hs ha hb (by simp) ?_
      rw [List.forall₂_map_left_iff, List.forall₂_map_right_iff, List.forall₂_same]
      intro x hx'
      exact sq_close (hf x hx') (hM _ (List.get_mem _ _) x hx') (hM' _ (List.get_mem _ _) x hx')
    simpa using sum_close this
  have h2 : |(List.zipWith (fun f z => f (nearPoint xs z)) e'.fns zs).sum - (List.zipWith (fun f z => f (nearPoint xs z)) e.fns zs).sum| ≤ zs.length * δ := by
    have : List.Forall₂ (fun u v => |v - u| ≤ δ) (List.zipWith (fun f z => f (nearPoint xs z)) e.fns zs) (List.zipWith (fun f z => f (nearPoint xs z)) e'.fns zs) := by
      rw [List.forall₂_iff_get]
      refine ⟨by simp [hl], fun i hi hi' => ?_⟩
      simp only [List.get_eq_getElem, List.getElem_zipWith]
      simp only [List.length_zipWith] at hi hi'
      exact (List.forall₂_iff_get.1 hc.fns).2 i (by omega) (by omega) _ (nearPoint_spec xs _ hx).1
    have h3 := sum_close this
    have hlen : e.fns.length = zs.length := hm.fns
    simpa [hlen] using h3
  simp only at h1 h2 ⊢
  rw [show e.fns.length = zs.length from hm.fns] at h1
  set A := (e.fns.map fun f => trapz xs (xs.map fun x => f x ^ 2)).sum
  set A' := (e'.fns.map fun f => trapz xs (xs.map fun x => f x ^ 2)).sum
  set B := (List.zipWith (fun f z => f (nearPoint xs z)) e.fns zs).sum
  set B' := (List.zipWith (fun f z => f (nearPoint xs z)) e'.fns zs).sum
  rw [show A' / (zs.length : ℝ) - 2 * (B' / zs.length) - (A / zs.length - 2 * (B / zs.length)) = ((A' - A) - 2 * (B' - B)) / zs.length by field_simp; ring, abs_div, abs_of_pos hn,
    div_le_iff₀ hn]
  calc |A' - A - 2 * (B' - B)| ≤ |A' - A| + |2 * (B' - B)| := abs_sub _ _
    _ = |A' - A| + 2 * |B' - B| := by rw [abs_mul, abs_two]
    _ ≤ zs.length * ((b - a) * (2 * M * δ)) + 2 * (zs.length * δ) := by linarith
    _ = _ := by ring

/-- **C150, Brier score.** On the grid of the metric, with `g.card` points, for densities that are at most `M` there. -/
theorem C150_brier (e e' : FnEns ℝ) (zs : List ℝ) (l0 l1 dx δ M : ℝ) (g : MGrid ℝ) (hg : gridParams l0 l1 dx = .ok g) (hm : GoodChunk l0 l1 (e, zs)) (h2 : 2 ≤ zs.length)
    (hc : Close δ g.values e e') (hM : Bounded M g.values e) (hM' : Bounded M g.values e') :
    ∃ v v', calculateBrier e zs l0 l1 dx = .ok (some v) ∧ calculateBrier e' zs l0 l1 dx = .ok (some v') ∧ |v' - v| ≤ g.card * (2 * (M + 1) * δ) := by
  have hl : e'.fns.length = e.fns.length := hc.fns.length_eq.symm
  have hm' : GoodChunk l0 l1 (e', zs) := ⟨by rw [hc.shape]; exact hm.shape, by rw [hl]; exact hm.fns, hm.limits⟩
  have hz : zs ≠ [] := by rintro rfl; simp at h2
  have hn : (0 : ℝ) < zs.length := by exact_mod_cast List.length_pos_iff.2 hz
  have hlt := lt_of_grid hg hm.limits hz
  have hval : ∀ c : FnEns ℝ × List ℝ, GoodChunk l0 l1 c → 2 ≤ c.2.length → calculateBrier c.1 c.2 l0 l1 dx = .ok (some ((brierTerms g c).sum / (c.2.length : ℝ))) := by
    intro c hc' h2'
    obtain ⟨p, t, hp, ht⟩ := brierSums_chunk l0 l1 dx g hg c hc' h2'
    simp only [calculateBrier, hp, Bind.bind, Except.bind, brierEvaluate, ht, Except.map]
    have hlen : (brierTerms g c).length = c.2.length := by simp [brierTerms, hc'.fns]
    rw [npMean, if_neg (by intro h; rw [h] at hlen; simp at hlen; omega), sum_eq, hlen]
  refine ⟨_, _, hval (e, zs) hm h2, hval (e', zs) hm' h2, ?_⟩
  simp only
  have hgl : g.values.length = g.card := (C60_grid_partial l0 l1 dx g hlt hg).1
  have hterms : List.Forall₂ (fun u v => |v - u| ≤ g.card * (2 * (M + 1) * δ)) (brierTerms g (e, zs)) (brierTerms g (e', zs)) := by
    unfold brierTerms
    rw [List.forall₂_iff_get]
    refine ⟨by simp [hl], fun i hi hi' => ?_⟩
    simp only [List.get_eq_getElem, List.getElem_zipWith]
    simp only [List.length_zipWith] at hi hi'
    have hf := (List.forall₂_iff_get.1 hc.fns).2 i (by omega) (by omega)
    simp only [List.get_eq_getElem] at hf
    have hM1 := hM _ (List.getElem_mem (by omega : i < e.fns.length))
    have hM2 := hM' _ (List.getElem_mem (by omega : i < e'.fns.length))
    have hz' := hm.limits _ (List.getElem_mem (by omega : i < zs.length))
    generalize e.fns[i] = f at hf hM1
    generalize e'.fns[i] = f' at hf hM2
    generalize zs[i] = z at hz'
    obtain ⟨k, -, hk, -⟩ := C61_one_hot l0 l1 dx g hlt hg z hz'.1 hz'.2
    have hrow : histRow g.edges z = (List.range g.card).map fun j => if j = k then 1 else 0 := by
      simp only [histRow, hk, Except.toOption, Option.getD_some, oneHot, List.map_map]
      apply List.map_congr_left
      intro j _
      simp only [Function.comp]
      split <;> simp
    unfold sqDist
    rw [sum_eq, sum_eq, hrow]
    have : List.Forall₂ (fun u v => |v - u| ≤ 2 * (M + 1) * δ)
        (List.zipWith (fun a b => (a - b) ^ 2) (g.values.map f) ((List.range g.card).map fun j => if j = k then (1 : ℝ) else 0))
        (List.zipWith (fun a b => (a - b) ^ 2) (g.values.map f') ((List.range g.card).map fun j => if j = k then (1 : ℝ) else 0)) := by
      rw [List.forall₂_iff_get]
      refine ⟨by simp, fun j hj hj' => ?_⟩
      simp only [List.get_eq_getElem, List.getElem_zipWith, List.getElem_map, List.getElem_range]
      have hx := List.getElem_mem (by simp at hj; omega : j < g.values.length)
      generalize g.values[j]'_ = x at hx
      have ht : |(if j = k then (1 : ℝ) else 0)| ≤ 1 := by split <;> simp
      generalize (if j = k then (1 : ℝ) else 0) = t at ht
      refine sq_close (by rw [show f' x - t - (f x - t) = f' x - f x by ring]; exact hf x hx) ((abs_sub _ _).trans ?_) ((abs_sub _ _).trans ?_)
      · linarith [hM1 x hx]
      · linarith [hM2 x hx]
    have h3 := sum_close this
    simpa [hgl] using h3
  have h3 := sum_close hterms
  rw [← sub_div, abs_div, abs_of_pos hn, div_le_iff₀ hn]
  rw [show (brierTerms g (e, zs)).length = zs.length by simp [brierTerms, show e.fns.length = zs.length from hm.fns]] at h3
  linarith

/-! ## the PIT -/

open Verif.Props.Stability (Moved sort_moved quantile_moved C133_ks_samples)

theorem uniform_close (x y : ℝ) : |uniformCdf x - uniformCdf y| ≤ |x - y| := by
  unfold uniformCdf
  calc |max 0 (min 1 x) - max 0 (min 1 y)| ≤ |min 1 x - min 1 y| := by
        rw [max_comm 0, max_comm 0]; exact abs_max_sub_max_le_abs _ _ _
    _ ≤ |x - y| := by rw [min_comm 1, min_comm 1]; exact abs_min_sub_min_le_max _ _ _ _ |>.trans (by simp)

theorem cvm_samples {s s' : List ℝ} {δ w w' : ℝ} (h : Moved δ s s') (hw : pitCvm s = .ok w) (hw' : pitCvm s' = .ok w') : |w' - w| ≤ 2 * s.length * δ := by
  have hl : s'.length = s.length := (List.Forall₂.length_eq h).symm
  unfold pitCvm at hw hw'
  rw [hl] at hw'
  by_cases h1 : s.length ≤ 1
  · simp [h1] at hw
  rw [if_neg h1] at hw hw'
  unfold cvmStat at hw hw'
  rw [hl] at hw'
  have h0 : s.length ≠ 0 := by omega
  have hn : (1 : ℝ) ≤ s.length := by exact_mod_cast (by omega : 1 ≤ s.length)
  simp only [h0, if_false, Except.ok.injEq] at hw hw'
  rw [← hw, ← hw', add_sub_add_left_eq_sub, sum_eq, sum_eq]
  have e1 : (Np.sort s).length = s.length := by simp [Np.sort]
  have e2 : (Np.sort s').length = s.length := by simp [Np.sort, hl]
  have := sum_close (ε := 2 * δ) (l := List.zipWith (fun (i : ℕ) v => ((2 * ((i : ℝ) + 1) - 1) / (2 * (s.length : ℝ)) - v) ^ 2) (List.range s.length) ((Np.sort s).map uniformCdf))
    (l' := List.zipWith (fun (i : ℕ) v => ((2 * ((i : ℝ) + 1) - 1) / (2 * (s.length : ℝ)) - v) ^ 2) (List.range s.length) ((Np.sort s').map uniformCdf)) (by
      rw [List.forall₂_iff_get]
      refine ⟨by simp [e1, e2], fun i hi hi' => ?_⟩
      simp only [List.length_zipWith, List.length_range, List.length_map, e1, e2, min_self] at hi hi'
      simp only [List.get_eq_getElem, List.getElem_zipWith, List.getElem_range, List.getElem_map]
      have hm := sort_moved h (List.getElem?_eq_getElem (by omega : i < (Np.sort s).length)) (List.getElem?_eq_getElem (by omega : i < (Np.sort s').length))
      generalize (Np.sort s)[i]'_ = v at hm
      generalize (Np.sort s')[i]'_ = v' at hm
      have hu : ∀ x : ℝ, 0 ≤ uniformCdf x ∧ uniformCdf x ≤ 1 := fun x => ⟨le_max_left _ _, max_le zero_le_one (min_le_left _ _)⟩
      have hp0 : 0 ≤ (2 * ((i : ℝ) + 1) - 1) / (2 * (s.length : ℝ)) := div_nonneg (by linarith [(Nat.cast_nonneg i : (0 : ℝ) ≤ i)]) (by linarith)
      have hp1 : (2 * ((i : ℝ) + 1) - 1) / (2 * (s.length : ℝ)) ≤ 1 := by
        rw [div_le_one (by linarith)]
        have : (i : ℝ) + 1 ≤ s.length := by exact_mod_cast hi
        linarith
      have := sq_close (u := (2 * ((i : ℝ) + 1) - 1) / (2 * (s.length : ℝ)) - uniformCdf v) (u' := (2 * ((i : ℝ) + 1) - 1) / (2 * (s.length : ℝ)) - uniformCdf v') (M := 1) (δ := δ)
        (by rw [sub_sub_sub_cancel_left, abs_sub_comm]; exact (uniform_close _ _).trans hm)
        (by rw [abs_le]; constructor <;> linarith [hu v]) (by rw [abs_le]; constructor <;> linarith [hu v'])
      linarith)
  simp only [List.length_zipWith, List.length_range, List.length_map, e1, min_self] at this
  linarith

/-- a PIT object is made for two or more objects -/
theorem pit_ok (cdfs : List (ℝ → Option ℝ)) (zs grid : List ℝ) (hn : cdfs.length = zs.length) (h2 : 2 ≤ zs.length) (hg : ∀ p ∈ grid, 0 ≤ p ∧ p ≤ 1) :
    ∃ q l d w, pitInit cdfs zs grid = .ok (List.zipWith (fun F z => (F z).getD 0) cdfs zs, q, l) ∧
      pitKs (List.zipWith (fun F z => (F z).getD 0) cdfs zs) = .ok d ∧ pitCvm (List.zipWith (fun F z => (F z).getD 0) cdfs zs) = .ok w := by
  set s := List.zipWith (fun F z => (F z).getD 0) cdfs zs with hs
  have hlen : s.length = zs.length := by simp [hs, hn]
  have hne : s ≠ [] := by intro h; rw [h] at hlen; simp at hlen; omega
  obtain ⟨q, hq⟩ := mapM_ok (fun p => npQuantile p s) (pitGrid zs.length grid) fun p hp => npQuantile_ok p _ (pitGrid_unit zs.length grid hg p hp) hne
  obtain ⟨d, hd, -⟩ := C86_ks s hne
  obtain ⟨w, hw⟩ := (C67_exists uniformCdf s).2 hne
  refine ⟨(pitEnsemble q (pitGrid zs.length grid)).1, (pitEnsemble q (pitGrid zs.length grid)).2, d, w, ?_, hd, by rw [pitCvm, if_neg (by omega)]; exact hw⟩
  simp only [pitInit, pitSamples_two _ _ hn h2, arrLen, Bind.bind, Except.bind, ← hs, hq]

/-- **C150, the PIT.** If the distribution functions of the two ensembles differ by at most `δ` at the true values of their `n ≥ 2` objects, a PIT object is made of both; the PIT values, their
quantiles and the Kolmogorov-Smirnov statistic differ by at most `δ`, the Cramer-von Mises statistic by at most `2 n δ`. -/
theorem C150_pit (cdfs cdfs' : List (ℝ → Option ℝ)) (zs grid : List ℝ) (hn : cdfs.length = zs.length) (hn' : cdfs'.length = zs.length) (h2 : 2 ≤ zs.length)
    (hg : ∀ p ∈ grid, 0 ≤ p ∧ p ≤ 1) (δ : ℝ)
    (hc : ∀ (i : ℕ) F F' z, cdfs[i]? = some F → cdfs'[i]? = some F' → zs[i]? = some z → ∃ v v', F z = some v ∧ F' z = some v' ∧ |v' - v| ≤ δ) :
    ∃ s s' q q' l l' d d' w w', pitInit cdfs zs grid = .ok (s, q, l) ∧ pitInit cdfs' zs grid = .ok (s', q', l') ∧ List.Forall₂ (fun v v' => |v' - v| ≤ δ) s s' ∧
      pitKs s = .ok d ∧ pitKs s' = .ok d' ∧ |d' - d| ≤ δ ∧ pitCvm s = .ok w ∧ pitCvm s' = .ok w' ∧ |w' - w| ≤ 2 * zs.length * δ ∧
      ∀ p, 0 ≤ p → p ≤ 1 → ∃ v v', npQuantile p s = .ok v ∧ npQuantile p s' = .ok v' ∧ |v' - v| ≤ δ := by
  obtain ⟨q, l, d, w, h3, hd, hw⟩ := pit_ok cdfs zs grid hn h2 hg
  obtain ⟨q', l', d', w', h3', hd', hw'⟩ := pit_ok cdfs' zs grid hn' h2 hg
  have hm : Moved δ (List.zipWith (fun F z => (F z).getD 0) cdfs zs) (List.zipWith (fun F z => (F z).getD 0) cdfs' zs) := by
    unfold Moved
    rw [List.forall₂_iff_get]
    refine ⟨by simp [hn, hn'], fun i hi hi' => ?_⟩
    simp only [List.length_zipWith] at hi hi'
    simp only [List.get_eq_getElem, List.getElem_zipWith]
    obtain ⟨v, v', e1, e2, e3⟩ := hc i _ _ _ (List.getElem?_eq_getElem (by omega : i < cdfs.length)) (List.getElem?_eq_getElem (by omega : i < cdfs'.length))
      (List.getElem?_eq_getElem (by omega : i < zs.length))
    rw [e1, e2]
    exact e3
  have hlen : (List.zipWith (fun F z => (F z).getD 0) cdfs zs).length = zs.length := by simp [hn]
  have hlen' : (List.zipWith (fun F z => (F z).getD 0) cdfs' zs).length = zs.length := by simp [hn']
  have hne : ∀ s : List ℝ, s.length = zs.length → s ≠ [] := by rintro s hs rfl; simp at hs; omega
  refine ⟨_, _, q, q', l, l', d, d', w, w', h3, h3', hm, hd, hd', ?_, hw, hw', ?_, ?_⟩
  · simpa using C133_ks_samples hd hd' zero_le_one (fun x y => by simpa using uniform_close x y) hm
  · simpa [hlen] using cvm_samples hm hw hw'
  · intro p p0 p1
    obtain ⟨v, hv⟩ := npQuantile_ok p _ ⟨p0, p1⟩ (hne _ hlen)
    obtain ⟨v', hv'⟩ := npQuantile_ok p _ ⟨p0, p1⟩ (hne _ hlen')
    exact ⟨v, v', hv, hv', quantile_moved hm hv hv'⟩

/-! ## conversions to histograms -/

open Verif.Props.Convert Verif.Props.Bins Verif.Props.Hist Verif.Props.ConvertError

/-- `cdf` of PDF `i` of a histogram ensemble, `hist_pdf.py` 107-117 -/
noncomputable def histCdfRow (fr : Frozen ℝ) (i : ℕ) (x : ℝ) : Option ℝ := (finites (tableRow fr i "pdfs")).bind fun r => histCdf (metaGrid fr.metadata "bins") r x

/-- **C150, converted ensembles.** An ensemble of any class, with distribution functions `F i` whose mass lies inside the equal bins `b`, no bin holding more than `δ` of it. The PIT of the
ensemble converted to a histogram is that of the original up to `δ`: the values, their quantiles, and the Kolmogorov-Smirnov statistic; Cramer-von Mises up to `2 n δ`. -/
theorem C150_hist_conversion (ev : Evals ℝ) (e : Ens ℝ) (b : List ℝ) (h2 : 2 ≤ b.length) (hb : b.Pairwise (· < ·)) (hu : Uniform b)
    (F : ℕ → ℝ → ℝ) (hs : e.frozen.shape ≠ [])
    (hcdf : ev.cdf e.frozen (.arr (vec b)) = .ok ⟨e.frozen.shape ++ [b.length], nums ((List.range e.frozen.shape.prod).map fun i => b.map (F i)).flatten⟩)
    (hF : ∀ i, Monotone (F i)) (h01 : ∀ i x, 0 ≤ F i x ∧ F i x ≤ 1)
    (hF0 : ∀ i a, b.head? = some a → F i a = 0) (hF1 : ∀ i a, b.getLast? = some a → F i a = 1)
    (δ : ℝ) (hδ : ∀ i (j : ℕ) u v, b[j]? = some u → b[j + 1]? = some v → F i v - F i u ≤ δ)
    (zs grid : List ℝ) (hz : zs.length = e.frozen.shape.prod) (hz2 : 2 ≤ zs.length) (hg : ∀ p ∈ grid, 0 ≤ p ∧ p ≤ 1) :
    ∃ e', convertTo (histPy ev) e none [("bins", .arr (vec b))] = .ok e' ∧
      ∃ s s' q q' l l' d d' w w', pitInit ((List.range e.frozen.shape.prod).map fun i x => some (F i x)) zs grid = .ok (s, q, l) ∧
        pitInit ((List.range e.frozen.shape.prod).map (histCdfRow e'.frozen)) zs grid = .ok (s', q', l') ∧ List.Forall₂ (fun v v' => |v' - v| ≤ δ) s s' ∧
        pitKs s = .ok d ∧ pitKs s' = .ok d' ∧ |d' - d| ≤ δ ∧ pitCvm s = .ok w ∧ pitCvm s' = .ok w' ∧ |w' - w| ≤ 2 * zs.length * δ ∧
        ∀ p, 0 ≤ p → p ≤ 1 → ∃ v v', npQuantile p s = .ok v ∧ npQuantile p s' = .ok v' ∧ |v' - v| ≤ δ := by
  have hp := fun i => row_error b (F i) h2 hb hu (hF i) (h01 i) (hF0 i) (hF1 i)
  choose P hP1 hlen G hG1 hG2 hG3 using hp
  have hbne : b ≠ [] := by rintro rfl; simp at h2
  have hclose : ∀ i x, |G i x - F i x| ≤ δ := by
    intro i x
    have hδ0 : 0 ≤ δ := by
      match b, h2, hb with
      | a :: c :: t, _, hb =>
        have := hδ i 0 a c rfl rfl
        have := hF i ((List.pairwise_cons.1 hb).1 c (by simp)).le
        linarith
    by_cases hl : ∀ v ∈ b, x ≤ v
    · rw [hG3 i x (Or.inl hl)]; simpa using hδ0
    by_cases hr : ∀ v ∈ b, v ≤ x
    · rw [hG3 i x (Or.inr hr)]; simpa using hδ0
    push Not at hl hr
    obtain ⟨v1, hv1, hv1x⟩ := hl
    obtain ⟨v2, hv2, hv2x⟩ := hr
    have hhead : b.head hbne ≤ v1 := by
      obtain ⟨a, t, rfl⟩ := List.exists_cons_of_ne_nil hbne
      rcases List.mem_cons.1 hv1 with rfl | h
      · exact le_rfl
      · exact ((List.pairwise_cons.1 hb).1 v1 h).le
    obtain ⟨j, u, v, hu', hv', h1, h2'⟩ := bracket b x (b.head hbne) (b.getLast hbne) (List.head?_eq_some_head hbne)
      (List.getLast?_eq_getLast_of_ne_nil hbne) (hhead.trans hv1x.le) (hv2x.trans_le (Verif.Lemmas.InterpPdf.getLast_max hb hbne hv2))
    exact (hG2 i x j u v hu' hv' h1 h2'.le).trans (hδ i j u v hu' hv')
  refine ⟨_, hist_conversion ev e b h2 F hs hcdf P (fun i _ => hP1 i), C150_pit _ _ zs grid (by simp [hz]) (by simp [hz]) hz2 hg δ ?_⟩
  intro i f f' z hf hf' _
  rw [List.getElem?_map] at hf hf'
  obtain ⟨k, hk, rfl⟩ := Option.map_eq_some_iff.1 hf
  obtain ⟨k', hk', rfl⟩ := Option.map_eq_some_iff.1 hf'
  rw [hk] at hk'
  obtain rfl := Option.some.inj hk'
  have hi : k < e.frozen.shape.prod := List.mem_range.1 (List.mem_of_getElem? hk)
  refine ⟨_, G k z, rfl, ?_, hclose k z⟩
  unfold histCdfRow
  rw [tableRow_hist b e.frozen.shape.prod P e.frozen.shape (fun i _ => hlen i) k hi, finites_nums, metaGrid_hist]
  simp [hG1 k z]

/-! ## conversions to interpolated PDFs -/

open Verif.Props.ConvertInterpError (Mesh Smooth massError gridError)

/-- **C150, converted ensembles.** An ensemble of any class with densities `g i` as in C110, for which the error of the conversion to interpolated PDFs is at most `δ` by that bound. On every grid
inside the range the RMSE between the original and the converted ensemble is at most `δ`, and the CDE losses differ by at most `2 δ ((M + δ) w + 1)` where `w` is the length of the grid. -/
theorem C150_interp_conversion (ev : Evals ℝ) (e : Ens ℝ) (x : List ℝ) (a b h : ℝ) (m : Mesh x a b h)
    (g : ℕ → ℝ → ℝ) (L μ : ℕ → ℝ) (M δ : ℝ) (hg : ∀ i, Smooth (g i) a b (L i) M (μ i)) (hD : ∀ i, massError a b (L i) h (μ i) < 1) (hδ : ∀ i, gridError a b (L i) M h (μ i) ≤ δ)
    (hpdf : ev.pdf e.frozen (.arr (vec x)) = .ok ⟨e.frozen.shape ++ [x.length], nums ((List.range e.frozen.shape.prod).map fun i => x.map (g i)).flatten⟩) :
    ∃ (e' : Ens ℝ) (G : ℕ → ℝ → ℝ), convertTo (interpPy ev) e none [("xvals", .arr (vec x))] = .ok e' ∧
      (∀ t : List ℝ, t.Pairwise (· < ·) → ensArr interpPdfElem e'.frozen (.arr (vec t))
        = .ok ⟨e.frozen.shape ++ [t.length], nums ((List.range e.frozen.shape.prod).map fun i => t.map (G i)).flatten⟩) ∧
      (∀ l0 l1 dx gr, gridParams l0 l1 dx = .ok gr → (∀ t ∈ gr.values, a ≤ t ∧ t ≤ b) →
        ∃ r, calculateRmse ⟨e.frozen.shape, (List.range e.frozen.shape.prod).map G⟩ ⟨e.frozen.shape, (List.range e.frozen.shape.prod).map g⟩ l0 l1 dx = .ok r ∧
          r.length = e.frozen.shape.prod ∧ ∀ v ∈ r, 0 ≤ v ∧ v ≤ δ) ∧
      ∀ (xs zs : List ℝ) u v, xs.Pairwise (· < ·) → xs.head? = some u → xs.getLast? = some v → (∀ t ∈ xs, a ≤ t ∧ t ≤ b) → e.frozen.shape = [zs.length] → zs ≠ [] →
        ∃ c c', cdeEvaluate xs ⟨e.frozen.shape, (List.range e.frozen.shape.prod).map g⟩ zs = .ok (some c) ∧
          cdeEvaluate xs ⟨e.frozen.shape, (List.range e.frozen.shape.prod).map G⟩ zs = .ok (some c') ∧ |c' - c| ≤ 2 * δ * ((M + δ) * (v - u) + 1) := by
  obtain ⟨e', G, C, h1, h2, -, h3⟩ := ConvertInterpError.C110_interp_error ev e x a b h m g L (fun _ => M) μ hg hD hpdf
  have hcl : ∀ i t, a ≤ t → t ≤ b → |G i t - g i t| ≤ δ := fun i t ha hb => ((h3 i).1 t ha hb).trans (hδ i)
  have hδ0 : 0 ≤ δ := (abs_nonneg _).trans (hcl 0 a le_rfl m.lt.le)
  have close : ∀ (xs : List ℝ), (∀ t ∈ xs, a ≤ t ∧ t ≤ b) →
      Close δ xs ⟨e.frozen.shape, (List.range e.frozen.shape.prod).map g⟩ ⟨e.frozen.shape, (List.range e.frozen.shape.prod).map G⟩ := by
    intro xs hxs
    refine ⟨rfl, ?_⟩
    rw [List.forall₂_map_left_iff, List.forall₂_map_right_iff, List.forall₂_same]
    intro i _ t ht
    exact hcl i t (hxs t ht).1 (hxs t ht).2
  refine ⟨e', G, h1, h2, ?_, ?_⟩
  · intro l0 l1 dx gr hgr hin
    obtain ⟨r, r', e1, e2, e3⟩ := C150_rmse _ _ ⟨e.frozen.shape, (List.range e.frozen.shape.prod).map g⟩ l0 l1 dx δ hδ0 gr hgr (close _ hin) rfl
    have e0 := (C69_value ⟨e.frozen.shape, (List.range e.frozen.shape.prod).map G⟩ ⟨e.frozen.shape, (List.range e.frozen.shape.prod).map g⟩ l0 l1 dx).2 gr rfl hgr
    refine ⟨r', e2, ?_, ?_⟩
    · rw [e0] at e2
      rw [← Except.ok.inj e2]
      simp
    · intro v hv
      obtain ⟨-, -, -, h4, -, -⟩ := gridParams_ok hgr
      have hz : ∀ w ∈ r, w = 0 := by
        rw [(C69_value _ _ l0 l1 dx).2 gr rfl hgr] at e1
        rw [← Except.ok.inj e1]
        intro w hw
        obtain ⟨i, hi, rfl⟩ := List.mem_iff_getElem.1 hw
        rw [List.getElem_zipWith]
        exact ((C69_metric gr.values gr.card (by omega) _ _ (fun _ => 0)).2.2.1).2 fun _ _ => rfl
      obtain ⟨i, hi, rfl⟩ := List.mem_iff_getElem.1 hv
      have hi' : i < r.length := by rw [e3.length_eq]; exact hi
      have e4 := (List.forall₂_iff_get.1 e3).2 i hi' hi
      simp only [List.get_eq_getElem] at e4
      rw [hz _ (List.getElem_mem hi'), sub_zero] at e4
      refine ⟨?_, (le_abs_self _).trans e4⟩
      rw [e0] at e2
      have := Except.ok.inj e2
      subst this
      rw [List.getElem_zipWith]
      exact (C69_metric gr.values gr.card (by omega) _ _ (fun _ => 0)).1
  · intro xs zs u v hs hu hv hin hsh hz
    have hM0 : ∀ i t, a ≤ t → t ≤ b → |g i t| ≤ M := fun i t ha hb => (hg i).top t ⟨ha, hb⟩
    refine C150_cde _ _ zs xs δ (M + δ) u v hs hu hv ⟨hsh, by simp [hsh]⟩ hz (close xs hin) ?_ ?_
    · intro f hf t ht
      obtain ⟨i, -, rfl⟩ := List.mem_map.1 hf
      linarith [hM0 i t (hin t ht).1 (hin t ht).2]
    · intro f hf t ht
      obtain ⟨i, -, rfl⟩ := List.mem_map.1 hf
      have h4 := hM0 i t (hin t ht).1 (hin t ht).2
      have h5 := hcl i t (hin t ht).1 (hin t ht).2
      have := abs_sub_abs_le_abs_sub (G i t) (g i t)
      linarith

/-! ## cases -/

/-- two uniform densities and two that differ by at most one tenth -/
def flat : FnEns ℝ := ⟨[2], [fun _ => 1, fun _ => 1]⟩
noncomputable def tilted : FnEns ℝ := ⟨[2], [fun x => 1 + (x - 1 / 2) / 5, fun x => 1 - (x - 1 / 2) / 5]⟩

theorem grid_case : ∃ g, gridParams (0 : ℝ) 1 (1 / 4) = .ok g ∧ g.card = 4 ∧ ∀ x ∈ g.values, 0 ≤ x ∧ x ≤ 1 := by
  have hf : ⌊((1 : ℝ) - 0) / (1 / 4)⌋ = 4 := by norm_num
  have hp : pyInt (((1 : ℝ) - 0) / (1 / 4)) = 4 := by rw [pyInt, if_pos (by norm_num), hf]
  refine ⟨⟨linspace 0 1 4, 4, (1 - 0) / ((4 : ℕ) - 1), linspace (0 - (1 - 0) / ((4 : ℕ) - 1) / 2) (1 + (1 - 0) / ((4 : ℕ) - 1) / 2) 5, (0, 1)⟩, ?_, rfl, ?_⟩
  · unfold gridParams
    rw [if_neg (by norm_num), hp, if_neg (by norm_num), if_neg (by norm_num)]
    simp only [Bind.bind, Except.bind, show (4 : ℤ).toNat = 4 from rfl, histogramBinEdges]
    rw [if_neg (by norm_num), if_neg (by norm_num), min_eq_left (by norm_num), max_eq_right (by norm_num)]
  · intro x hx
    exact mem_linspace (by norm_num) (by norm_num) hx

theorem close_case {xs : List ℝ} (h : ∀ x ∈ xs, 0 ≤ x ∧ x ≤ 1) : Close (1 / 10) xs flat tilted := by
  refine ⟨rfl, .cons ?_ (.cons ?_ .nil)⟩ <;> intro x hx <;> have := h x hx <;> rw [abs_le] <;> constructor <;> linarith [this.1, this.2]

theorem bounded_case {xs : List ℝ} (h : ∀ x ∈ xs, 0 ≤ x ∧ x ≤ 1) : Bounded 2 xs flat ∧ Bounded 2 xs tilted := by
  constructor <;> intro f hf x hx <;> have := h x hx <;> simp [flat, tilted] at hf
  · subst hf; norm_num
  · rcases hf with rfl | rfl <;> rw [abs_le] <;> constructor <;> linarith [this.1, this.2]

example : ∃ m m', calculateMoment flat 1 0 1 (1 / 4) = .ok m ∧ calculateMoment tilted 1 0 1 (1 / 4) = .ok m' ∧ ∃ B, List.Forall₂ (fun v v' => |v' - v| ≤ B) m m' := by
  obtain ⟨g, hg, -, hv⟩ := grid_case
  obtain ⟨m, m', h1, h2, h3⟩ := C150_moment flat tilted 1 0 1 (1 / 4) (1 / 10) g hg (close_case hv)
  exact ⟨m, m', h1, h2, _, h3⟩

example : ∃ r r', calculateRmse flat flat 0 1 (1 / 4) = .ok r ∧ calculateRmse tilted flat 0 1 (1 / 4) = .ok r' ∧ List.Forall₂ (fun v v' => |v' - v| ≤ 1 / 10) r r' := by
  obtain ⟨g, hg, -, hv⟩ := grid_case
  exact C150_rmse flat tilted flat 0 1 (1 / 4) (1 / 10) (by norm_num) g hg (close_case hv) rfl

example : ∃ v v', calculateBrier flat [1 / 4, 1 / 2] 0 1 (1 / 4) = .ok (some v) ∧ calculateBrier tilted [1 / 4, 1 / 2] 0 1 (1 / 4) = .ok (some v') ∧ |v' - v| ≤ 12 / 5 := by
  obtain ⟨g, hg, hc, hv⟩ := grid_case
  obtain ⟨v, v', h1, h2, h3⟩ := C150_brier flat tilted [1 / 4, 1 / 2] 0 1 (1 / 4) (1 / 10) 2 g hg ⟨rfl, rfl, by intro t ht; simp at ht; rcases ht with rfl | rfl <;> norm_num⟩ (by simp)
    (close_case hv) (bounded_case hv).1 (bounded_case hv).2
  refine ⟨v, v', h1, h2, h3.trans ?_⟩
  rw [hc]
  norm_num

theorem unit_points : ∀ x ∈ [0, 1 / 4, 1 / 2, (1 : ℝ)], 0 ≤ x ∧ x ≤ 1 := by
  intro x hx
  simp at hx
  rcases hx with rfl | rfl | rfl | rfl <;> norm_num

example := C150_cde flat tilted [1 / 3, 1 / 5] [0, 1 / 4, 1 / 2, 1] (1 / 10) 2 0 1 (by norm_num) rfl rfl ⟨rfl, rfl⟩ (by simp) (close_case unit_points) (bounded_case unit_points).1
  (bounded_case unit_points).2

example := C150_pit [fun x => some x, fun x => some (x ^ 2)] [fun x => some (x + 1 / 10), fun x => some (x ^ 2 - 1 / 20)] [1 / 2, 1 / 3] [0, 1 / 2, 1] rfl rfl (by simp)
  (by intro p hp; simp at hp; rcases hp with rfl | rfl | rfl <;> norm_num) (1 / 10) (by
    intro i F F' z h1 h2 h3
    match i with
    | 0 => simp at h1 h2 h3; subst h1 h2 h3; exact ⟨_, _, rfl, rfl, by norm_num⟩
    | 1 => simp at h1 h2 h3; subst h1 h2 h3; exact ⟨_, _, rfl, rfl, by norm_num⟩
    | i + 2 => simp at h1)

example := C150_interp_conversion ⟨ensArr interpPdfElem, ensArr interpPdfElem, ensArr interpPdfElem⟩ ConvertInterpError.triangleEns [0, 1/2, 1, 3/2, 2] 0 2 (1/2) ConvertInterpError.mesh5
  (fun _ => brokenLine [0, 1, 2] [0, 1, 0]) (fun _ => 1) (fun _ => 1) 1 _ (fun _ => ConvertInterpError.triangle_smooth)
  (fun _ => by norm_num [massError]) (fun _ => le_rfl)
  (ConvertInterpError.ensArr_at _ ConvertInterpError.triangleEns.frozen (by simp [ConvertInterpError.triangleEns, frozenOf]) _ ConvertInterpError.mesh5.strict _ (by
    intro i hi v _
    simp only [interpPdfElem, interpEval, ConvertInterpError.triangleEns]
    rw [ConvertInterpError.tableRow_interp [0, 1, 2] [1].prod (fun _ => [0, 1, 0]) [1] (fun _ _ => rfl) i hi, finites_nums, Verif.Props.Convert.metaGrid_interp]
    simp [EndToEnd.interp_line [0, 1, 2] [0, 1, 0] (ConvertInterpError.mesh3.grid _ rfl) v]))

end Verif.Props.MetricClose
