import Verif.Props.Units
import Verif.Props.Divergence
import Verif.Props.CdeLoss
import Verif.Props.Brier
import Verif.Model.Gof
import Verif.Model.Pit

/-!
# C117: metrics and the units of x
-/

set_option linter.unusedSectionVars false
set_option autoImplicit false

namespace Verif.Props.UnitsMetrics

open Verif Verif.Np Verif.Model Verif.Props.Units

variable {K : Type} [Field K] [LinearOrder K] [IsStrictOrderedRing K]

/-- the densities `e'` are those of `e` in the new units, in which `x` is called `s * x + t` -/
structure Rescaled (s t : K) (e e' : FnEns K) : Prop where
  shape : e'.shape = e.shape
  fns : List.Forall₂ (fun f f' => ∀ x, f' (unit s t x) = f x / s) e.fns e'.fns

theorem linspace_unit (s t lo hi : K) (n : ℕ) : linspace (unit s t lo) (unit s t hi) n = (linspace lo hi n).map (unit s t) := by
  unfold linspace
  rw [List.map_map]
  apply List.map_congr_left
  intro i _
  simp only [Function.comp]
  split_ifs
  · rfl
  · unfold unit
    ring

/-- **C117: the grid of the metrics** for limits and step given in the new units is the grid for the old ones, in the new units. -/
theorem C117_grid [FloorRing K] (s t : K) (hs : 0 < s) (l0 l1 dx : K) :
    gridParams (unit s t l0) (unit s t l1) (s * dx) = (gridParams l0 l1 dx).map fun g =>
      ⟨g.values.map (unit s t), g.card, s * g.resolution, g.edges.map (unit s t), (unit s t l0, unit s t l1)⟩ := by
  have hq : (unit s t l1 - unit s t l0) / (s * dx) = (l1 - l0) / dx := by rw [unit_sub hs, mul_div_mul_left _ _ hs.ne']
  unfold gridParams
  simp only [hq, mul_eq_zero, hs.ne', false_or]
  split_ifs
  · rfl
  · rfl
  · rfl
  · rename_i hdx hneg hone
    obtain ⟨c, hc⟩ : ∃ c, c = (pyInt ((l1 - l0) / dx)).toNat := ⟨_, rfl⟩
    obtain ⟨r, hr⟩ : ∃ r, r = (l1 - l0) / ((c : K) - 1) := ⟨_, rfl⟩
    have hr' : (unit s t l1 - unit s t l0) / ((c : K) - 1) = s * r := by rw [unit_sub hs, hr, mul_div_assoc]
    simp only [← hc, hr', ← hr]
    have ha : unit s t l0 - s * r / 2 = unit s t (l0 - r / 2) := by unfold unit; ring
    have hb : unit s t l1 + s * r / 2 = unit s t (l1 + r / 2) := by unfold unit; ring
    rw [ha, hb]
    unfold histogramBinEdges
    by_cases h0 : c = 0
    · simp [h0, Bind.bind, Except.bind, Except.map]
    · have hc2 : 2 ≤ c := by
        have : pyInt ((l1 - l0) / dx) ≠ 0 := by intro h; rw [h] at hc; simp at hc; exact h0 hc
        omega
      have hne : l0 - r / 2 ≠ l1 + r / 2 := by
        intro h
        have hc1 : (0 : K) < (c : K) - 1 := by
          have : (2 : K) ≤ (c : K) := by exact_mod_cast hc2
          linarith
        have h1 : l1 - l0 + r = 0 := by linarith
        have h2 : r * ((c : K) - 1) = l1 - l0 := by rw [hr, div_mul_cancel₀ _ hc1.ne']
        have h3 : r * (c : K) = 0 := by linear_combination h1 + h2
        have h4 : r = 0 := by
          rcases mul_eq_zero.1 h3 with h | h
          · exact h
          · have : c = 0 := by exact_mod_cast h
            omega
        have h5 : l1 - l0 = 0 := by rw [h4] at h1; linarith
        rw [h5, zero_div] at hc
        simp [pyInt] at hc
        omega
      have hne' : unit s t (l0 - r / 2) ≠ unit s t (l1 + r / 2) := fun h => hne ((unit_inj hs t).1 h)
      have hmin : ∀ a b : K, min (unit s t a) (unit s t b) = unit s t (min a b) := by
        intro a b
        rcases le_total a b with h | h
        · rw [min_eq_left h, min_eq_left ((unit_le hs t).2 h)]
        · rw [min_eq_right h, min_eq_right ((unit_le hs t).2 h)]
      have hmax : ∀ a b : K, max (unit s t a) (unit s t b) = unit s t (max a b) := by
        intro a b
        rcases le_total a b with h | h
        · rw [max_eq_right h, max_eq_right ((unit_le hs t).2 h)]
        · rw [max_eq_left h, max_eq_left ((unit_le hs t).2 h)]
      simp only [h0, if_false, hne, hne', hmin, hmax, linspace_unit, Bind.bind, Except.bind, Except.map]

theorem map_rescaled (s t : K) {f f' : K → K} (h : ∀ x, f' (unit s t x) = f x / s) (xs : List K) :
    (xs.map (unit s t)).map f' = (xs.map f).map (· / s) := by
  simp [Function.comp_def, h]

theorem zipWith_rescaled {β : Type} {s t : K} {l l' m m' : List (K → K)} (h : List.Forall₂ (fun f f' => ∀ x, f' (unit s t x) = f x / s) l l')
    (h2 : List.Forall₂ (fun f f' => ∀ x, f' (unit s t x) = f x / s) m m') (F : (K → K) → (K → K) → β) (G : β → β) (F' : (K → K) → (K → K) → β)
    (hF : ∀ f f' g g', f ∈ l → g ∈ m → (∀ x, f' (unit s t x) = f x / s) → (∀ x, g' (unit s t x) = g x / s) → F' f' g' = G (F f g)) :
    List.zipWith F' l' m' = (List.zipWith F l m).map G := by
  induction h generalizing m m' with
  | nil => simp
  | @cons f f' l l' hf h ih =>
    cases h2 with
    | nil => simp
    | @cons g g' m m' hg h2 =>
      simp only [List.zipWith_cons_cons, List.map_cons]
      rw [hF f f' g g' (by simp) (by simp) hf hg, ih h2]
      intro f1 f1' g1 g1' hf1 hg1
      exact hF f1 f1' g1 g1' (by simp [hf1]) (by simp [hg1])

/-- **C117: root mean square difference** is divided by `s` like the densities. -/
theorem C117_rmse (s t : ℝ) (hs : 0 < s) (p p' q q' : FnEns ℝ) (hp : Rescaled s t p p') (hq : Rescaled s t q q') (l0 l1 dx : ℝ) :
    calculateRmse p' q' (unit s t l0) (unit s t l1) (s * dx) = (calculateRmse p q l0 l1 dx).map fun d => d.map (· / s) := by
  unfold calculateRmse
  rw [hp.shape, hq.shape, C117_grid s t hs]
  split_ifs
  · rfl
  · cases gridParams l0 l1 dx with
    | error e => rfl
    | ok g =>
      simp only [Except.map, Bind.bind, Except.bind]
      congr 1
      apply zipWith_rescaled hp.fns hq.fns _ (· / s)
      intro f f' h h' _ _ hf hh
      rw [map_rescaled s t hf, map_rescaled s t hh]
      unfold quickRmse
      have key : ∀ a b : List ℝ, Np.sum (List.zipWith (fun a b => (a - b) ^ 2) (a.map (· / s)) (b.map (· / s))) =
          Np.sum (List.zipWith (fun a b => (a - b) ^ 2) a b) / s ^ 2 := by
        intro a
        induction a with
        | nil => intro b; simp [Np.sum]
        | cons a as ih =>
          intro b
          cases b with
          | nil => simp [Np.sum]
          | cons b bs =>
            have := ih bs
            simp only [Np.sum, List.map_cons, List.zipWith_cons_cons, List.foldr_cons] at this ⊢
            rw [this]
            field_simp
      rw [key, div_right_comm, Real.sqrt_div' _ (by positivity), Real.sqrt_sq hs.le]

/-- the clipping of small densities does not act on this pair of values in either of the units -/
def Unclipped (s a b : ℝ) : Prop := a = 0 ∨ machEps ≤ a ∧ machEps ≤ a / s ∧ machEps ≤ b ∧ machEps ≤ b / s

/-- **C117 (partial): KL divergence** does not depend on the units, for densities that are not clipped at the grid points (points where the
first density vanishes do not matter). Missing: clipped densities (false, `C117_kld_wrong`). -/
theorem C117_kld_partial (s t : ℝ) (hs : 0 < s) (p p' q q' : FnEns ℝ) (hp : Rescaled s t p p') (hq : Rescaled s t q q') (l0 l1 dx : ℝ)
    (hcl : ∀ g, gridParams l0 l1 dx = .ok g → ∀ f ∈ p.fns, ∀ h ∈ q.fns, ∀ x ∈ g.values, Unclipped s (f x) (h x)) :
    calculateKld p' q' (unit s t l0) (unit s t l1) (s * dx) = calculateKld p q l0 l1 dx := by
  unfold calculateKld
  rw [hp.shape, hq.shape, C117_grid s t hs]
  split_ifs
  · rfl
  · cases hg : gridParams l0 l1 dx with
    | error e => rfl
    | ok g =>
      have key : ∀ (f f' h h' : ℝ → ℝ), f ∈ p.fns → h ∈ q.fns → (∀ x, f' (unit s t x) = f x / s) → (∀ x, h' (unit s t x) = h x / s) →
          quickKld ((g.values.map (unit s t)).map f') ((g.values.map (unit s t)).map h') (s * g.resolution) =
            id (quickKld (g.values.map f) (g.values.map h) g.resolution) := by
        intro f f' h h' hf hh hff hhh
        have hc := hcl g hg f hf h hh
        rw [map_rescaled s t hff, map_rescaled s t hhh]
        unfold quickKld
        rw [id, mul_comm s, mul_assoc]
        congr 1
        generalize g.values = xs at hc
        induction xs with
        | nil => simp [Np.sum]
        | cons x xs ih =>
          have ih := ih fun y hy => hc y (by simp [hy])
          simp only [Np.sum, List.map_cons, List.zipWith_cons_cons, List.foldr_cons] at ih ⊢
          rw [mul_add, ih]
          congr 1
          rcases hc x (by simp) with h0 | ⟨h1, h2, h3, h4⟩
          · simp [h0]
          · have hpos := Metrics.machEps_pos
            have e1 : safelog (f x / s) = safelog (f x) - Real.log s := by
              unfold safelog
              rw [max_eq_left h1, max_eq_left h2, Real.log_div (by linarith) hs.ne']
            have e2 : safelog (h x / s) = safelog (h x) - Real.log s := by
              unfold safelog
              rw [max_eq_left h3, max_eq_left h4, Real.log_div (by linarith) hs.ne']
            rw [e1, e2]
            field_simp
            ring
      have hz := zipWith_rescaled hp.fns hq.fns
        (fun f h => quickKld (g.values.map f) (g.values.map h) g.resolution) id
        (fun f h => quickKld ((g.values.map (unit s t)).map f) ((g.values.map (unit s t)).map h) (s * g.resolution)) key
      simp only [Except.map, Bind.bind, Except.bind]
      rw [hz, List.map_id]

theorem argmax_map {α : Type} (u : α → K) {c : K} (hc : 0 < c) (l : List α) :
    Np.argmax (l.map fun v => c * u v) = Np.argmax (l.map u) := by
  induction l with
  | nil => rfl
  | cons a l ih =>
    simp only [List.map_cons, Np.argmax, ih]
    cases Np.argmax (l.map u) with
    | none => rfl
    | some j =>
      simp only [List.getElem?_map]
      cases l[j]? with
      | none => rfl
      | some b => simp [mul_lt_mul_iff_right₀ hc]

theorem nearest_unit {s : K} (hs : 0 < s) (t : K) (xs : List K) (z : K) : nearest (xs.map (unit s t)) (unit s t z) = nearest xs z := by
  unfold nearest argmin
  simp only [List.map_map, Function.comp_def, unit_sub hs, abs_mul, abs_of_pos hs]
  have := argmax_map (fun x => -|x - z|) hs xs
  simp only [mul_neg] at this
  rw [this]

theorem trapz_unit {s : K} (hs : 0 < s) (t : K) (xs ys : List K) : trapz (xs.map (unit s t)) ((ys.map (· / s)).map (· ^ 2)) = trapz xs (ys.map (· ^ 2)) / s := by
  unfold trapz
  rw [trapezoids_unit hs, sum_mul]
  have key : ∀ xs ys : List K, Np.sum (trapezoids xs ((ys.map (· / s)).map (· ^ 2))) = Np.sum (trapezoids xs (ys.map (· ^ 2))) / s ^ 2 := by
    intro xs
    induction xs with
    | nil => intro ys; simp [trapezoids, Np.sum]
    | cons a xs ih =>
      intro ys
      match xs, ys with
      | [], _ => simp [trapezoids, Np.sum]
      | _ :: _, [] => simp [trapezoids, Np.sum]
      | _ :: _, [_] => simp [trapezoids, Np.sum]
      | b :: xs, u :: v :: ys =>
        have := ih (v :: ys)
        simp only [List.map_cons, trapezoids, Np.sum, List.foldr_cons] at this ⊢
        rw [this]
        field_simp
  rw [key]
  field_simp

theorem fancyPairs_div (s : K) (rows : List (List K)) (nns : List ℕ) :
    fancyPairs (rows.map fun r => r.map (· / s)) nns = (fancyPairs rows nns).map fun v => v.map (· / s) := by
  unfold fancyPairs
  simp only [List.length_map]
  generalize (if rows.length = nns.length then some ((List.range rows.length).zip nns)
    else if rows.length = 1 then some (nns.map fun j => (0, j))
    else match nns with
      | [j] => some ((List.range rows.length).map fun i => (i, j))
      | _ => none) = ps
  cases ps with
  | none => rfl
  | some ps =>
    have : ps.mapM (fun (p : ℕ × ℕ) => ((rows.map fun r => r.map (· / s))[p.1]?).bind fun r => r[p.2]?) =
        (ps.mapM (fun (p : ℕ × ℕ) => (rows[p.1]?).bind fun r => r[p.2]?)).map fun v => v.map (· / s) := by
      induction ps with
      | nil => rfl
      | cons a ps ih =>
        rw [List.mapM_cons, ih, List.mapM_cons, List.getElem?_map]
        cases rows[a.1]? with
        | none => rfl
        | some r =>
          simp only [Option.map_some, Option.bind_some, List.getElem?_map]
          cases r[a.2]? with
          | none => rfl
          | some v =>
            cases ps.mapM (fun (p : ℕ × ℕ) => (rows[p.1]?).bind fun r => r[p.2]?) <;> rfl
    simp only [this]
    cases ps.mapM (fun (p : ℕ × ℕ) => (rows[p.1]?).bind fun r => r[p.2]?) <;> rfl

theorem fancyBlocks_div (s : K) (a b : ℕ) (block block' : ℕ → ℕ → List K) (hb : ∀ i j, block' i j = (block i j).map (· / s)) (n : ℕ) (nns : List ℕ) :
    fancyBlocks a b block' n nns = (fancyBlocks a b block n nns).map fun v => v.map (· / s) := by
  unfold fancyBlocks
  generalize (if n = nns.length then some ((List.range n).zip nns)
    else if n = 1 then some (nns.map fun j => (0, j))
    else match nns with
      | [j] => some ((List.range n).map fun i => (i, j))
      | _ => none) = ps
  cases ps with
  | none => rfl
  | some ps =>
    simp only
    split_ifs
    · simp only [Except.map, List.map_flatMap, hb]
    · rfl

theorem npMean_div (s : K) (l : List K) : npMean (l.map (· / s)) = (npMean l).map (· / s) := by
  have hsum : Np.sum (l.map (· / s)) = Np.sum l / s := by
    have := sum_mul s⁻¹ l
    simpa [div_eq_inv_mul] using this
  unfold npMean
  simp only [List.map_eq_nil_iff, List.length_map, hsum]
  split_ifs
  · rfl
  · simp only [Option.map_some, Option.some.injEq]; rw [div_right_comm]

/-- **C117: the CDE loss** is divided by `s` like the densities, so that comparisons of predictions do not depend on the units. -/
theorem C117_cde (s t : K) (hs : 0 < s) (xs : List K) (e e' : FnEns K) (he : Rescaled s t e e') (zs : List K) :
    cdeEvaluate (xs.map (unit s t)) e' (zs.map (unit s t)) = (cdeEvaluate xs e zs).map fun v => v.map (· / s) := by
  have hrows : (e'.fns.map fun f => (xs.map (unit s t)).map f) = (e.fns.map fun f => xs.map f).map fun r => r.map (· / s) := by
    have := he.fns
    generalize e.fns = l at this
    generalize e'.fns = l' at this
    induction this with
    | nil => rfl
    | cons h _ ih => simp only [List.map_cons] at ih ⊢; rw [ih, map_rescaled s t h]
  have hn : (zs.map (unit s t)).mapM (nearest (xs.map (unit s t))) = zs.mapM (nearest xs) := by
    induction zs with
    | nil => rfl
    | cons z zs ih => simp only [List.map_cons, List.mapM_cons, nearest_unit hs, ih]
  unfold cdeEvaluate cdeTerms
  rw [he.shape]
  split
  · rw [hrows, hn]
    cases zs.mapM (nearest xs) with
    | error err => rfl
    | ok nns =>
      simp only [Bind.bind, Except.bind]
      rw [fancyPairs_div]
      cases fancyPairs (e.fns.map fun f => xs.map f) nns with
      | error err => rfl
      | ok v =>
        simp only [Except.map]
        have : (((e.fns.map fun f => xs.map f).map fun r => r.map (· / s)).map fun r => trapz (xs.map (unit s t)) (r.map (· ^ 2))) =
            ((e.fns.map fun f => xs.map f).map fun r => trapz xs (r.map (· ^ 2))).map (· / s) := by
          generalize (e.fns.map fun f => xs.map f) = R
          rw [List.map_map, List.map_map]
          apply List.map_congr_left
          intro r _
          simp only [Function.comp]
          rw [trapz_unit hs]
        rw [this, npMean_div, npMean_div]
        cases npMean ((e.fns.map fun f => xs.map f).map fun r => trapz xs (r.map (· ^ 2))) with
        | none => rfl
        | some a =>
          cases npMean v with
          | none => rfl
          | some b => simp only [Option.map_some, Option.bind_some]; congr 2; ring
  · rw [hrows, hn]
    cases zs.mapM (nearest xs) with
    | error err => rfl
    | ok nns =>
      simp only [Bind.bind, Except.bind]
      rw [fancyBlocks_div s _ _ (fun i j => (((e.fns.map fun f => xs.map f).drop ((i * _ + j) * _)).take _).flatten) _
        (fun i j => by rw [← List.map_drop, ← List.map_take, List.map_flatten]), show e'.npdf = e.npdf by rw [FnEns.npdf, he.shape]; rfl]
      cases fancyBlocks _ _ _ e.npdf nns with
      | error err => rfl
      | ok v =>
        simp only [Except.map]
        have : (((e.fns.map fun f => xs.map f).map fun r => r.map (· / s)).map fun r => trapz (xs.map (unit s t)) (r.map (· ^ 2))) =
            ((e.fns.map fun f => xs.map f).map fun r => trapz xs (r.map (· ^ 2))).map (· / s) := by
          generalize (e.fns.map fun f => xs.map f) = R
          rw [List.map_map, List.map_map]
          apply List.map_congr_left
          intro r _
          simp only [Function.comp]
          rw [trapz_unit hs]
        rw [this, npMean_div, npMean_div]
        cases npMean ((e.fns.map fun f => xs.map f).map fun r => trapz xs (r.map (· ^ 2))) with
        | none => rfl
        | some a =>
          cases npMean v with
          | none => rfl
          | some b => simp only [Option.map_some, Option.bind_some]; congr 2; ring
  · rfl

theorem sort_unit {s : K} (hs : 0 < s) (t : K) (l : List K) : Np.sort (l.map (unit s t)) = (Np.sort l).map (unit s t) := by
  unfold Np.sort
  refine (List.map_insertionSort _ _ _ l ?_).symm
  intro a _ b _
  exact (unit_le hs t).symm

/-- **C117: goodness of fit.** The statistics do not depend on the units: a reference PDF whose distribution function (and the logarithms of it and
of its complement) in the new units has the same values at the same points gives the same statistic for the same samples. -/
theorem C117_gof (s t : K) (hs : 0 < s) (R R' : RefPdf K) (hc : ∀ x, R'.cdf (unit s t x) = R.cdf x) (hl : ∀ x, R'.logcdf (unit s t x) = R.logcdf x)
    (hf : ∀ x, R'.logsf (unit s t x) = R.logsf x) (name : String) (stat : RefPdf K → List K → Except Err K) (hst : gofStat name = some stat) (data : List K) :
    stat R' (data.map (unit s t)) = stat R data := by
  have hcdf : (Np.sort (data.map (unit s t))).map R'.cdf = (Np.sort data).map R.cdf := by
    rw [sort_unit hs, List.map_map]
    apply List.map_congr_left
    intro x _
    exact hc x
  unfold gofStat at hst
  split_ifs at hst
  · rw [← Option.some.inj hst]
    simp only [adStat, sort_unit hs, List.length_map]
    congr 3
    rw [← List.map_reverse, List.zip_map, List.zipWith_map_right]
    simp only [Prod.map_fst, Prod.map_snd, hl, hf]
  · rw [← Option.some.inj hst]
    simp only [cvmStat, hcdf, List.length_map]
  · rw [← Option.some.inj hst]
    simp only [ksStat, hcdf]

/-- **C117: outlier rate and PIT** do not depend on the units either. -/
theorem C117_pit (s t : K) (cdfs cdfs' : List (K → Option K)) (h : List.Forall₂ (fun F F' => ∀ x, F' (unit s t x) = F x) cdfs cdfs') (zs : List K) :
    pitSamples cdfs' (zs.map (unit s t)) = pitSamples cdfs zs ∧
      ∀ (F F' : K → K), (∀ x, F' (unit s t x) = F x) → ∀ a b, outlierRate F' (unit s t a) (unit s t b) = outlierRate F a b := by
  constructor
  · have hz : List.zipWith (fun F z => (F z).getD 0) cdfs' (zs.map (unit s t)) = List.zipWith (fun F z => (F z).getD 0) cdfs zs := by
      induction h generalizing zs with
      | nil => simp
      | cons h _ ih =>
        cases zs with
        | nil => rfl
        | cons z zs => simp only [List.map_cons, List.zipWith_cons_cons, h, ih]
    unfold pitSamples
    rw [hz, ← h.length_eq]
    simp only [List.map_eq_nil_iff, List.length_map]
    split_ifs with h0 h1
    · rfl
    · match cdfs, cdfs', zs, h with
      | [], [], zs, _ => rcases zs with _ | ⟨z, _ | ⟨z', zs⟩⟩ <;> simp at h0 ⊢
      | [F], [F'], zs, .cons h _ => simp [h, Function.comp_def]
      | F :: G :: l, F' :: G' :: l', zs, .cons h (.cons h' ht) =>
        rcases zs with _ | ⟨z, _ | ⟨z', zs⟩⟩
        · simp
        · simp only [List.map_cons, List.map_nil, h, h', List.length_cons, ht.length_eq]
          congr 4
          have : ∀ {l l' : List (K → Option K)}, List.Forall₂ (fun F F' => ∀ x, F' (unit s t x) = F x) l l' → l'.map (fun F => (F (unit s t z)).getD 0) = l.map fun F => (F z).getD 0 := by
            intro l l' h
            induction h with
            | nil => rfl
            | cons h _ ih => simp [h, ih]
          rw [this ht]
        · simp
    · rfl
  · intro F F' hF a b
    unfold outlierRate
    rw [hF, hF]

/-- **C117 is violated** by the Brier score: of two predictions for the same objects the first has the better score in one unit and the second
in another (densities are compared with numbers without unit). -/
theorem C117_brier_wrong : ∃ (a b a' b' : FnEns ℚ) (truth : List ℚ) (s l0 l1 dx va vb va' vb' : ℚ), 0 < s ∧ Rescaled s 0 a a' ∧ Rescaled s 0 b b' ∧
    calculateBrier a truth l0 l1 dx = .ok (some va) ∧ calculateBrier b truth l0 l1 dx = .ok (some vb) ∧ vb < va ∧
    calculateBrier a' (truth.map (unit s 0)) (unit s 0 l0) (unit s 0 l1) (s * dx) = .ok (some va') ∧
    calculateBrier b' (truth.map (unit s 0)) (unit s 0 l0) (unit s 0 l1) (s * dx) = .ok (some vb') ∧ va' < vb' := by
  refine ⟨⟨[2], [fun x => 2 - 2 * x, fun x => 2 - 2 * x]⟩, ⟨[2], [fun x => 3/2 - x, fun x => 3/2 - x]⟩,
    ⟨[2], [fun x => 1 - x / 2, fun x => 1 - x / 2]⟩, ⟨[2], [fun x => 3/4 - x / 4, fun x => 3/4 - x / 4]⟩, [0, 0], 2, 0, 1, 1/2, 1, 1/2, 0, 1/8,
    by norm_num, ⟨rfl, ?_⟩, ⟨rfl, ?_⟩, by decide +kernel, by decide +kernel, by norm_num, by decide +kernel, by decide +kernel, by norm_num⟩
  · refine .cons ?_ (.cons ?_ .nil) <;> · intro x; unfold unit; ring
  · refine .cons ?_ (.cons ?_ .nil) <;> · intro x; unfold unit; ring

/-- **C117 is violated** by the KL divergence when the second density vanishes somewhere: the logarithm is that of the clipping value, which has
no unit. -/
theorem C117_kld_wrong : ∃ (p q p' q' : FnEns ℝ) (s l0 l1 dx : ℝ) (v v' : ℝ), 0 < s ∧ Rescaled s 0 p p' ∧ Rescaled s 0 q q' ∧
    calculateKld p q l0 l1 dx = .ok [v] ∧ calculateKld p' q' (unit s 0 l0) (unit s 0 l1) (s * dx) = .ok [v'] ∧ v' < v := by
  have hg := Metrics.grid_0_2_1
  have hg' : gridParams (unit 2 0 (0 : ℝ)) (unit 2 0 2) (2 * 1) = .ok ⟨[unit 2 0 0, unit 2 0 2], 2, 2 * 2, [unit 2 0 (-1), unit 2 0 1, unit 2 0 3], (unit 2 0 0, unit 2 0 2)⟩ := by
    rw [C117_grid 2 0 (by norm_num), hg]; rfl
  have heps : machEps < 1 / 2 := by unfold machEps; norm_num
  have hpos := Metrics.machEps_pos
  have hlog : Real.log machEps < Real.log (1 / 2) := Real.log_lt_log hpos heps
  have hl2 : Real.log (1 / 2) < Real.log 1 := Real.log_lt_log (by norm_num) (by norm_num)
  have k1 : quickKld (([0, 2] : List ℝ).map fun _ => (1 : ℝ)) (([0, 2] : List ℝ).map fun _ => (0 : ℝ)) 2 = 4 * (Real.log 1 - Real.log machEps) := by
    simp only [quickKld, List.map_cons, List.map_nil, List.zipWith_cons_cons, List.zipWith_nil_left, Np.sum, List.foldr_cons, List.foldr_nil, safelog]
    rw [max_eq_left (by linarith : machEps ≤ 1), max_eq_right hpos.le]
    ring
  have k2 : quickKld (([unit 2 0 0, unit 2 0 2] : List ℝ).map fun _ => (1 / 2 : ℝ)) (([unit 2 0 0, unit 2 0 2] : List ℝ).map fun _ => (0 : ℝ)) (2 * 2) =
      4 * (Real.log (1 / 2) - Real.log machEps) := by
    simp only [quickKld, List.map_cons, List.map_nil, List.zipWith_cons_cons, List.zipWith_nil_left, Np.sum, List.foldr_cons, List.foldr_nil, safelog]
    rw [max_eq_left heps.le, max_eq_right hpos.le]
    ring
  refine ⟨⟨[1], [fun _ => 1]⟩, ⟨[1], [fun _ => 0]⟩, ⟨[1], [fun _ => 1 / 2]⟩, ⟨[1], [fun _ => 0]⟩, 2, 0, 2, 1,
    4 * (Real.log 1 - Real.log machEps), 4 * (Real.log (1 / 2) - Real.log machEps), by norm_num,
    ⟨rfl, .cons (by intro x; norm_num) .nil⟩, ⟨rfl, .cons (by intro x; norm_num) .nil⟩, ?_, ?_, by linarith⟩
  · unfold calculateKld
    rw [hg]
    simp only [ne_eq, not_true_eq_false, if_false, Bind.bind, Except.bind, List.zipWith_cons_cons, List.zipWith_nil_left, k1]
    rw [if_neg]
    simp only [List.any_cons, List.any_nil, Bool.or_false, decide_eq_true_eq, not_lt]
    nlinarith
  · unfold calculateKld
    rw [hg']
    simp only [ne_eq, not_true_eq_false, if_false, Bind.bind, Except.bind, List.zipWith_cons_cons, List.zipWith_nil_left, k2]
    rw [if_neg]
    simp only [List.any_cons, List.any_nil, Bool.or_false, decide_eq_true_eq, not_lt]
    nlinarith

/-! ### examples -/

/-- a density in degrees and in radians (here: in units of half a turn) -/
example : Rescaled (1/180 : ℚ) 0 ⟨[1], [fun x => if 0 ≤ x ∧ x ≤ 90 then 1/90 else 0]⟩ ⟨[1], [fun x => if 0 ≤ x ∧ x ≤ 1/2 then 2 else 0]⟩ := by
  refine ⟨rfl, .cons ?_ .nil⟩
  intro x
  have : (0 ≤ unit (1/180 : ℚ) 0 x ∧ unit (1/180 : ℚ) 0 x ≤ 1/2) ↔ (0 ≤ x ∧ x ≤ 90) := by
    unfold unit
    constructor <;> rintro ⟨h1, h2⟩ <;> constructor <;> linarith
  simp only [this]
  split_ifs <;> norm_num

/-- densities 1 and 2, in units ten times larger or smaller, are not clipped -/
example : Unclipped 10 1 2 ∧ Unclipped (1/10) 1 2 := by
  refine ⟨Or.inr ⟨?_, ?_, ?_, ?_⟩, Or.inr ⟨?_, ?_, ?_, ?_⟩⟩ <;> · unfold machEps; norm_num

end Verif.Props.UnitsMetrics
