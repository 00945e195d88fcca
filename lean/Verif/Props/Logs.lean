import Verif.Model.Logs
import Verif.Props.Front
import Verif.Props.Quant

/-!
# C101: logarithms of densities and probabilities

The specification is `expExt`: what the user gets back with `np.exp`.
-/

set_option linter.unusedSectionVars false
set_option autoImplicit false

namespace Verif.Props.Logs

open Verif Verif.Np Verif.Model Verif.Spec Verif.Lemmas Verif.Props.Evaluation Verif.Props.Hist

/-- `np.exp` of a result, `none` for `nan`; `+inf` stays outside the reals -/
noncomputable def expExt : Ext ℝ → Option ℝ
  | .negInf => some 0
  | .fin a => some (Real.exp a)
  | .posInf => none
  | .nan => none

/-- the order of floating point numbers: `nan` is below and above nothing -/
def ExtLe : Ext ℝ → Ext ℝ → Prop
  | .nan, _ => False
  | _, .nan => False
  | .negInf, _ => True
  | .fin a, .fin b => a ≤ b
  | .fin _, .posInf => True
  | .posInf, .posInf => True
  | _, _ => False

theorem unflatten_map {α β γ : Type*} (g : β → γ) : ∀ (X : List (List α)) (v : List β), unflatten X (v.map g) = (unflatten X v).map (·.map g)
  | [], v => rfl
  | r :: X, v => by rw [unflatten, unflatten, ← List.map_drop, unflatten_map g X]; simp [List.map_take]

theorem scipyEval_map {β γ : Type*} (g : β → γ) (core : Pts ℝ → Pts ℕ → Except Err (List β)) (X : List (List ℝ)) :
    scipyEval (fun x row => (core x row).map fun v => v.map g) X = (scipyEval core X).map fun V => V.map fun row => row.map g := by
  unfold scipyEval
  split
  · simp [Except.map]
  · simp only
    cases core (.vec X.flatten) (.vec (flatRows 0 X)) with
    | error e => rfl
    | ok v =>
      simp only [Except.map, List.length_map]
      split
      · rfl
      · rw [unflatten_map]

/-- **C101.** For every class and every array of points, `logpdf`, `logcdf` and `logsf` fail exactly when `pdf`, `cdf` and `sf` do, and otherwise are the
logarithms of their values, entry by entry. -/
theorem C101_pointwise (core : Pts ℝ → Pts ℕ → Except Err (List (Option ℝ))) (X : List (List ℝ)) :
    ensLogpdf core X = (scipyEval core X).map (fun V => V.map fun row => row.map npLog) ∧
    ensLogcdf core X = (scipyEval core X).map (fun V => V.map fun row => row.map npLog) ∧
    ensLogsf core X = (ensSf core X).map (fun V => V.map fun row => row.map npLog) := by
  refine ⟨scipyEval_map _ _ _, scipyEval_map _ _ _, ?_⟩
  rw [Front.C80_sf]
  unfold ensLogsf
  rw [scipyEval_map (fun o : Option ℝ => npLog (o.map fun v => 1 - v)) core X]
  cases scipyEval core X with
  | error e => rfl
  | ok V => simp [Except.map, Function.comp_def]

/-- **C101, which value.** The logarithm is `-inf` exactly at zero, `nan` exactly for negative values and `nan`, never `+inf`; otherwise the exponential
gives the value back.
Missing: a number for every density; negative densities of spline reconstructions have logarithm `nan` (`C101_nan`). -/
theorem C101_value_partial (o : Option ℝ) :
    (npLog o = .negInf ↔ o = some 0) ∧ (npLog o = .nan ↔ o = none ∨ ∃ v, o = some v ∧ v < 0) ∧ npLog o ≠ .posInf ∧
    (∀ v, o = some v → 0 ≤ v → expExt (npLog o) = some v) := by
  cases o with
  | none => simp [npLog]
  | some v =>
    rcases lt_trichotomy v 0 with h | h | h
    · simp [npLog, h, h.ne, not_le.2 h]
    · subst h; simp [npLog, expExt]
    · simp [npLog, not_lt.2 h.le, h.ne', expExt, Real.exp_log h]

/-- the logarithm of non-negative numbers keeps their order -/
theorem npLog_mono {u v : ℝ} (h0 : 0 ≤ u) (h : u ≤ v) : ExtLe (npLog (some u)) (npLog (some v)) := by
  rcases h0.eq_or_lt with rfl | hu
  · have : npLog (some (0 : ℝ)) = .negInf := by simp [npLog]
    rw [this]
    simp only [npLog]
    rw [if_neg (not_lt.2 h)]
    split_ifs <;> trivial
  · have hv : 0 < v := hu.trans_le h
    simp only [npLog, not_lt.2 hu.le, not_lt.2 hv.le, hu.ne', hv.ne', if_false]
    exact Real.log_le_log hu h

/-- **C101, back from the logarithm.** When the densities (or probabilities) are not negative, `exp(logpdf(x))` is `pdf(x)`, for every class and every array
of points. -/
theorem C101_exp (core : Pts ℝ → Pts ℕ → Except Err (List (Option ℝ))) (X : List (List ℝ)) (V : List (List (Option ℝ))) (h : scipyEval core X = .ok V)
    (hV : ∀ row ∈ V, ∀ o ∈ row, ∃ v, o = some v ∧ 0 ≤ v) :
    ∃ L, ensLogpdf core X = .ok L ∧ L.map (·.map expExt) = V := by
  refine ⟨V.map fun row => row.map npLog, by rw [(C101_pointwise core X).1, h]; rfl, ?_⟩
  rw [List.map_map]
  conv_rhs => rw [← List.map_id V]
  apply List.map_congr_left
  intro row hr
  simp only [Function.comp, List.map_map, id]
  conv_rhs => rw [← List.map_id row]
  apply List.map_congr_left
  intro o ho
  obtain ⟨v, rfl, hv⟩ := hV row hr o ho
  exact (C101_value_partial _).2.2.2 v rfl hv

/-- **C101, the two tails.** When the CDF has values between 0 and 1, `exp(logcdf(x)) + exp(logsf(x)) = 1`, one point per PDF. -/
theorem C101_tails (F : ℕ → ℝ → Option ℝ) (x : List ℝ) (hF : ∀ (i : ℕ) v, x[i]? = some v → ∃ p, F i v = some p ∧ 0 ≤ p ∧ p ≤ 1) :
    ∃ a b : List (Ext ℝ), ensLogcdf (dispatch F F F) (x.map fun v => [v]) = .ok (a.map fun v => [v]) ∧
      ensLogsf (dispatch F F F) (x.map fun v => [v]) = .ok (b.map fun v => [v]) ∧ a.length = x.length ∧ b.length = x.length ∧
      ∀ (i : ℕ) u w, a[i]? = some u → b[i]? = some w → ∃ p q, expExt u = some p ∧ expExt w = some q ∧ p + q = 1 := by
  have hE := C02_one_point_per_pdf F x
  unfold evalPerPdf at hE
  refine ⟨x.zipIdx.map fun p => npLog (F p.2 p.1), x.zipIdx.map fun p => npLog ((F p.2 p.1).map (1 - ·)), ?_, ?_, by simp, by simp, ?_⟩
  · rw [(C101_pointwise _ _).2.1, hE]
    simp [Except.map, PerPdfSpec, Function.comp_def]
  · rw [(C101_pointwise _ _).2.2, Front.C80_sf, hE]
    simp [Except.map, PerPdfSpec, Function.comp_def]
  · intro i u w hu hw
    simp only [List.getElem?_map, List.getElem?_zipIdx, Option.map_map, Option.map_eq_some_iff] at hu hw
    obtain ⟨v, hv, rfl⟩ := hu
    obtain ⟨v', hv', rfl⟩ := hw
    rw [hv] at hv'
    obtain rfl := Option.some.inj hv'
    obtain ⟨p, hp, h0, h1⟩ := hF i v hv
    simp only [Function.comp, zero_add, hp, Option.map_some]
    exact ⟨p, 1 - p, (C101_value_partial _).2.2.2 p rfl h0, (C101_value_partial _).2.2.2 (1 - p) rfl (by linarith), by ring⟩

/-- **C101, histograms**: `logcdf` never decreases, is `-inf` up to the first edge and `0` from the last edge on. -/
theorem C101_hist (edges p : List ℝ) (hg : Grid edges p.length) (h1 : totalMass edges p = 1) (hp : ∀ v ∈ p, 0 ≤ v) :
    (∀ x, (∀ e ∈ edges, x ≤ e) → npLog (histCdf edges p x) = .negInf) ∧
    (∀ x, (∀ e ∈ edges, e ≤ x) → npLog (histCdf edges p x) = .fin 0) ∧
    (∀ x y, x ≤ y → ExtLe (npLog (histCdf edges p x)) (npLog (histCdf edges p y))) := by
  obtain ⟨a, b, c⟩ := C08_cdf_shape edges p hg h1 hp
  refine ⟨?_, ?_, ?_⟩
  · intro x hx; rw [a x hx]; simp [npLog]
  · intro x hx; rw [b x hx]; simp [npLog]
  · intro x y hxy
    obtain ⟨u, v, hu, hv, h0, huv, -⟩ := c x y hxy
    rw [hu, hv]
    exact npLog_mono h0 huv

/-- the one point of one PDF -/
theorem one_point (f : ℕ → ℝ → Option ℝ) (x : ℝ) : ensLogpdf (dispatch f f f) [[x]] = .ok [[npLog (f 0 x)]] := by
  have hE := C02_one_point_per_pdf f [x]
  unfold evalPerPdf at hE
  rw [(C101_pointwise _ _).1]
  simp only [List.map_cons, List.map_nil] at hE
  rw [hE]
  rfl

/-- **C101 fails**: the dual spline reconstruction of valid quantiles has a negative density, whose logarithm is `nan`. -/
theorem C101_nan : ∃ (quants locs : List ℝ) (x : ℝ), quants.Pairwise (· < ·) ∧ locs.Pairwise (· < ·) ∧ quants.head? = some 0 ∧ quants.getLast? = some 1 ∧
    ensLogpdf (dispatch (fun _ => dualPdf cubicSpline4 quants locs) (fun _ => dualPdf cubicSpline4 quants locs) (fun _ => dualPdf cubicSpline4 quants locs)) [[x]] = .ok [[.nan]] := by
  refine ⟨[0, 1/12, 2/12, 3/12, 4/12, 10/12, 11/12, 1], [0, 1, 2, 3, 4, 5, 6, 7], 3/2, by norm_num, by norm_num, by simp, by simp, ?_⟩
  rw [one_point]
  have : dualPdf cubicSpline4 ([0, 1/12, 2/12, 3/12, 4/12, 10/12, 11/12, 1] : List ℝ) [0, 1, 2, 3, 4, 5, 6, 7] (3/2) = some (-37/1536) := by
    norm_num [dualPdf, dualNodes, dualGo, diff, evens, odds, fillZero, cubicSpline4]
  rw [this]
  norm_num [npLog]

/-! Instances -/

example : npLog (histCdf ([0, 1, 2] : List ℝ) [1/4, 3/4] (-1)) = .negInf :=
  (C101_hist [0, 1, 2] [1/4, 3/4] ⟨by norm_num, by simp, by simp⟩ (by norm_num [totalMass]) (by intro v hv; simp at hv; rcases hv with rfl | rfl <;> norm_num)).1 _
    (by intro e he; simp at he; rcases he with rfl | rfl | rfl <;> norm_num)

/-- one PDF, two points, densities 1/2 and 0 -/
example : ∃ L, ensLogpdf (fun _ _ => .ok [some (1/2), some 0]) [[1, 5]] = .ok L ∧ L.map (·.map expExt) = [[some (1/2), some 0]] :=
  C101_exp (fun _ _ => .ok [some (1/2), some 0]) [[1, 5]] [[some (1/2), some 0]] (by simp [scipyEval, unflatten])
    (by intro row hr o ho; simp at hr; subst hr; simp at ho; rcases ho with rfl | rfl <;> exact ⟨_, rfl, by norm_num⟩)

/-- the uniform distribution at 1/4 -/
example := C101_tails (fun _ x => some (max 0 (min 1 x))) [1/4, 2] (by
  intro i v _; exact ⟨_, rfl, le_max_left _ _, max_le (by norm_num) (min_le_left _ _)⟩)

end Verif.Props.Logs
