import Verif.Lemmas.QuantStable
import Verif.Props.Quant
import Verif.Lemmas.InterpPdf

/-!
# C133 for the CDF and the density of quantile PDFs

A quantile PDF is given by locations, one for each of the shared quantile levels. Its CDF is the quadratic spline through the points (location, level). Here it is shown that
a small change of the locations changes the CDF little, everywhere at once, although the break points of the spline move with the locations; and that the density of the
default reconstruction (straight lines between the midpoints) changes little strictly between the first and the last midpoint, but jumps at these two.
-/

set_option linter.unusedSectionVars false
set_option autoImplicit false

namespace Verif.Props.QuantStable

open Verif Verif.Np Verif.Model Verif.Lemmas Verif.Lemmas.QuantStable Filter Topology

/-- every number of the second list is within `δ` of the number at the same place in the first; the lists have the same length -/
def Within (δ : ℝ) (l l' : List ℝ) : Prop := List.Forall₂ (fun x y => |y - x| ≤ δ) l l'

theorem rate : Tendsto (fun n : ℕ => 1 / ((n : ℝ) + 1)) atTop (𝓝 0) := tendsto_one_div_add_atTop_nhds_zero_nat

/-- **C133: the CDF of a quantile PDF.** For increasing locations and levels that run from 0 to 1 (at least three), and every `ε > 0`, there is a `δ > 0` such that moving each
location by at most `δ` moves no value of the CDF by more than `ε`, at any argument. -/
theorem C133_quant_cdf (quants locs : List ℝ) (hl : locs.Pairwise (· < ·)) (hlen : quants.length = locs.length) (hn : 3 ≤ quants.length)
    (h0 : quants.head? = some 0) (h1 : quants.getLast? = some 1) (ε : ℝ) (hε : 0 < ε) :
    ∃ δ > 0, ∀ locs' : List ℝ, Within δ locs locs' → ∀ x : ℝ,
      ∃ F F', quantCdf quadSpline quants locs x = some F ∧ quantCdf quadSpline quants locs' x = some F' ∧ |F' - F| ≤ ε := by
  match locs, hl, hlen with
  | [], _, hlen => simp at hlen; simp [hlen] at hn
  | l0 :: t, hl, hlen =>
    by_contra hcon
    push Not at hcon
    have hr : ∀ n : ℕ, ∃ l' : List ℝ, Within (1 / ((n : ℝ) + 1)) (l0 :: t) l' ∧ ∃ x, ∀ F F', quantCdf quadSpline quants (l0 :: t) x = some F →
        quantCdf quadSpline quants l' x = some F' → ε < |F' - F| := fun n => hcon (1 / ((n : ℝ) + 1)) (by positivity)
    choose L hL X hX using hr
    have hTL := TL.of_close rate (l0 :: t) L hL
    cases hTL with
    | @cons b _ a _ hb ha =>
      replace hX : ∀ n, ε < |cdfVal quants (b n) (a n) (X n) - cdfVal quants l0 t (X n)| := fun n => hX n _ _ (quantCdf_val _ _ _ _) (quantCdf_val _ _ _ _)
      -- the arguments stay in a bounded interval
      have hlast := TL.getLast t l0 a b hb ha
      set last := (l0 :: t).getLast (by simp) with hlastdef
      have hle : l0 ≤ last := by
        rcases List.mem_cons.1 (List.getLast_mem (l := l0 :: t) (by simp)) with h | h
        · exact h.ge
        · exact ((List.pairwise_cons.1 hl).1 _ h).le
      have hin : ∀ᶠ n in atTop, X n ∈ Set.Icc (l0 - 1) (last + 1) := by
        filter_upwards [hb.eventually_const_lt (show l0 - 1 < l0 by linarith), hb.eventually_lt_const (show l0 < last + 1 by linarith),
          hlast.eventually_lt_const (show last < last + 1 by linarith)] with n e1 e2 e3
        have hXn := hX n
        refine ⟨?_, ?_⟩
        · by_contra hc
          push Not at hc
          have z1 : cdfVal quants l0 t (X n) = 0 := if_neg (by linarith)
          have z2 : cdfVal quants (b n) (a n) (X n) = 0 := if_neg (by linarith)
          rw [z1, z2] at hXn
          simp at hXn
          linarith
        · by_contra hc
          push Not at hc
          have z1 : cdfVal quants l0 t (X n) = 1 := by
            unfold cdfVal
            rw [if_pos (by linarith), if_neg (by rw [← hlastdef]; linarith)]
          have z2 : cdfVal quants (b n) (a n) (X n) = 1 := by
            unfold cdfVal
            rw [if_pos (by linarith), if_neg (by linarith)]
          rw [z1, z2] at hXn
          simp at hXn
          linarith
      obtain ⟨x0, _, φ, hφ, hx⟩ := isCompact_Icc.tendsto_subseq' hin.frequently
      have hφt := hφ.tendsto_atTop
      have t1 := cdf_tendsto quants l0 t (fun n => b (φ n)) (fun n => a (φ n)) (fun n => X (φ n)) x0 (hb.comp hφt) (ha.comp hφt) hx hl hlen hn h0 h1
      have t2 := cdf_tendsto quants l0 t (fun _ => l0) (fun _ => t) (fun n => X (φ n)) x0 tendsto_const_nhds (TL.const t) hx hl hlen hn h0 h1
      have t3 := (t1.sub t2).abs
      rw [sub_self, abs_zero] at t3
      obtain ⟨n, hn'⟩ := (t3.eventually_lt_const hε).exists
      exact absurd (hX (φ n)) (not_lt.2 hn'.le)

/-- non-trivial case: four locations of unequal spacing -/
example : ∃ δ > 0, ∀ locs' : List ℝ, Within δ [0, 1, 3, 4] locs' → ∀ x : ℝ,
    ∃ F F', quantCdf quadSpline [0, 1/4, 3/4, 1] [0, 1, 3, 4] x = some F ∧ quantCdf quadSpline [0, 1/4, 3/4, 1] locs' x = some F' ∧ |F' - F| ≤ 1/100 :=
  C133_quant_cdf [0, 1/4, 3/4, 1] [0, 1, 3, 4] (by norm_num) rfl (by simp) rfl rfl (1/100) (by norm_num)

/-- why the levels have to end at 1: with the last level below 1 (which the constructor avoids by padding, unless told not to check its input) the CDF jumps where the
locations end, so an arbitrarily small shift of the last location moves a value of the CDF by `1/2` -/
theorem C133_quant_cdf_unpadded (δ : ℝ) (hδ : 0 < δ) : ∃ locs', Within δ [0, 1, 2] locs' ∧
    quantCdf quadSpline [0, 1/4, 1/2] [0, 1, 2] (2 : ℝ) = some (1/2) ∧ quantCdf quadSpline [0, 1/4, 1/2] locs' (2 : ℝ) = some 1 := by
  refine ⟨[0, 1, 2 - min δ (1/2)], ?_, ?_, ?_⟩
  · have : 0 < min δ (1/2 : ℝ) := lt_min hδ (by norm_num)
    refine .cons (by simpa using hδ.le) (.cons (by simpa using hδ.le) (.cons ?_ .nil))
    rw [show (2 - min δ (1/2) - 2 : ℝ) = - min δ (1/2) by ring, abs_neg, abs_of_pos this]
    exact min_le_left _ _
  · norm_num [quantCdf, quadSpline, quadStart, quadMiss, quadGo, quadVal, quadCurv, quadSlope]
  · have : 0 < min δ (1/2 : ℝ) := lt_min hδ (by norm_num)
    have e : [0, 1, 2 - min δ (1/2)].getLast (by simp) < (2 : ℝ) := by
      rw [List.getLast_cons_cons, List.getLast_cons_cons, List.getLast_singleton]
      linarith
    have e' : ¬ ((2 : ℝ) < 0) := by norm_num
    exact (if_neg e').trans (if_pos e)

/-- **C133: the density of the default reconstruction.** Straight lines join the points (midpoint of two neighbouring locations, difference quotient of the levels). Strictly
between the first and the last midpoint the density changes little when the locations and the argument change little. Missing: the two midpoints themselves (`C133_quant_pdf_jumps`). -/
theorem C133_quant_pdf_partial (quants locs : List ℝ) (hl : locs.Pairwise (· < ·)) (hlen : quants.length = locs.length) (x a b : ℝ)
    (ha : (adjustedLocs locs).head? = some a) (hb : (adjustedLocs locs).getLast? = some b) (hax : a < x) (hxb : x < b) (ε : ℝ) (hε : 0 < ε) :
    ∃ δ > 0, ∀ locs' : List ℝ, Within δ locs locs' → ∀ x' : ℝ, |x' - x| ≤ δ →
      ∃ f f', linearPdf quants locs x = some f ∧ linearPdf quants locs' x' = some f' ∧ |f' - f| ≤ ε := by
  by_contra hcon
  push Not at hcon
  have hr : ∀ n : ℕ, ∃ l' : List ℝ, Within (1 / ((n : ℝ) + 1)) locs l' ∧ ∃ x', |x' - x| ≤ 1 / ((n : ℝ) + 1) ∧ ∀ f f', linearPdf quants locs x = some f →
      linearPdf quants l' x' = some f' → ε < |f' - f| := fun n => hcon (1 / ((n : ℝ) + 1)) (by positivity)
  choose L hL X hXx hX using hr
  have hx : Tendsto X atTop (𝓝 x) := by
    refine tendsto_iff_dist_tendsto_zero.2 (squeeze_zero (fun n => dist_nonneg) (fun n => ?_) rate)
    rw [Real.dist_eq]
    exact hXx n
  have hTL := TL.of_close rate locs L hL
  have hk := TL.zip _ _ _ _ (adj_tendsto locs L hTL) (derivs_tendsto quants locs L hl hTL)
  have hfst : ((adjustedLocs locs).zip (cdfDerivs quants locs)).map Prod.fst = adjustedLocs locs :=
    List.map_fst_zip (by rw [Quant.length_adjusted, Quant.length_derivs _ _ hlen])
  rw [← hfst] at ha hb
  obtain ⟨v, w, hv, hw, hwt⟩ := interp_tendsto 0 0 _ _ hk (Verif.Lemmas.InterpPdf.strictX_zip (Quant.strict_adjusted locs hl).1) X x a b hx ha hb hax hxb
  have t3 := (hwt.sub (tendsto_const_nhds (x := v))).abs
  rw [sub_self, abs_zero] at t3
  obtain ⟨n, h1, h2⟩ := (hw.and (t3.eventually_lt_const hε)).exists
  exact absurd (hX n v (w n) hv h1) (not_lt.2 h2.le)

/-- non-trivial case: at the argument 2, between the second and the third location -/
example : ∃ δ > 0, ∀ locs' : List ℝ, Within δ [0, 1, 3, 4] locs' → ∀ x' : ℝ, |x' - 2| ≤ δ →
    ∃ f f', linearPdf [0, 1/4, 3/4, 1] [0, 1, 3, 4] 2 = some f ∧ linearPdf [0, 1/4, 3/4, 1] locs' x' = some f' ∧ |f' - f| ≤ 1/100 :=
  C133_quant_pdf_partial [0, 1/4, 3/4, 1] [0, 1, 3, 4] (by norm_num) rfl 2 (1/2) (7/2) (by norm_num [adjustedLocs]) (by norm_num [adjustedLocs]) (by norm_num) (by norm_num)
    (1/100) (by norm_num)

/-- **C133 fails at the first and the last midpoint.** The density is 0 outside the midpoints, and the curve does not start at 0: an arbitrarily small shift of the locations
moves the density at the first midpoint from `1/2` to 0. -/
theorem C133_quant_pdf_jumps (δ : ℝ) (hδ : 0 < δ) : ∃ locs', Within δ [0, 1, 2] locs' ∧
    linearPdf [0, 1/2, 1] [0, 1, 2] (1/2 : ℝ) = some (1/2) ∧ linearPdf [0, 1/2, 1] locs' (1/2 : ℝ) = some 0 := by
  have hm : 0 < min δ (1/2 : ℝ) := lt_min hδ (by norm_num)
  have hm' : min δ (1/2 : ℝ) ≤ 1/2 := min_le_right _ _
  refine ⟨[min δ (1/2), 1, 2], ?_, ?_, ?_⟩
  · refine .cons ?_ (.cons (by simpa using hδ.le) (.cons (by simpa using hδ.le) .nil))
    rw [sub_zero, abs_of_pos hm]
    exact min_le_left _ _
  · norm_num [linearPdf, interp, adjustedLocs, cdfDerivs, diff, npInterpGo]
  · have e : (1/2 : ℝ) < 1 - (1 - min δ (1/2)) / 2 := by linarith
    exact if_pos e

end Verif.Props.QuantStable
