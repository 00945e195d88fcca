import Verif.Lemmas.Rounding
import Verif.Lemmas.RoundDigits
import Verif.Props.Hist
import Mathlib.Data.Rat.Floor
import Mathlib.Tactic.NormNum

/-!
# C120: histograms in floating-point numbers

The model with rounding (`Verif/Model/Rounding.lean`) against the specification of histograms (`Verif/Spec/Step.lean`). `Rounding fl u` says
what is used about the number format; IEEE doubles have it with `u = 2⁻⁵³` (`C120_double`).
-/

set_option linter.unusedSectionVars false
set_option autoImplicit false

namespace Verif.Props.Rounding

open Verif Verif.Np Verif.Model Verif.Spec Verif.Lemmas.Rounding Verif.Lemmas.RoundDigits Verif.Props.Hist

variable {K : Type} [Field K] [LinearOrder K] [IsStrictOrderedRing K] {fl : K → K} {u : K}

/-! ## number formats -/

/-- **C120: the formats covered.** Rounding to `p + 1` binary digits, up, down, to nearest or otherwise, as long as the rounding to integers
is monotone, keeps integers and is off by at most `c`. -/
theorem C120_formats [FloorRing K] (r : K → ℤ) (c : K) (p : ℕ) (hm : ∀ x y, x ≤ y → r x ≤ r y) (hi : ∀ n : ℤ, r n = n)
    (he : ∀ x, |(r x : K) - x| ≤ c) (hc : c < 2 ^ p) : Rounding (roundDigits r p : K → K) (c / 2 ^ p) :=
  roundDigits_rounding ⟨hm, hi, he⟩ p hc

/-- **C120: IEEE doubles** (without overflow and underflow). -/
theorem C120_double [FloorRing K] : Rounding (double : K → K) (1 / 2 ^ 53) := double_rounding

/-- what `Rel` means: at most a relative error of `k u`, up to second order -/
theorem C120_relative_error (h : Rounding fl u) {k : ℕ} {x y : K} (r : Rel u k x y) (hk : k * u < 1) :
    (1 - k * u) * x ≤ y ∧ y ≤ x / (1 - k * u) := rel_bounds h r hk

example : (double (1 / 3 : ℚ)) = 6004799503160661 / 18014398509481984 := by decide +kernel

/-! ## histograms -/

/-- the edges, the contents that the user gives, and a value of `np.sum(pdfs * widths)` for the row -/
structure HistInput (fl : K → K) (bins row : List K) (s : K) : Prop where
  grid : Grid bins row.length
  nonneg : ∀ v ∈ row, 0 ≤ v
  mass : 0 < totalMass bins row
  sum : FlSum fl (flMasses fl bins row) s

theorem widths_pos (e : List K) : ∀ a, (a :: e).Pairwise (· < ·) → ∀ w ∈ binWidths (a :: e), 0 < w := by
  induction e with
  | nil => intro a _ w hw; simp [binWidths, diff] at hw
  | cons b e ih =>
    intro a hs w hw
    have hs' := List.pairwise_cons.1 hs
    simp only [binWidths, diff, List.mem_cons] at hw
    rcases hw with rfl | hw
    · exact sub_pos.2 (hs'.1 b (by simp))
    · exact ih b hs'.2 w hw

theorem grid_widths {bins : List K} {n : ℕ} (hg : Grid bins n) : (∀ w ∈ binWidths bins, 0 < w) ∧ (binWidths bins).length = n := by
  match bins, hg with
  | [], hg => exact absurd hg.size (by simp)
  | a :: e, hg =>
    refine ⟨widths_pos e a hg.strict, ?_⟩
    have hsize := hg.size
    have : ∀ (e : List K) (a : K), (binWidths (a :: e)).length = e.length := by
      intro e
      induction e with
      | nil => intro a; rfl
      | cons b e ih => intro a; simpa [binWidths, diff] using ih b
    rw [this]
    simpa using hsize

/-- the masses of the bins, from heights that are off by `k` roundings -/
theorem masses_rel (h : Rounding fl u) {k : ℕ} (ws : List K) (hw : ∀ w ∈ ws, 0 < w) : ∀ (p q : List K), List.Forall₂ (Rel u k) p q →
    List.Forall₂ (Rel u (k + 2)) (List.zipWith (· * ·) p ws) (List.zipWith (fun v w => fl (v * w)) q (ws.map fl)) := by
  induction ws with
  | nil => intro p q _; simp
  | cons w ws ih =>
    intro p q hpq
    cases hpq with
    | nil => simp
    | @cons a b p q hab hpq =>
      simp only [List.zipWith_cons_cons, List.map_cons]
      refine .cons ?_ (ih (fun v hv => hw v (by simp [hv])) p q hpq)
      exact rel_step h (rel_mul h hab (rel_fl h (hw w (by simp)).le))

theorem rel_refl_list {l : List K} (hl : ∀ v ∈ l, 0 ≤ v) : List.Forall₂ (Rel u 0) l l := by
  induction l with
  | nil => exact .nil
  | cons a l ih => exact .cons (rel_refl (hl a (by simp))) (ih fun v hv => hl v (by simp [hv]))

theorem sum_eq_list (l : List K) : Np.sum l = l.sum := rfl

theorem masses_len (bins row : List K) (hg : Grid bins row.length) : (flMasses fl bins row).length = row.length := by
  simp [flMasses, flWidths, (grid_widths hg).2]

theorem rel_forall₂_nonneg (h : Rounding fl u) {k : ℕ} {l m : List K} (hr : List.Forall₂ (Rel u k) l m) : ∀ v ∈ m, 0 ≤ v := by
  induction hr with
  | nil => simp
  | cons hab _ ih =>
    intro v hv
    rcases List.mem_cons.1 hv with rfl | hv
    · exact Rel.nonneg' h hab
    · exact ih v hv

/-- the sum that the row is divided by -/
theorem sum_rel (h : Rounding fl u) {bins row : List K} {s : K} (hi : HistInput fl bins row s) : Rel u (row.length + 1) (totalMass bins row) s := by
  have hm := masses_rel h (binWidths bins) (grid_widths hi.grid).1 row row (rel_refl_list hi.nonneg)
  have hs := flSum_rel h hi.sum (rel_forall₂_nonneg h hm)
  rw [masses_len bins row hi.grid] at hs
  have h1 := rel_list_sum _ _ hm
  have h2 := rel_trans h h1 hs
  have he : (List.zipWith (· * ·) row (binWidths bins)).sum = totalMass bins row := by
    rw [← Verif.Lemmas.Hist.histSum_eq]
    rfl
  rw [he] at h2
  have := hi.grid.pos
  rwa [show 0 + 2 + (row.length - 1) = row.length + 1 by omega] at h2

theorem scale_rel (h : Rounding fl u) {k : ℕ} {t s : K} (hs : Rel u k t s) (row : List K) (hn : ∀ v ∈ row, 0 ≤ v) :
    List.Forall₂ (Rel u (k + 1)) (row.map (· / t)) (flScale fl s row) := by
  induction row with
  | nil => exact .nil
  | cons a row ih =>
    refine .cons ?_ (ih fun v hv => hn v (by simp [hv]))
    have := rel_step h (rel_div h (rel_refl (u := u) (hn a (by simp))) hs)
    rwa [zero_add] at this

/-- **C120: the stored heights.** The row is divided by a positive number. The stored heights are representable, not negative, each within
`n + 2` roundings of the normalised height, and so is the exact integral of the stored histogram from 1. -/
theorem C120_hist_stored (h : Rounding fl u) {bins row : List K} {s : K} (hi : HistInput fl bins row s) :
    0 < s ∧ (∀ v ∈ flScale fl s row, 0 ≤ v ∧ IsFloat fl v) ∧
    List.Forall₂ (Rel u (row.length + 2)) (row.map (· / totalMass bins row)) (flScale fl s row) ∧
    Rel u (row.length + 2) 1 (totalMass bins (flScale fl s row)) := by
  have hs := sum_rel h hi
  have hr := scale_rel h hs row hi.nonneg
  refine ⟨rel_pos h hs hi.mass, fun v hv => ⟨rel_forall₂_nonneg h hr v hv, ?_⟩, hr, ?_⟩
  · obtain ⟨a, _, rfl⟩ := List.mem_map.1 hv
    exact h.idem _
  · have e : totalMass bins (row.map (· / totalMass bins row)) = 1 := by
      rw [Verif.Lemmas.Hist.totalMass_div, div_self hi.mass.ne']
    have H : ∀ q, totalMass bins q = (Np.mul q (binWidths bins)).sum := fun q => (Verif.Lemmas.Hist.histSum_eq bins q).symm
    rw [← e, H (flScale fl s row), H (row.map (· / totalMass bins row))]
    have hw := (grid_widths hi.grid).1
    generalize binWidths bins = ws at hw
    have : List.Forall₂ (Rel u (row.length + 1 + 1)) (Np.mul (row.map (· / totalMass bins row)) ws) (Np.mul (flScale fl s row) ws) := by
      unfold Np.mul
      generalize row.map (· / totalMass bins row) = p at hr
      generalize flScale fl s row = q at hr
      induction hr generalizing ws with
      | nil => simp
      | cons hab _ ih =>
        cases ws with
        | nil => simp
        | cons w ws =>
          simp only [List.zipWith_cons_cons]
          refine .cons ?_ (ih ws fun v hv => hw v (by simp [hv]))
          have := rel_mul h hab (rel_refl (u := u) (hw w (by simp)).le)
          rwa [add_zero] at this
    exact rel_list_sum _ _ this

theorem cumul_rel (h : Rounding fl u) {bins row : List K} {s : K} (hi : HistInput fl bins row s) :
    List.Forall₂ (Rel u (2 * row.length + 3)) (histCumul bins (row.map (· / totalMass bins row))) (flHistCumul fl bins (flScale fl s row)) := by
  have hr := (C120_hist_stored h hi).2.2.1
  have hm := masses_rel h (binWidths bins) (grid_widths hi.grid).1 _ _ hr
  have hc := flCumsum_rel h _ _ hm
  have hl : (List.zipWith (· * ·) (row.map (· / totalMass bins row)) (binWidths bins)).length = row.length := by
    simp [(grid_widths hi.grid).2]
  rw [hl] at hc
  have hp := hi.grid.pos
  unfold histCumul flHistCumul
  refine .cons (rel_mono h (by omega) rel_zero) ?_
  rwa [show row.length + 2 + 2 + (row.length - 1) = 2 * row.length + 3 by omega] at hc

/-- **C120: the cumulated values.** They start at 0, never decrease, and the last one is within `2 n + 3` roundings of 1. -/
theorem C120_hist_cumul (h : Rounding fl u) {bins row : List K} {s : K} (hi : HistInput fl bins row s) :
    (flHistCumul fl bins (flScale fl s row)).length = bins.length ∧ (flHistCumul fl bins (flScale fl s row))[0]? = some 0 ∧
    (flHistCumul fl bins (flScale fl s row)).Pairwise (· ≤ ·) ∧
    ∃ l, (flHistCumul fl bins (flScale fl s row)).getLast? = some l ∧ Rel u (2 * row.length + 3) 1 l := by
  obtain ⟨_, hst, hsr, _⟩ := C120_hist_stored h hi
  have hw := (grid_widths hi.grid)
  have hlen : (flScale fl s row).length = row.length := by simp [flScale]
  have hmass : ∀ v ∈ flMasses fl bins (flScale fl s row), 0 ≤ v ∧ IsFloat fl v := by
    intro v hv
    refine ⟨rel_forall₂_nonneg h (masses_rel h (binWidths bins) hw.1 _ _ hsr) v hv, ?_⟩
    obtain ⟨i, hi', rfl⟩ := List.mem_iff_getElem.1 hv
    simp only [flMasses, List.getElem_zipWith]
    exact h.idem _
  refine ⟨?_, rfl, ?_, ?_⟩
  · have := hi.grid.size
    simp [flHistCumul, flCumsum_length, flMasses, flWidths, hw.2, hlen, this]
  · rw [flHistCumul, List.pairwise_cons]
    exact ⟨fun c hc => (flCumsum_float h _ hmass c hc).1, flCumsum_mono h _ hmass⟩
  · have hr := cumul_rel h hi
    match bins, hi with
    | [], hi => exact absurd hi.grid.size (by simp)
    | a :: e, hi =>
      have hl : row.length = e.length := by have := hi.grid.size; simpa using this.symm
      have hlast := Verif.Lemmas.Hist.cumul_last e a (row.map (· / totalMass (a :: e) row)) 0 (by simpa using hl)
      rw [Verif.Lemmas.Hist.totalMass_div, div_self hi.mass.ne', zero_add] at hlast
      have hf := rel_zip hr (a :: e)
      have e1 : (a :: e).zip (histCumul (a :: e) (row.map (· / totalMass (a :: e) row))) =
          (a, 0) :: e.zip (cumsumFrom 0 (Np.mul (row.map (· / totalMass (a :: e) row)) (diff (a :: e)))) := rfl
      rw [e1] at hf
      have hlz : (flHistCumul fl (a :: e) (flScale fl s row)).length = (a :: e).length := by
        simp [flHistCumul, flCumsum_length, flMasses, flWidths, hw.2, hlen, hl]
      have hne : flHistCumul fl (a :: e) (flScale fl s row) ≠ [] := by simp [flHistCumul]
      have key : ∀ (A B : List (K × K)) (hA : A ≠ []) (hB : B ≠ []),
          List.Forall₂ (fun p q : K × K => p.1 = q.1 ∧ Rel u (2 * row.length + 3) p.2 q.2) A B →
          Rel u (2 * row.length + 3) (A.getLast hA).2 (B.getLast hB).2 := by
        intro A B hA hB hAB
        induction hAB with
        | nil => exact absurd rfl hA
        | @cons p q t t' hpq ht ih =>
          cases ht with
          | nil => simpa using hpq.2
          | cons h1 h2 =>
            rw [List.getLast_cons_cons, List.getLast_cons_cons]
            exact ih (by simp) (by simp)
      have hz : (a :: e).zip (flHistCumul fl (a :: e) (flScale fl s row)) ≠ [] := by simp [flHistCumul]
      have hk := key _ _ (by simp) hz hf
      rw [hlast] at hk
      refine ⟨_, List.getLast?_eq_getLast_of_ne_nil hne, ?_⟩
      have : (((a :: e).zip (flHistCumul fl (a :: e) (flScale fl s row))).getLast hz).2 =
          (flHistCumul fl (a :: e) (flScale fl s row)).getLast hne := by
        rw [List.getLast_eq_getElem, List.getLast_eq_getElem, List.getElem_zip]
        simp [hlz]
      rw [this] at hk
      exact hk

/-- **C120: the CDF of a histogram in floating-point numbers** is, at every point, within `2 n + 9` roundings of the share of the mass that
lies to the left; it is 0 before the first edge and 1 after the last one, without any error. -/
theorem C120_hist_cdf (h : Rounding fl u) {bins row : List K} {s : K} (hi : HistInput fl bins row s) (x : K) :
    ∃ v, flHistCdf fl bins (flScale fl s row) x = some v ∧ Rel u (2 * row.length + 9) (massUpTo bins row x / totalMass bins row) v ∧
      ((∀ e ∈ bins, x < e) → v = 0) ∧ ((∀ e ∈ bins, e < x) → v = 1) := by
  have hl : (row.map (· / totalMass bins row)).length = row.length := by simp
  have h1 : totalMass bins (row.map (· / totalMass bins row)) = 1 := by rw [Verif.Lemmas.Hist.totalMass_div, div_self hi.mass.ne']
  have hv := C08_cdf_is_mass bins (row.map (· / totalMass bins row)) (by rw [hl]; exact hi.grid) h1 x
  have hdiv : ∀ (e p : List K) (c : K), massUpTo e (p.map (· / c)) x = massUpTo e p x / c := by
    intro e p c
    induction p generalizing e with
    | nil => cases e with
      | nil => simp [massUpTo]
      | cons a e => cases e <;> simp [massUpTo]
    | cons q p ih =>
      match e with
      | [] => simp [massUpTo]
      | [_] => simp [massUpTo]
      | a :: b :: e => simp only [List.map_cons, massUpTo, ih]; ring
  rw [hdiv] at hv
  obtain ⟨w, hw, hrel⟩ := flInterp_rel h (le_refl 0) zero_le_one (cumul_rel h hi) (C120_hist_cumul h hi).2.2.1 x _ hv
  refine ⟨w, hw, hrel, ?_, ?_⟩
  · intro hb
    match bins, hi with
    | [], hi => exact absurd hi.grid.size (by simp)
    | a :: e, hi =>
      have hxa := hb a (by simp)
      simp only [flInterp, flHistCumul, List.zip_cons_cons, if_pos hxa, Option.some.injEq] at hw
      exact hw.symm
  · intro hb
    have hlen := (C120_hist_cumul h hi).1
    match bins, hi with
    | [], hi => exact absurd hi.grid.size (by simp)
    | a :: e, hi =>
      have hxa := hb a (by simp)
      have hmem : ((((a, (0 : K)) :: e.zip (flCumsum fl (flMasses fl (a :: e) (flScale fl s row))))).getLast (by simp)).1 ∈ a :: e := by
        have := List.getLast_mem (l := (a, (0 : K)) :: e.zip (flCumsum fl (flMasses fl (a :: e) (flScale fl s row)))) (by simp)
        rw [List.mem_cons] at this
        rcases this with h' | h'
        · rw [h']; simp
        · exact List.mem_cons_of_mem _ (List.of_mem_zip h').1
      simp only [flInterp, flHistCumul, List.zip_cons_cons, if_neg (not_lt.2 hxa.le), if_pos (hb _ hmem), Option.some.injEq] at hw
      exact hw.symm

/-- two points of one cell -/
theorem flInterpGo_cell (h : Rounding fl u) {x x' : K} (hxx : x ≤ x') (t : List (K × K)) : ∀ (x0 y0 : K), MonoY ((x0, y0) :: t) →
    (∀ p ∈ (x0, y0) :: t, 0 ≤ p.2 ∧ IsFloat fl p.2) → x0 ≤ x → (∀ p ∈ t, p.1 ≤ x' → p.1 ≤ x) → flInterpGo fl x0 y0 t x ≤ flInterpGo fl x0 y0 t x' := by
  have hfl : ∀ {y : K}, 0 ≤ y → 0 ≤ fl y := fun {y} hy => by have := h.mono 0 y hy; rwa [h.zero] at this
  induction t with
  | nil => intro x0 y0 _ _ _ _; exact le_refl _
  | cons p t ih =>
    intro x0 y0 hm hf h0 hc
    obtain ⟨x1, y1⟩ := p
    have h01 : y0 ≤ y1 := hm.head
    simp only [flInterpGo]
    by_cases h1 : x1 ≤ x
    · rw [if_pos h1, if_pos (h1.trans hxx)]
      exact ih x1 y1 hm.tail (fun q hq => hf q (List.mem_cons_of_mem _ hq)) h1 fun q hq => hc q (List.mem_cons_of_mem _ hq)
    · have h1' : ¬ x1 ≤ x' := fun h' => h1 (hc (x1, y1) (by simp) h')
      rw [if_neg h1, if_neg h1']
      have hD : 0 ≤ fl (fl (y1 - y0) / fl (x1 - x0)) := hfl (div_nonneg (hfl (by linarith)) (hfl (by linarith [not_le.1 h1])))
      have hge : ∀ z, x0 ≤ z → y0 ≤ flLine fl x0 y0 x1 y1 z := by
        intro z hz
        have h2 : 0 ≤ fl (fl (fl (y1 - y0) / fl (x1 - x0)) * fl (z - x0)) := hfl (mul_nonneg hD (hfl (by linarith)))
        have h3 := h.mono y0 _ (show y0 ≤ fl (fl (fl (y1 - y0) / fl (x1 - x0)) * fl (z - x0)) + y0 by linarith)
        rwa [(hf (x0, y0) (by simp)).2] at h3
      by_cases h2 : x0 = x
      · rw [if_pos h2]
        split
        · exact le_refl _
        · exact hge x' (h0.trans hxx)
      · have h2' : ¬ x0 = x' := fun h' => h2 (le_antisymm h0 (h' ▸ hxx))
        rw [if_neg h2, if_neg h2']
        refine h.mono _ _ ?_
        have h3 : fl (x - x0) ≤ fl (x' - x0) := h.mono _ _ (by linarith)
        have h4 := h.mono _ _ (mul_le_mul_of_nonneg_left h3 hD)
        linarith

/-- **C120 (partial): the CDF of a histogram in floating-point numbers almost never decreases.** Between two neighbouring edges it never
decreases; over any distance it loses at most `4 n + 18` roundings. Not proved, and false (`C120_cdf_decreases`): it never decreases. -/
theorem C120_hist_monotone_partial (h : Rounding fl u) {bins row : List K} {s : K} (hi : HistInput fl bins row s) (x x' v v' : K) (hx : x ≤ x')
    (hv : flHistCdf fl bins (flScale fl s row) x = some v) (hv' : flHistCdf fl bins (flScale fl s row) x' = some v') :
    (1 - u) ^ (4 * row.length + 18) * v ≤ v' ∧ ((∀ e ∈ bins, e ≤ x' → e ≤ x) → (∃ e ∈ bins, x' ≤ e) → v ≤ v') := by
  constructor
  · obtain ⟨w, hw, hr, _⟩ := C120_hist_cdf h hi x
    obtain ⟨w', hw', hr', _⟩ := C120_hist_cdf h hi x'
    rw [hv] at hw
    rw [hv'] at hw'
    cases hw
    cases hw'
    have hmono : massUpTo bins row x / totalMass bins row ≤ massUpTo bins row x' / totalMass bins row :=
      div_le_div_of_nonneg_right (Verif.Lemmas.Hist.massUpTo_mono bins row x x' hi.nonneg hx) hi.mass.le
    calc (1 - u) ^ (4 * row.length + 18) * v = (1 - u) ^ (2 * row.length + 9) * ((1 - u) ^ (2 * row.length + 9) * v) := by
          rw [← mul_assoc, ← pow_add]; congr 2; omega
      _ ≤ (1 - u) ^ (2 * row.length + 9) * (massUpTo bins row x / totalMass bins row) := mul_le_mul_of_nonneg_left hr.right (pow_pos' h _).le
      _ ≤ (1 - u) ^ (2 * row.length + 9) * (massUpTo bins row x' / totalMass bins row) := mul_le_mul_of_nonneg_left hmono (pow_pos' h _).le
      _ ≤ v' := hr'.left
  · intro hc hle
    obtain ⟨hlen, h0, hmono, _⟩ := C120_hist_cumul h hi
    obtain ⟨_, hst, hsr, _⟩ := C120_hist_stored h hi
    have hmass : ∀ v ∈ flMasses fl bins (flScale fl s row), 0 ≤ v ∧ IsFloat fl v := by
      intro v hv
      refine ⟨rel_forall₂_nonneg h (masses_rel h (binWidths bins) (grid_widths hi.grid).1 _ _ hsr) v hv, ?_⟩
      obtain ⟨i, hi', rfl⟩ := List.mem_iff_getElem.1 hv
      simp only [flMasses, List.getElem_zipWith]
      exact h.idem _
    match bins, hi with
    | [], hi => exact absurd hi.grid.size (by simp)
    | a :: e, hi =>
      unfold flHistCdf at hv hv'
      have hm := monoY_zip (a :: e) _ hmono
      have hz : (a :: e).zip (flHistCumul fl (a :: e) (flScale fl s row)) = (a, 0) :: e.zip (flCumsum fl (flMasses fl (a :: e) (flScale fl s row))) := rfl
      rw [hz] at hm hv hv'
      have hlast : ((((a, (0 : K)) :: e.zip (flCumsum fl (flMasses fl (a :: e) (flScale fl s row))))).getLast (by simp)).1 = (a :: e).getLast (by simp) := by
        have hl2 : (flCumsum fl (flMasses fl (a :: e) (flScale fl s row))).length = e.length := by
          simp only [flHistCumul, List.length_cons] at hlen; omega
        rw [List.getLast_eq_getElem, List.getLast_eq_getElem]
        generalize flCumsum fl (flMasses fl (a :: e) (flScale fl s row)) = d at hl2
        have : (a, (0 : K)) :: e.zip d = (a :: e).zip (0 :: d) := rfl
        simp only [this, List.getElem_zip]
        simp [hl2]
      have hsorted : ∀ y ∈ a :: e, y ≤ (a :: e).getLast (by simp) := by
        intro y hy
        have hpw := hi.grid.strict
        rw [← List.dropLast_append_getLast (l := a :: e) (by simp)] at hpw hy
        rcases List.mem_append.1 hy with hy | hy
        · exact le_of_lt ((List.pairwise_append.1 hpw).2.2 y hy _ (by simp))
        · exact le_of_eq (by simpa using hy)
      obtain ⟨e', he', hxe⟩ := hle
      have hin' : ¬ (a :: e).getLast (by simp) < x' := not_lt.2 (hxe.trans (hsorted e' he'))
      have hin : ¬ (a :: e).getLast (by simp) < x := fun h' => hin' (lt_of_lt_of_le h' hx)
      simp only [flInterp] at hv hv'
      rw [hlast] at hv hv'
      rw [if_neg hin] at hv
      rw [if_neg hin'] at hv'
      have hfloat : ∀ p ∈ (a, (0 : K)) :: e.zip (flCumsum fl (flMasses fl (a :: e) (flScale fl s row))), 0 ≤ p.2 ∧ IsFloat fl p.2 := by
        intro p hp
        rcases List.mem_cons.1 hp with rfl | hp
        · exact ⟨le_refl _, h.zero⟩
        · exact flCumsum_float h _ hmass _ (List.of_mem_zip hp).2
      split at hv
      · cases hv
        split at hv'
        · cases hv'; exact le_refl _
        · next h1 h2 => exact absurd (hc a (by simp) (not_lt.1 h2)) (not_le.2 h1)
      · next h1 =>
        rw [if_neg (not_lt.2 ((not_lt.1 h1).trans hx))] at hv'
        cases hv
        cases hv'
        exact flInterpGo_cell h hx _ a 0 hm hfloat (not_lt.1 h1) fun p hp => hc p.1 (List.mem_cons_of_mem _ (List.of_mem_zip hp).1)

/-- edges `-0.5, 1.7, 4.0` (1.7 as the nearest double), contents `1, 2` -/
def exBins : List ℚ := [-1 / 2, 7656119366529843 / 4503599627370496, 4]

/-- the sum that numpy gets for `exBins` -/
def exSum : ℚ := 7656119366529843 / 1125899906842624

theorem exInput : HistInput double exBins [1, 2] exSum where
  grid := ⟨by decide +kernel, rfl, by decide⟩
  nonneg := by decide +kernel
  mass := by decide +kernel
  sum := by
    have h1 : flMasses double exBins [1, 2] = [2476979795053773 / 1125899906842624] ++ [2589569785738035 / 562949953421312] := by decide +kernel
    have h2 : exSum = double (2476979795053773 / 1125899906842624 + 2589569785738035 / 562949953421312) := by decide +kernel
    rw [h1, h2]
    exact .add (.one _) (.one _)

/-- **C120 is violated for doubles: the CDF exceeds 1 and decreases.** `hist` with edges `-0.5, 1.7, 4.0` and contents `1, 2`:
the CDF at the double below 4 is `1 + 2⁻⁵²`, at 4 it is 1. -/
theorem C120_cdf_decreases : HistInput double exBins [1, 2] exSum ∧
    ∃ x x' v v' : ℚ, x < x' ∧ IsFloat double x ∧ IsFloat double x' ∧ (∀ e ∈ exBins, IsFloat double e) ∧
      flHistCdf double exBins (flScale double exSum [1, 2]) x = some v ∧ flHistCdf double exBins (flScale double exSum [1, 2]) x' = some v' ∧
      v' < v ∧ 1 < v := by
  refine ⟨exInput, 9007199254740991 / 2251799813685248, 4, 4503599627370497 / 4503599627370496, 1, ?_⟩
  unfold IsFloat
  decide +kernel

/-- **C120: for doubles.** With at most a million bins the CDF has a relative error below `3 · 10⁻¹⁰`. -/
theorem C120_hist_double [FloorRing K] {bins row : List K} {s : K} (hi : HistInput double bins row s) (hn : row.length ≤ 1000000) (x : K) :
    ∃ v, flHistCdf double bins (flScale double s row) x = some v ∧
      |v - massUpTo bins row x / totalMass bins row| ≤ 3 / 10 ^ 10 * (massUpTo bins row x / totalMass bins row) := by
  obtain ⟨v, hv, hr, _⟩ := C120_hist_cdf C120_double hi x
  refine ⟨v, hv, ?_⟩
  have hr2 := rel_mono (C120_double (K := K)) (l := 2000009) (by omega) hr
  obtain ⟨h1, h2⟩ := rel_bounds C120_double hr2 (by norm_num)
  have h0 := hr.nonneg
  generalize massUpTo bins row x / totalMass bins row = m at h0 h1 h2
  rw [le_div_iff₀ (by norm_num)] at h2
  rw [abs_le]
  constructor
  · have : (1 - (2000009 : ℕ) * (1 / 2 ^ 53) : K) ≥ 1 - 3 / 10 ^ 10 := by norm_num
    nlinarith
  · have hv0 : 0 ≤ v := Rel.nonneg' C120_double hr
    have hk : ((2000009 : ℕ) * (1 / 2 ^ 53) : K) ≤ 2 / 10 ^ 10 + 3 / 10 ^ 11 := by norm_num
    by_contra hcon
    push Not at hcon
    have h3 : (1 + 3 / 10 ^ 10) * m < v := by linarith
    have h4 : v * (1 - (2 / 10 ^ 10 + 3 / 10 ^ 11)) ≤ m := by nlinarith
    have h5 : (1 + 3 / 10 ^ 10) * m * (1 - (2 / 10 ^ 10 + 3 / 10 ^ 11)) ≤ m := by nlinarith
    have h6 : (1 + 3 / 10 ^ 10) * m * (1 - (2 / 10 ^ 10 + 3 / 10 ^ 11)) < m ∨ m = 0 := by
      rcases h0.eq_or_lt with h7 | h7
      · exact .inr h7.symm
      · left; nlinarith
    nlinarith

/-- without rounding, the model with rounding is the exact model -/
theorem C120_exact : Rounding (id : K → K) 0 ∧ (∀ (l : List K) (s : K), FlSum id l s → s = Np.sum l) ∧
    (∀ (bins row : List K) (x : K), flHistCdf id bins row x = histCdf bins row x) ∧
    (∀ (bins row : List K), flMasses id bins row = Np.mul row (binWidths bins)) := by
  have hm : ∀ (bins row : List K), flMasses id bins row = Np.mul row (binWidths bins) := by
    intro bins row; simp [flMasses, flWidths, Np.mul]
  refine ⟨⟨fun _ _ h => h, fun _ => rfl, rfl, rfl, fun _ => rfl, by simp, le_refl _, zero_lt_one⟩, ?_, ?_, hm⟩
  · intro l s hs
    show s = l.sum
    induction hs with
    | one x => simp
    | add _ _ iha ihb => rw [List.sum_append, ← iha, ← ihb]; rfl
    | perm _ hp ih => rw [ih, hp.sum_eq]
  · intro bins row x
    have hfrom : ∀ (l : List K) (c : K), flCumsumFrom id c l = cumsumFrom c l := by
      intro l
      induction l with
      | nil => intro c; rfl
      | cons a l ih => intro c; simp [flCumsumFrom, cumsumFrom, ih]
    have hc : ∀ l : List K, flCumsum id l = cumsum l := by
      intro l
      cases l with
      | nil => rfl
      | cons a l => simp [flCumsum, cumsum, cumsumFrom, hfrom]
    have hgo : ∀ (t : List (K × K)) (x0 y0 : K), flInterpGo id x0 y0 t x = npInterpGo x0 y0 t x := by
      intro t
      induction t with
      | nil => intro x0 y0; rfl
      | cons p t ih => intro x0 y0; simp only [flInterpGo, npInterpGo, ih]; rfl
    have hi : ∀ knots : List (K × K), flInterp id 0 1 knots x = interp 0 1 knots x := by
      intro knots
      cases knots with
      | nil => rfl
      | cons p t => simp only [flInterp, interp, hgo]
    unfold flHistCdf histCdf
    rw [hi, flHistCumul, hc, hm]
    rfl

end Verif.Props.Rounding
