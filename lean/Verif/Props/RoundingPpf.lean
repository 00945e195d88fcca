import Verif.Props.RoundingIrregular
import Verif.Lemmas.InterpPdf
import Verif.Props.EndToEnd

/-!
# C138: quantiles in floating-point numbers
-/

set_option linter.unusedSectionVars false
set_option autoImplicit false

namespace Verif.Props.RoundingPpf

open Verif Verif.Np Verif.Model Verif.Spec Verif.Lemmas.Rounding Verif.Lemmas.RoundDigits Verif.Lemmas.Hist Verif.Lemmas.InterpPdf Verif.Props.RoundingInterp
open Verif.Props.RoundingIrregular (IrregularInput C121_irregular_stored)
open Verif.Props.Rounding (C120_double HistInput cumul_rel C120_hist_cumul)

variable {K : Type} [Field K] [LinearOrder K] [IsStrictOrderedRing K] {fl : K → K} {u : K}

/-- neighbouring entries of the list are ordered and at most `W` apart -/
def Steps (W : K) (xs : List K) : Prop := xs.IsChain fun a b => a ≤ b ∧ b - a ≤ W

/-- a straight piece whose ordinates may be negative, in floating-point numbers -/
theorem flLine_pos (h : Rounding fl u) (h6 : 6 * u < 1) {x0 x1 x y0 y1 M W : K} (h0 : x0 ≤ x) (h1 : x < x1) (hy : y0 ≤ y1) (hW : y1 - y0 ≤ W)
    (hM0 : |y0| ≤ M) (hM1 : |y1| ≤ M) : |flLine fl x0 y0 x1 y1 x - line x0 y0 x1 y1 x| ≤ u * M + 6 * u / (1 - 6 * u) * W := by
  have hu := h.nonneg
  have a := rel_fl h (sub_nonneg.2 hy)
  have b := rel_fl h (x := x1 - x0) (by linarith)
  have c := rel_fl h (x := x - x0) (by linarith)
  have r := rel_step h (rel_mul h (rel_step h (rel_div h a b)) c)
  have ha := rel_abs h r (by push_cast; linarith)
  have hp5 : 0 < 1 - 5 * u := by linarith
  have hp6 : 0 < 1 - 6 * u := by linarith
  push_cast at ha
  set m := fl (fl (fl (y1 - y0) / fl (x1 - x0)) * fl (x - x0)) with hm
  set e := (y1 - y0) / (x1 - x0) * (x - x0) with he
  have he0 : 0 ≤ e := r.nonneg
  have hl : line x0 y0 x1 y1 x = e + y0 := rfl
  have hlo := le_line (y0 := y0) (y1 := y1) h0 h1 hy
  have hhi := line_le (y0 := y0) (y1 := y1) h0 h1.le (lt_of_le_of_lt h0 h1) hy
  rw [hl] at hlo hhi
  have heW : e ≤ W := by linarith
  have hW0 : 0 ≤ W := he0.trans heW
  have ha' : |m - e| ≤ 5 * u / (1 - 5 * u) * W := by
    refine (le_of_eq_of_le ?_ ha).trans (le_of_eq_of_le ?_ (mul_le_mul_of_nonneg_left heW (div_nonneg (by linarith) hp5.le)))
    · rfl
    · norm_num
  have hM' : |e + y0| ≤ M := abs_le.2 ⟨by linarith [(abs_le.1 hM0).1], by linarith [(abs_le.1 hM1).2]⟩
  have hr := h.err (m + y0)
  have hmy : |m + y0| ≤ M + 5 * u / (1 - 5 * u) * W := by
    rw [show m + y0 = (e + y0) + (m - e) by ring]
    exact (abs_add_le _ _).trans (add_le_add hM' ha')
  have hfl : flLine fl x0 y0 x1 y1 x = fl (m + y0) := rfl
  rw [hfl, hl, show fl (m + y0) - (e + y0) = (fl (m + y0) - (m + y0)) + (m - e) by ring]
  refine (abs_add_le _ _).trans ((add_le_add (hr.trans (mul_le_mul_of_nonneg_left hmy hu)) ha').trans ?_)
  have key : (1 + u) * (5 * u / (1 - 5 * u)) ≤ 6 * u / (1 - 6 * u) := by
    rw [← mul_div_assoc, div_le_div_iff₀ hp5 hp6]
    nlinarith [mul_nonneg hu hu, mul_nonneg hu (mul_nonneg hu hu)]
  nlinarith [mul_le_mul_of_nonneg_right key hW0]

theorem flInterpGo_pos (h : Rounding fl u) (h6 : 6 * u < 1) {M W x : K} (hW0 : 0 ≤ W) (t : List (K × K)) : ∀ x0 y0 : K,
    (((x0, y0) :: t).IsChain fun p q => p.2 ≤ q.2 ∧ q.2 - p.2 ≤ W) → (∀ p ∈ (x0, y0) :: t, |p.2| ≤ M) → x0 ≤ x →
    |flInterpGo fl x0 y0 t x - npInterpGo x0 y0 t x| ≤ u * M + 6 * u / (1 - 6 * u) * W := by
  have hu := h.nonneg
  induction t with
  | nil =>
    intro x0 y0 _ hM _
    have hM0 := (abs_nonneg y0).trans (hM (x0, y0) (by simp))
    simp only [flInterpGo, npInterpGo, sub_self, abs_zero]
    exact add_nonneg (mul_nonneg hu hM0) (mul_nonneg (div_nonneg (by linarith) (by linarith)) hW0)
  | cons p t ih =>
    intro x0 y0 hc hM hx
    obtain ⟨x1, y1⟩ := p
    have hM0 := (abs_nonneg y0).trans (hM (x0, y0) (by simp))
    have hh := (List.isChain_cons_cons.1 hc)
    simp only [flInterpGo, npInterpGo]
    split
    · next h1 => exact ih x1 y1 hh.2 (fun p hp => hM p (List.mem_cons_of_mem _ hp)) h1
    · next h1 =>
      split
      · simp only [sub_self, abs_zero]
        exact add_nonneg (mul_nonneg hu hM0) (mul_nonneg (div_nonneg (by linarith) (by linarith)) hW0)
      · exact flLine_pos h h6 hx (not_le.1 h1) hh.1.1 hh.1.2 (hM (x0, y0) (by simp)) (hM (x1, y1) (by simp))

theorem steps_zip {W : K} (c : List K) : ∀ xs : List K, Steps W xs → (c.zip xs).IsChain fun p q : K × K => p.2 ≤ q.2 ∧ q.2 - p.2 ≤ W := by
  induction c with
  | nil => intro xs _; simp
  | cons a c ih =>
    intro xs hs
    match xs, c, hs, ih with
    | [], _, _, _ => simp
    | [_], _, _, _ => simp
    | x :: y :: xs, [], _, _ => simp
    | x :: y :: xs, b :: c, .cons_cons hxy ht, ih =>
      rw [List.zip_cons_cons, List.zip_cons_cons]
      exact .cons_cons hxy (ih (y :: xs) ht)

theorem last_zip_fst (xs ys : List K) (hl : xs.length = ys.length) (hne : xs.zip ys ≠ []) (hx : xs ≠ []) (hy : ys ≠ []) :
    (xs.zip ys).getLast hne = (xs.getLast hx, ys.getLast hy) := by
  rw [List.getLast_eq_getElem, List.getLast_eq_getElem, List.getLast_eq_getElem, List.getElem_zip]
  simp [hl]

theorem le_last (l : List K) (hs : l.Pairwise (· < ·)) (hne : l ≠ []) : ∀ e ∈ l, e ≤ l.getLast hne := by
  intro y hy
  rw [← List.dropLast_append_getLast hne] at hs hy
  rcases List.mem_append.1 hy with hy | hy
  · exact le_of_lt ((List.pairwise_append.1 hs).2.2 y hy _ (by simp))
  · exact le_of_eq (by simpa using hy)

theorem flTrap_length (xs : List K) : ∀ ys : List K, xs.length = ys.length → (flTrapezoids fl xs ys).length = xs.length - 1 := by
  induction xs with
  | nil => intro ys _; simp [flTrapezoids]
  | cons a xs ih =>
    intro ys hl
    match xs, ys, hl, ih with
    | [], _, _, _ => simp [flTrapezoids]
    | b :: xs, p :: q :: ys, hl, ih =>
      have := ih (q :: ys) (by simpa using hl)
      simp only [flTrapezoids, List.length_cons, this]
      simp

theorem flRects_length (xs : List K) : ∀ ys : List K, xs.length = ys.length → (flRightRects fl xs ys).length = xs.length - 1 := by
  induction xs with
  | nil => intro ys _; simp [flRightRects]
  | cons a xs ih =>
    intro ys hl
    match xs, ys, hl, ih with
    | [], _, _, _ => simp [flRightRects]
    | b :: xs, p :: q :: ys, hl, ih =>
      have := ih (q :: ys) (by simpa using hl)
      simp only [flRightRects, List.length_cons, this]
      simp

/-- inversion of a stored curve `d` that is off by `k` roundings from the curve `c` -/
theorem ppf_core (h : Rounding fl u) (h6 : 6 * u < 1) {k : ℕ} {xs c d : List K} (hs : xs.Pairwise (· < ·)) (hl : xs.length = d.length)
    (hr : List.Forall₂ (Rel u k) c d) (hm : d.Pairwise (· ≤ ·)) {M W : K} (hW : Steps W xs) (hW0 : 0 ≤ W) (hM : ∀ x ∈ xs, |x| ≤ M)
    (hx : xs ≠ []) (hd : d ≠ []) (lo hi l' r' q : K) (h0 : d.head hd ≤ q) (h1 : q ≤ d.getLast hd) :
    ∃ w x p, flInterp fl lo hi (d.zip xs) q = some w ∧ |w - x| ≤ u * M + 6 * u / (1 - 6 * u) * W ∧
      xs.head hx ≤ x ∧ x ≤ xs.getLast hx ∧ interp l' r' (xs.zip c) x = some p ∧ Rel u k p q := by
  match xs, d, c, hr, hs, hl, hm, hW, hM, hx, hd, h0, h1 with
  | a :: xs, b :: d, b' :: c, .cons hb hr, hs, hl, hm, hW, hM, hx, hd, h0, h1 =>
    have hl' : xs.length = d.length := by simpa using hl
    replace h0 : b ≤ q := h0
    have hX : StrictX ((a, b) :: xs.zip d) := by
      have := strictX_zip (ys := b :: d) hs
      rwa [List.zip_cons_cons] at this
    have hY : MonoY ((a, b) :: xs.zip d) := by
      have := monoY_zip (a :: xs) (b :: d) hm
      rwa [List.zip_cons_cons] at this
    have hsw : swapKnots (xs.zip d) = d.zip xs := zip_swap xs d
    have hlast : ((a, b) :: xs.zip d).getLast (by simp) = ((a :: xs).getLast (by simp), (b :: d).getLast (by simp)) :=
      last_zip_fst (a :: xs) (b :: d) hl (by simp) (by simp) (by simp)
    have hlast' : ((b, a) :: d.zip xs).getLast (by simp) = ((b :: d).getLast (by simp), (a :: xs).getLast (by simp)) :=
      last_zip_fst (b :: d) (a :: xs) hl.symm (by simp) (by simp) (by simp)
    have hY' : MonoY ((b, a) :: d.zip xs) := by
      have : MonoY (swapKnots ((a, b) :: xs.zip d)) := by
        unfold MonoY swapKnots; rw [List.isChain_map]; exact hX.mono
      rw [swapKnots_cons, hsw] at this
      exact this
    set x := npInterpGo b a (d.zip xs) q with hxd
    have hxa : a ≤ x := by
      have := swap_mem (q := q) hX.mono h0
      rwa [hsw] at this
    have hxl : x ≤ (a :: xs).getLast (by simp) := by
      have := npInterpGo_le hY' (x := q) h0
      rwa [hlast'] at this
    have hF : npInterpGo a b (xs.zip d) x = q := by
      have := npInterpGo_swap hX hY (q := q) h0 (by rw [hlast]; exact h1)
      rwa [hsw] at this
    have hf := rel_zip hr xs
    refine ⟨flInterpGo fl b a (d.zip xs) q, x, npInterpGo a b' (xs.zip c) x, ?_, ?_, hxa, hxl, ?_, ?_⟩
    · rw [List.zip_cons_cons]
      unfold flInterp
      simp only
      rw [hlast', if_neg (not_lt.2 h0), if_neg (not_lt.2 h1)]
    · have hc := steps_zip (b :: d) (a :: xs) hW
      rw [List.zip_cons_cons] at hc
      refine flInterpGo_pos h h6 hW0 _ b a hc (fun p hp => ?_) h0
      have hp' : p ∈ (b :: d).zip (a :: xs) := by rw [List.zip_cons_cons]; exact hp
      exact hM _ (List.of_mem_zip hp').2
    · rw [List.zip_cons_cons]
      have hl2 := getLast_fst (List.Forall₂.cons ⟨rfl, hb⟩ hf : List.Forall₂ (fun p q : K × K => p.1 = q.1 ∧ Rel u k p.2 q.2) ((a, b') :: xs.zip c) ((a, b) :: xs.zip d))
      unfold interp
      simp only
      rw [hl2, hlast, if_neg (not_lt.2 hxa), if_neg (not_lt.2 hxl)]
    · have := rel_interpGo (xs.zip c) (xs.zip d) hf a b' b hb hxa
      rwa [hF] at this

theorem rel_top (h : Rounding fl u) {k : ℕ} {l q : K} (hl : Rel u k 1 l) (h0 : l ≤ q) (h1 : q ≤ 1) (hq : 0 ≤ q) : Rel u k 1 q :=
  ⟨hl.left.trans h0, ((mul_le_mul_of_nonneg_right (pow_le_one' h k) hq).trans (one_mul q).le).trans h1, zero_le_one⟩

/-- **C138 (partial): quantiles of a histogram in floating-point numbers.** The computed quantile `w` is next to a point `x` of the range: within one
rounding of the largest edge and `6 u` of the widest bin. The probability to the left of `x` is the one asked for up to `2 n + 3` roundings.
Missing, because false: `w` itself lies in the range (`C138_hist_outside`), and never decreases (`C138_hist_decreases`). -/
theorem C138_hist_partial (h : Rounding fl u) (h6 : 6 * u < 1) {bins row : List K} {s : K} (hi : HistInput fl bins row s) (M W : K)
    (hM : ∀ e ∈ bins, |e| ≤ M) (hW : Steps W bins) (q : K) (h0 : 0 ≤ q) (h1 : q ≤ 1) :
    ∃ w x, flGridPpf fl bins (flHistCumul fl bins (flScale fl s row)) q = some w ∧ |w - x| ≤ u * M + 6 * u / (1 - 6 * u) * W ∧
      (∃ e ∈ bins, e ≤ x) ∧ (∃ e ∈ bins, x ≤ e) ∧ Rel u (2 * row.length + 3) (massUpTo bins row x / totalMass bins row) q := by
  have hr := cumul_rel h hi
  obtain ⟨hl, hz, hm, l, hlast, hrl⟩ := C120_hist_cumul h hi
  have hl1 : (row.map (· / totalMass bins row)).length = row.length := by simp
  have ht1 : totalMass bins (row.map (· / totalMass bins row)) = 1 := by rw [totalMass_div, div_self hi.mass.ne']
  have hcdf : ∀ x, histCdf bins (row.map (· / totalMass bins row)) x = some (massUpTo bins row x / totalMass bins row) := by
    intro x
    rw [Verif.Props.Hist.C08_cdf_is_mass bins _ (by rw [hl1]; exact hi.grid) ht1 x, Verif.Props.EndToEnd.massUpTo_div]
  have hg := hi.grid
  match bins, hi, hr, hl, hz, hm, hlast, hM, hW, hcdf with
  | [], hi, _, _, _, _, _, _, _, _ => exact absurd hi.grid.size (by simp)
  | [_], hi, _, _, _, _, _, _, _, _ => exact absurd hi.grid.size (by have := hi.grid.pos; simp only [List.length_cons, List.length_nil]; omega)
  | a :: b :: e, hi, hr, hl, hz, hm, hlast, hM, hW, hcdf =>
    have hW0 : 0 ≤ W := by
      have := (List.isChain_cons_cons.1 hW).1
      linarith
    have hu := h.nonneg
    have hM0 : 0 ≤ M := (abs_nonneg a).trans (hM a (by simp))
    set d := flHistCumul fl (a :: b :: e) (flScale fl s row) with hd
    have hne : d ≠ [] := by rw [hd]; simp [flHistCumul]
    rw [List.getLast?_eq_getLast_of_ne_nil hne, Option.some.injEq] at hlast
    by_cases hq : q ≤ d.getLast hne
    · obtain ⟨w, x, p, hw, hwx, hx0, hx1, hp, hpr⟩ := ppf_core h h6 (hi.grid.strict) hl.symm hr hm hW hW0 hM (by simp) hne a
        ((a :: b :: e).getLast (by simp)) 0 1 q h0 hq
      refine ⟨w, x, hw, hwx, ⟨a, by simp, hx0⟩, ⟨_, List.getLast_mem (by simp), hx1⟩, ?_⟩
      have := hcdf x
      unfold histCdf at this
      rw [hp, Option.some.injEq] at this
      rwa [this] at hpr
    · have hq' := not_le.1 hq
      refine ⟨(a :: b :: e).getLast (by simp), (a :: b :: e).getLast (by simp), ?_, ?_, ⟨_, List.getLast_mem (by simp), le_rfl⟩,
        ⟨_, List.getLast_mem (by simp), le_rfl⟩, ?_⟩
      · have hdz : d = 0 :: flCumsum fl (flMasses fl (a :: b :: e) (flScale fl s row)) := rfl
        have hlz := last_zip_fst d (a :: b :: e) hl (by rw [hdz]; simp) hne (by simp)
        generalize flCumsum fl (flMasses fl (a :: b :: e) (flScale fl s row)) = d' at hdz
        clear_value d
        subst hdz
        unfold flGridPpf
        simp only [List.zip_cons_cons] at hlz ⊢
        unfold flInterp
        simp only
        rw [hlz, if_neg (not_lt.2 h0), if_pos hq']
      · rw [sub_self, abs_zero]
        exact add_nonneg (mul_nonneg hu hM0) (mul_nonneg (div_nonneg (by linarith) (by linarith)) hW0)
      · have hone := hcdf ((a :: b :: e).getLast (by simp))
        have hshape := (Verif.Props.Hist.C08_cdf_shape (a :: b :: e) _ (by rw [hl1]; exact hi.grid) ht1 (by
          intro v hv
          obtain ⟨z, hz, rfl⟩ := List.mem_map.1 hv
          exact div_nonneg (hi.nonneg z hz) hi.mass.le)).2.1 ((a :: b :: e).getLast (by simp)) (le_last _ hi.grid.strict (by simp))
        rw [hshape, Option.some.injEq] at hone
        rw [← hone]
        rw [hlast] at hq'
        exact rel_top h hrl hq'.le h1 h0

/-- **C138: quantiles of an interpolated PDF in floating-point numbers.** As for histograms; for probabilities below the first stored cumulated value
(C14) the quantile is the first grid point without any error. -/
theorem C138_interp (h : Rounding fl u) (h6 : 6 * u < 1) {xs ys : List K} (hi : InterpInput fl xs ys) (s : K)
    (hs : (flInterpCumul fl xs ys).getLast? = some s) (M W : K) (hM : ∀ e ∈ xs, |e| ≤ M) (hW : Steps W xs) (q : K) (h1 : q ≤ 1) :
    ∃ p c w, interpNormRow xs ys = .ok (some (p, c)) ∧ flGridPpf fl xs (flScale fl s (flInterpCumul fl xs ys)) q = some w ∧
      ((xs.head? = some w ∧ ∃ d, (flScale fl s (flInterpCumul fl xs ys)).head? = some d ∧ q < d) ∨
       ∃ x v, |w - x| ≤ u * M + 6 * u / (1 - 6 * u) * W ∧ (∃ e ∈ xs, e ≤ x) ∧ (∃ e ∈ xs, x ≤ e) ∧ interpCdf xs c x = some v ∧
        Rel u (2 * ys.length + 5) v q) := by
  obtain ⟨s', hs', hr, c, hn, hc⟩ := last_rel h hi
  obtain ⟨s'', hs'', hpos, _, _, _, hm, _, hl⟩ := C121_interp_stored h hi
  rw [hs] at hs' hs''
  cases hs'
  cases hs''
  have hd := forall₂_div h hr hc
  have h2 := hi.grid.two
  have hsz := hi.grid.size
  obtain ⟨a, b, t, e1⟩ := two_list (l := xs) (by omega)
  obtain ⟨y, y', t', e2⟩ := two_list h2
  have hlen : xs.length = (flScale fl s (flInterpCumul fl xs ys)).length := by
    rw [e1, e2] at hsz ⊢
    simp only [flScale, flInterpCumul, List.length_map, List.length_cons, flCumsum_length]
    rw [flTrap_length _ _ hsz]
    simp only [List.length_cons]
    omega
  set d := flScale fl s (flInterpCumul fl xs ys) with hdd
  have hne : d ≠ [] := by intro h0; rw [h0] at hlen; simp [e1] at hlen
  have hx : xs ≠ [] := by rw [e1]; simp
  rw [List.getLast?_eq_getLast_of_ne_nil hne, Option.some.injEq] at hl
  have hW0 : 0 ≤ W := by
    rw [e1] at hW
    have := (List.isChain_cons_cons.1 hW).1
    linarith
  by_cases hq : d.head hne ≤ q
  · obtain ⟨w, x, v, hw, hwx, hx0, hx1, hv, hrel⟩ := ppf_core h h6 hi.grid.strict hlen hd hm hW hW0 hM hx hne (xs.head hx) (xs.getLast hx) 0 1 q hq
      (by rw [hl]; exact h1)
    refine ⟨_, _, w, hn, ?_, .inr ⟨x, v, hwx, ⟨_, List.head_mem hx, hx0⟩, ⟨_, List.getLast_mem hx, hx1⟩, hv, rel_mono h (by omega) hrel⟩⟩
    subst e1
    exact hw
  · refine ⟨_, _, xs.head hx, hn, ?_, .inl ⟨List.head?_eq_some_head hx, d.head hne, List.head?_eq_some_head hne, not_le.1 hq⟩⟩
    clear_value d
    subst e1
    cases d with
    | nil => exact absurd rfl hne
    | cons d0 d =>
      simp only [flGridPpf, List.zip_cons_cons, flInterp, List.head_cons] at hq ⊢
      rw [if_pos (not_le.1 hq)]

/-- **C138 (partial): quantiles of a PDF with its own grid in floating-point numbers.** As for histograms, unless the probability exceeds the last stored
cumulated value; it is then 1 up to roundings, and the answer is `xmax`, the largest grid point of all PDFs of the ensemble.
Missing, because false (`C138_irregular_elsewhere`): the answer then lies in the range of the PDF. -/
theorem C138_irregular_partial (h : Rounding fl u) (h6 : 6 * u < 1) {κ : ℕ} {xs ys : List K} (hi : IrregularInput u κ xs ys) (t : K)
    (ht : FlSum fl (flRightRects fl xs ys) t) (M W : K) (hM : ∀ e ∈ xs, |e| ≤ M) (hW : Steps W xs) (xmin xmax q : K) (h0 : 0 ≤ q) (h1 : q ≤ 1) :
    ∃ p w, irrNormRow xs ys = some p ∧ flIrrPpf fl xmin xmax xs (flIrrCumul fl xs (flScale fl t ys)) q = some w ∧
      ((w = xmax ∧ Rel u (8 * κ + 2 * ys.length + 2) 1 q) ∨
       ∃ x v, |w - x| ≤ u * M + 6 * u / (1 - 6 * u) * W ∧ (∃ e ∈ xs, e ≤ x) ∧ (∃ e ∈ xs, x ≤ e) ∧ irrCdf xs p x = some v ∧
        Rel u (8 * κ + 2 * ys.length + 2) v q) := by
  obtain ⟨_, _, _, _, _, hm, _⟩ := C121_irregular_stored h hi t ht
  obtain ⟨p, hp, hr, hlast⟩ := Verif.Props.RoundingIrregular.cumul_rel h hi t ht
  have h2 := hi.grid.two
  have hsz := hi.grid.size
  obtain ⟨a, b, t', e1⟩ := two_list (l := xs) (by omega)
  have hlen : xs.length = (flIrrCumul fl xs (flScale fl t ys)).length := by
    obtain ⟨y, y', t', e2⟩ := two_list h2
    rw [e1, e2] at hsz ⊢
    simp only [flIrrCumul, List.length_cons, flCumsum_length]
    rw [flRects_length _ _ (by rw [flScale, List.length_map]; exact hsz)]
    simp only [List.length_cons]
    omega
  obtain ⟨l, hl, hrl⟩ := forall₂_getLast hr hlast
  set d := flIrrCumul fl xs (flScale fl t ys) with hd
  have hne : d ≠ [] := by rw [hd]; simp [flIrrCumul]
  have hx : xs ≠ [] := by rw [e1]; simp
  rw [List.getLast?_eq_getLast_of_ne_nil hne, Option.some.injEq] at hl
  have hW0 : 0 ≤ W := by
    rw [e1] at hW
    have := (List.isChain_cons_cons.1 hW).1
    linarith
  by_cases hq : q ≤ d.getLast hne
  · obtain ⟨w, x, v, hw, hwx, hx0, hx1, hv, hrel⟩ := ppf_core h h6 hi.grid.strict hlen hr hm hW hW0 hM hx hne xmin xmax 0 1 q h0 hq
    exact ⟨p, w, hp, hw, .inr ⟨x, v, hwx, ⟨_, List.head_mem hx, hx0⟩, ⟨_, List.getLast_mem hx, hx1⟩, hv, hrel⟩⟩
  · have hq' := not_le.1 hq
    refine ⟨p, xmax, hp, ?_, .inl ⟨rfl, rel_top h hrl (hl ▸ hq'.le) h1 h0⟩⟩
    have hdz : d = 0 :: flCumsum fl (flRightRects fl xs (flScale fl t ys)) := rfl
    generalize flCumsum fl (flRightRects fl xs (flScale fl t ys)) = d' at hdz
    have hlz := last_zip_fst d xs hlen.symm (by rw [hdz, e1]; simp) hne hx
    clear_value d
    subst e1 hdz
    unfold flIrrPpf
    simp only [List.zip_cons_cons] at hlz ⊢
    unfold flInterp
    simp only
    rw [hlz, if_neg (not_lt.2 h0), if_pos hq']

/-! ## doubles -/

/-- edges `-0.1, 0.2, 1.4` -/
def exBins : List ℚ := [-3602879701896397 / 36028797018963968, 3602879701896397 / 18014398509481984, 3152519739159347 / 2251799813685248]

/-- the sum that numpy gets for the contents `3, 3` -/
def exSum : ℚ := 9 / 2

theorem exInput : HistInput double exBins [3, 3] exSum where
  grid := ⟨by decide +kernel, rfl, by decide⟩
  nonneg := by decide +kernel
  mass := by decide +kernel
  sum := by
    have h1 : flMasses double exBins [3, 3] = [4053239664633447 / 4503599627370496] ++ [2026619832316723 / 562949953421312] := by decide +kernel
    have h2 : exSum = double (4053239664633447 / 4503599627370496 + 2026619832316723 / 562949953421312) := by decide +kernel
    rw [h1, h2]
    exact .add (.one _) (.one _)

/-- the PPF of this histogram -/
def exPpf (q : ℚ) : Option ℚ := flGridPpf double exBins (flHistCumul double exBins (flScale double exSum [3, 3])) q

/-- **C138 is violated for doubles: a larger probability gives a smaller quantile.** `hist` with edges `-0.1, 0.2, 1.4` and equal contents: the
quantile for 0.2 is 0.2, that for the double below 0.2 is larger. -/
theorem C138_hist_decreases : HistInput double exBins [3, 3] exSum ∧ (∀ e ∈ exBins, IsFloat double e) ∧
    ∃ q q' w w' : ℚ, 0 < q ∧ q < q' ∧ q' < 1 ∧ IsFloat double q ∧ IsFloat double q' ∧ exPpf q = some w ∧ exPpf q' = some w' ∧ w' < w := by
  refine ⟨exInput, by unfold IsFloat; decide +kernel, 7205759403792793 / 36028797018963968, 3602879701896397 / 18014398509481984, 7205759403792795 / 36028797018963968, 3602879701896397 / 18014398509481984, ?_⟩
  unfold IsFloat
  decide +kernel

/-- edges `-1.1, -1, 1.2` -/
def exBins2 : List ℚ := [-2476979795053773 / 2251799813685248, -1, 5404319552844595 / 4503599627370496]

/-- the sum that numpy gets for the contents `5, 2` -/
def exSum2 : ℚ := 2758454771764429 / 562949953421312

theorem exInput2 : HistInput double exBins2 [5, 2] exSum2 where
  grid := ⟨by decide +kernel, rfl, by decide⟩
  nonneg := by decide +kernel
  mass := by decide +kernel
  sum := by
    have h1 : flMasses double exBins2 [5, 2] = [1125899906842625 / 2251799813685248] ++ [2476979795053773 / 562949953421312] := by decide +kernel
    have h2 : exSum2 = double (1125899906842625 / 2251799813685248 + 2476979795053773 / 562949953421312) := by decide +kernel
    rw [h1, h2]
    exact .add (.one _) (.one _)

/-- **C138 is violated for doubles: a quantile outside the histogram.** `hist` with edges `-1.1, -1, 1.2` and contents `5, 2`: the quantile for
the double below 1 lies to the right of the last edge. -/
theorem C138_hist_outside : HistInput double exBins2 [5, 2] exSum2 ∧ (∀ e ∈ exBins2, IsFloat double e) ∧
    ∃ q w : ℚ, 0 < q ∧ q < 1 ∧ IsFloat double q ∧
      flGridPpf double exBins2 (flHistCumul double exBins2 (flScale double exSum2 [5, 2])) q = some w ∧ ∀ e ∈ exBins2, e < w := by
  refine ⟨exInput2, by unfold IsFloat; decide +kernel, 9007199254740991 / 9007199254740992, 1351079888211149 / 1125899906842624, ?_⟩
  unfold IsFloat
  decide +kernel

/-- grid `-1.1, 3.6, 5.4` -/
def exGrid : List ℚ := [-2476979795053773 / 2251799813685248, 8106479329266893 / 2251799813685248, 3039929748475085 / 562949953421312]

/-- the sum that numpy gets for the ordinates `3, 5, 4` -/
def exSum3 : ℚ := 2160320446254285 / 70368744177664

theorem exFlSum3 : FlSum double (flRightRects double exGrid [3, 5, 4]) exSum3 := by
  have h1 : flRightRects double exGrid [3, 5, 4] = [47 / 2] ++ [4053239664633447 / 562949953421312] := by decide +kernel
  have h2 : exSum3 = double (47 / 2 + 4053239664633447 / 562949953421312) := by decide +kernel
  rw [h1, h2]
  exact .add (.one _) (.one _)

theorem exInput3 : IrregularInput (1 / 2 ^ 53) 3 exGrid [3, 5, 4] where
  grid := ⟨by decide +kernel, rfl, by decide⟩
  nonneg := by decide +kernel
  wide := .cons_cons (by decide +kernel) (.cons_cons (by decide +kernel) (.singleton _))
  small := by decide +kernel
  mass := by decide +kernel

/-- **C138 is violated for doubles: a quantile of another PDF's range.** `interp_irregular` with the grid `-1.1, 3.6, 5.4` and ordinates `3, 5, 4`:
for the double below 1 the quantile is the largest grid point of *all* PDFs of the ensemble, however far away that is. -/
theorem C138_irregular_elsewhere : IrregularInput (1 / 2 ^ 53) 3 exGrid [3, 5, 4] ∧
    FlSum double (flRightRects double exGrid [3, 5, 4]) exSum3 ∧ (∀ e ∈ exGrid, IsFloat double e) ∧
    ∃ q : ℚ, 0 < q ∧ q < 1 ∧ IsFloat double q ∧ ∀ xmin xmax : ℚ,
      flIrrPpf double xmin xmax exGrid (flIrrCumul double exGrid (flScale double exSum3 [3, 5, 4])) q = some xmax := by
  refine ⟨exInput3, exFlSum3, by unfold IsFloat; decide +kernel, 9007199254740991 / 9007199254740992, by norm_num, by norm_num, by unfold IsFloat; decide +kernel, fun xmin xmax => ?_⟩
  have e : (flIrrCumul double exGrid (flScale double exSum3 [3, 5, 4])).zip exGrid = [(0, -2476979795053773 / 2251799813685248), (215461301390893 / 281474976710656, 8106479329266893 / 2251799813685248), (4503599627370495 / 4503599627370496, 3039929748475085 / 562949953421312)] := by decide +kernel
  rw [flIrrPpf, e]
  unfold flInterp
  simp only
  rw [if_neg (by norm_num), if_pos (by simp only [List.getLast_cons_cons, List.getLast_singleton]; norm_num)]

/-- the hypotheses of the theorems hold for the rows above -/
example : ∃ w x, exPpf (1 / 3) = some w ∧ |w - x| ≤ 2 / 10 ^ 15 ∧ (∃ e ∈ exBins, e ≤ x) ∧ (∃ e ∈ exBins, x ≤ e) ∧
    Rel (1 / 2 ^ 53) 7 (massUpTo exBins [3, 3] x / totalMass exBins [3, 3]) (1 / 3) := by
  obtain ⟨w, x, hw, hb, h⟩ := C138_hist_partial C120_double (by norm_num) exInput (3 / 2) (3 / 2) (by decide +kernel)
    (.cons_cons (by decide +kernel) (.cons_cons (by decide +kernel) (.singleton _))) (1 / 3) (by norm_num) (by norm_num)
  exact ⟨w, x, hw, hb.trans (by norm_num), h⟩

example : ∃ p w, irrNormRow exGrid [3, 5, 4] = some p ∧ flIrrPpf double (-2) 10 exGrid (flIrrCumul double exGrid (flScale double exSum3 [3, 5, 4])) (1 / 2) = some w ∧
      ((w = 10 ∧ Rel (1 / 2 ^ 53 : ℚ) 32 1 (1 / 2)) ∨
       ∃ x v, |w - x| ≤ 1 / 2 ^ 53 * 6 + 6 * (1 / 2 ^ 53) / (1 - 6 * (1 / 2 ^ 53)) * 5 ∧ (∃ e ∈ exGrid, e ≤ x) ∧ (∃ e ∈ exGrid, x ≤ e) ∧
        irrCdf exGrid p x = some v ∧ Rel (1 / 2 ^ 53) 32 v (1 / 2)) :=
  C138_irregular_partial C120_double (by norm_num) exInput3 exSum3 exFlSum3 6 5 (by decide +kernel)
    (.cons_cons (by decide +kernel) (.cons_cons (by decide +kernel) (.singleton _))) (-2) 10 (1 / 2) (by norm_num) (by norm_num)

example : ∃ p c w, interpNormRow RoundingInterp.exGrid [1, 0] = .ok (some (p, c)) ∧
    flGridPpf double RoundingInterp.exGrid (flScale double (1463669878895411 / 2251799813685248) (flInterpCumul double RoundingInterp.exGrid [1, 0])) (3 / 4) = some w ∧
      ((RoundingInterp.exGrid.head? = some w ∧ ∃ d, (flScale double (1463669878895411 / 2251799813685248) (flInterpCumul double RoundingInterp.exGrid [1, 0])).head? = some d ∧ 3 / 4 < d) ∨
       ∃ x v, |w - x| ≤ 1 / 2 ^ 53 * 1 + 6 * (1 / 2 ^ 53) / (1 - 6 * (1 / 2 ^ 53)) * 2 ∧ (∃ e ∈ RoundingInterp.exGrid, e ≤ x) ∧ (∃ e ∈ RoundingInterp.exGrid, x ≤ e) ∧
        interpCdf RoundingInterp.exGrid c x = some v ∧ Rel (1 / 2 ^ 53) 9 v (3 / 4)) :=
  C138_interp C120_double (by norm_num) RoundingInterp.exInput _ (by decide +kernel) 1 2 (by decide +kernel)
    (.cons_cons (by decide +kernel) (.singleton _)) (3 / 4) (by norm_num)

end Verif.Props.RoundingPpf
