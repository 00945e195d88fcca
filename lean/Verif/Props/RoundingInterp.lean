import Verif.Props.Rounding
import Verif.Props.InterpPdf

/-!
# C121: interpolated PDFs in floating-point numbers
-/

set_option linter.unusedSectionVars false
set_option autoImplicit false

namespace Verif.Props.RoundingInterp

open Verif Verif.Np Verif.Model Verif.Spec Verif.Lemmas.Rounding Verif.Lemmas.RoundDigits Verif.Props.InterpPdf
open Verif.Props.Rounding (C120_double rel_forall₂_nonneg)

variable {K : Type} [Field K] [LinearOrder K] [IsStrictOrderedRing K] {fl : K → K} {u : K}

/-- the grid and the ordinates that the user gives -/
structure InterpInput (fl : K → K) (xs ys : List K) : Prop where
  grid : XGrid xs ys.length
  nonneg : ∀ v ∈ ys, 0 ≤ v
  float : ∀ v ∈ ys, IsFloat fl v
  mass : 0 < area xs ys

theorem two_list {α : Type*} {l : List α} (h : 2 ≤ l.length) : ∃ a b t, l = a :: b :: t := by
  match l, h with
  | a :: b :: t, _ => exact ⟨a, b, t, rfl⟩

theorem trapezoids_rel (h : Rounding fl u) (xs : List K) : ∀ (ys : List K), xs.Pairwise (· < ·) → (∀ v ∈ ys, 0 ≤ v) →
    List.Forall₂ (Rel u 4) (trapezoids xs ys) (flTrapezoids fl xs ys) := by
  induction xs with
  | nil => intro ys _ _; simp [trapezoids, flTrapezoids]
  | cons a xs ih =>
    intro ys hs hy
    match xs, ys, ih with
    | [], ys, _ => simp [trapezoids, flTrapezoids]
    | b :: xs, [], _ => simp [trapezoids, flTrapezoids]
    | b :: xs, [_], _ => simp [trapezoids, flTrapezoids]
    | b :: xs, p :: q :: ys, ih =>
      have hs' := List.pairwise_cons.1 hs
      simp only [trapezoids, flTrapezoids]
      refine .cons ?_ (ih (q :: ys) hs'.2 fun v hv => hy v (List.mem_cons_of_mem _ hv))
      have h1 := rel_fl h (sub_pos.2 (hs'.1 b (by simp))).le
      have h2 := rel_step h (rel_mul h h1 (rel_refl (u := u) (by norm_num : (0 : K) ≤ 1 / 2)))
      have h3 := rel_fl h (add_nonneg (hy q (by simp)) (hy p (by simp)))
      exact rel_step h (rel_mul h h2 h3)

theorem flTrapezoids_float (h : Rounding fl u) (xs : List K) : ∀ (ys : List K), ∀ v ∈ flTrapezoids fl xs ys, IsFloat fl v := by
  induction xs with
  | nil => intro ys v hv; simp [flTrapezoids] at hv
  | cons a xs ih =>
    intro ys v hv
    match xs, ys, ih with
    | [], ys, _ => simp [flTrapezoids] at hv
    | b :: xs, [], _ => simp [flTrapezoids] at hv
    | b :: xs, [_], _ => simp [flTrapezoids] at hv
    | b :: xs, p :: q :: ys, ih =>
      simp only [flTrapezoids, List.mem_cons] at hv
      rcases hv with rfl | hv
      · exact h.idem _
      · exact ih _ v hv

/-- the cumulated values before the normalisation -/
theorem cumul_rel (h : Rounding fl u) {xs ys : List K} (hi : InterpInput fl xs ys) :
    ∃ c, interpCumul xs ys = .ok c ∧ List.Forall₂ (Rel u (ys.length + 2)) c (flInterpCumul fl xs ys) := by
  have h2 := hi.grid.two
  have hs := hi.grid.size
  have hst := hi.grid.strict
  obtain ⟨a, b, t, rfl⟩ := two_list (l := xs) (by omega)
  obtain ⟨p, q, r, rfl⟩ := two_list h2
  refine ⟨_, rfl, ?_⟩
  unfold flInterpCumul
  simp only
  have hab : 0 ≤ b - a := (sub_pos.2 ((List.pairwise_cons.1 hst).1 b (by simp))).le
  have h1 := rel_fl h (x := 1 / 2 * p) (mul_nonneg (by norm_num) (hi.nonneg p (by simp)))
  have h3 := rel_step h (rel_mul h h1 (rel_fl h hab))
  refine .cons (rel_mono h (by simp) h3) ?_
  have ht := flCumsum_rel h _ _ (trapezoids_rel h (a :: b :: t) (p :: q :: r) hst hi.nonneg)
  rw [Verif.Lemmas.InterpPdf.length_trapezoids _ _ hs, hs] at ht
  exact rel_forall₂_mono h (by simp; omega) ht

/-- the cumulated values are representable and do not decrease -/
theorem cumul_mono (h : Rounding fl u) {xs ys : List K} (hi : InterpInput fl xs ys) :
    (flInterpCumul fl xs ys).Pairwise (· ≤ ·) ∧ ∀ c ∈ flInterpCumul fl xs ys, 0 ≤ c ∧ IsFloat fl c := by
  have h2 := hi.grid.two
  have hs := hi.grid.size
  have hst := hi.grid.strict
  obtain ⟨a, b, t, rfl⟩ := two_list (l := xs) (by omega)
  obtain ⟨p, q, r, rfl⟩ := two_list h2
  have hp0 := hi.nonneg p (by simp)
  have hq0 := hi.nonneg q (by simp)
  have hpf : fl p = p := hi.float p (by simp)
  have hab : 0 ≤ b - a := (sub_pos.2 ((List.pairwise_cons.1 hst).1 b (by simp))).le
  have hfab : 0 ≤ fl (b - a) := Rel.nonneg' h (rel_fl h hab)
  have hT : ∀ v ∈ flTrapezoids fl (a :: b :: t) (p :: q :: r), 0 ≤ v ∧ IsFloat fl v := fun v hv =>
    ⟨rel_forall₂_nonneg h (trapezoids_rel h (a :: b :: t) (p :: q :: r) hst hi.nonneg) v hv, flTrapezoids_float h _ _ v hv⟩
  have hfirst : fl (fl (1 / 2 * p) * fl (b - a)) ≤ fl (fl (fl (b - a) * (1 / 2)) * fl (q + p)) := by
    have e1 : fl (1 / 2 * p) = p / 2 := by rw [one_div, inv_mul_eq_div, h.half, hpf]
    have e2 : fl (fl (b - a) * (1 / 2)) = fl (b - a) / 2 := by rw [mul_one_div, h.half, h.idem]
    have e3 : p ≤ fl (q + p) := by
      have := h.mono p (q + p) (by linarith)
      rwa [hpf] at this
    rw [e1, e2]
    refine h.mono _ _ ?_
    have := mul_le_mul_of_nonneg_left e3 hfab
    linarith
  have hcs := flCumsum_mono h _ hT
  have hcf := flCumsum_float h _ hT
  unfold flInterpCumul
  simp only
  constructor
  · rw [List.pairwise_cons]
    refine ⟨fun c hc => ?_, hcs⟩
    refine hfirst.trans ?_
    simp only [flTrapezoids, flCumsum] at hc hcs
    rcases List.mem_cons.1 hc with rfl | hc
    · exact le_refl _
    · exact (List.pairwise_cons.1 hcs).1 c hc
  · intro c hc
    rcases List.mem_cons.1 hc with rfl | hc
    · refine ⟨Rel.nonneg' h (rel_fl h (mul_nonneg (Rel.nonneg' h (rel_fl h ?_)) hfab)), h.idem _⟩
      exact mul_nonneg (by norm_num) hp0
    · exact hcf c hc

theorem forall₂_getLast {R : K → K → Prop} {l m : List K} (h : List.Forall₂ R l m) {x : K} (hx : l.getLast? = some x) :
    ∃ y, m.getLast? = some y ∧ R x y := by
  induction h with
  | nil => simp at hx
  | @cons a b l m hab hlm ih =>
    cases hlm with
    | nil => simp at hx; exact ⟨b, by simp, hx ▸ hab⟩
    | cons h1 h2 =>
      rw [List.getLast?_cons_cons] at hx
      obtain ⟨y, hy, hr⟩ := ih hx
      exact ⟨y, by rw [List.getLast?_cons_cons]; exact hy, hr⟩

theorem area_rel (h : Rounding fl u) {k : ℕ} (xs : List K) : ∀ (ys zs : List K), xs.Pairwise (· < ·) → List.Forall₂ (Rel u k) ys zs →
    Rel u k (area xs ys) (area xs zs) := by
  have h0 : Rel u k (0 : K) 0 := rel_mono h (Nat.zero_le k) rel_zero
  induction xs with
  | nil => intro ys zs _ _; simpa [area] using h0
  | cons a xs ih =>
    intro ys zs hs hr
    cases hr with
    | nil => simpa [area] using h0
    | cons hpp hr =>
      match xs, ih with
      | [], _ => simpa [area] using h0
      | b :: xs, ih =>
        cases hr with
        | nil => simpa [area] using h0
        | cons hqq hr =>
          have hs' := List.pairwise_cons.1 hs
          have hab : 0 ≤ (b - a) / 2 := by have := hs'.1 b (by simp); linarith
          simp only [area]
          refine rel_add ?_ (ih _ _ hs'.2 (.cons hqq hr))
          have h1 := rel_mul h (rel_refl (u := u) hab) (rel_add hpp hqq)
          rw [zero_add] at h1
          rwa [div_mul_eq_mul_div, div_mul_eq_mul_div] at h1

/-- the value that `ycumul[-1]` has, and what is left after dividing by it -/
theorem last_rel (h : Rounding fl u) {xs ys : List K} (hi : InterpInput fl xs ys) :
    ∃ s, (flInterpCumul fl xs ys).getLast? = some s ∧ Rel u (ys.length + 2) (area xs ys) s ∧
      ∃ c, interpNormRow xs ys = .ok (some (ys.map (· / area xs ys), c.map (· / area xs ys))) ∧
        List.Forall₂ (Rel u (ys.length + 2)) c (flInterpCumul fl xs ys) := by
  obtain ⟨c, hc, hr⟩ := cumul_rel h hi
  have h12 := (C12_interp_normalises xs ys hi.grid).2 hi.mass.ne'
  have hlast : c.getLast? = some (area xs ys) := by
    have h2 := hi.grid.two
    have hs := hi.grid.size
    obtain ⟨a, b, t, rfl⟩ := two_list (l := xs) (by omega)
    obtain ⟨p, q, r, rfl⟩ := two_list h2
    simp only [interpCumul, Except.ok.injEq] at hc
    rw [← hc]
    have hne : trapezoids (a :: b :: t) (p :: q :: r) ≠ [] := by simp [trapezoids]
    have := Verif.Lemmas.InterpPdf.cumsumFrom_last 0 _ hne
    unfold cumsum
    rw [List.getLast?_cons, this, zero_add, Verif.Lemmas.InterpPdf.sum_trapezoids]; rfl
  obtain ⟨s, hs, hrs⟩ := forall₂_getLast hr hlast
  refine ⟨s, hs, hrs, c, ?_, hr⟩
  unfold interpNormRow
  rw [hc]
  simp only [hlast, if_neg hi.mass.ne']

theorem forall₂_div (h : Rounding fl u) {k l : ℕ} {t s : K} (hs : Rel u l t s) {p q : List K} (hr : List.Forall₂ (Rel u k) p q) :
    List.Forall₂ (Rel u (k + l + 1)) (p.map (· / t)) (flScale fl s q) := by
  induction hr with
  | nil => exact .nil
  | cons hab _ ih => exact .cons (rel_step h (rel_div h hab hs)) ih

/-- **C121: what the constructor stores.** The row is divided by a positive number `s`. The stored ordinates are representable, not
negative and within `n + 3` roundings of the normalised ones, and so is the exact area below them from 1. The stored cumulated values
never decrease, lie between 0 and 1, and the last one is exactly 1. -/
theorem C121_interp_stored (h : Rounding fl u) {xs ys : List K} (hi : InterpInput fl xs ys) :
    ∃ s, (flInterpCumul fl xs ys).getLast? = some s ∧ 0 < s ∧
      (∀ v ∈ flScale fl s ys, 0 ≤ v ∧ IsFloat fl v) ∧
      List.Forall₂ (Rel u (ys.length + 3)) (ys.map (· / area xs ys)) (flScale fl s ys) ∧
      Rel u (ys.length + 3) 1 (area xs (flScale fl s ys)) ∧
      (flScale fl s (flInterpCumul fl xs ys)).Pairwise (· ≤ ·) ∧
      (∀ v ∈ flScale fl s (flInterpCumul fl xs ys), 0 ≤ v ∧ v ≤ 1) ∧
      (flScale fl s (flInterpCumul fl xs ys)).getLast? = some 1 := by
  obtain ⟨s, hs, hr, c, _, hc⟩ := last_rel h hi
  obtain ⟨hmono, hfl⟩ := cumul_mono h hi
  have hpos : 0 < s := rel_pos h hr hi.mass
  have hsr : List.Forall₂ (Rel u (ys.length + 3)) (ys.map (· / area xs ys)) (flScale fl s ys) := by
    have := forall₂_div h hr (Verif.Props.Rounding.rel_refl_list (u := u) hi.nonneg)
    rwa [zero_add] at this
  have hle : ∀ v ∈ flInterpCumul fl xs ys, v ≤ s := by
    intro v hv
    have hne : flInterpCumul fl xs ys ≠ [] := List.ne_nil_of_mem hv
    rw [List.getLast?_eq_getLast_of_ne_nil hne, Option.some.injEq] at hs
    rw [← List.dropLast_append_getLast hne] at hmono hv
    rcases List.mem_append.1 hv with hv | hv
    · exact hs ▸ (List.pairwise_append.1 hmono).2.2 v hv _ (by simp)
    · exact hs ▸ le_of_eq (by simpa using hv)
  refine ⟨s, hs, hpos, fun v hv => ⟨rel_forall₂_nonneg h hsr v hv, ?_⟩, hsr, ?_, ?_, ?_, ?_⟩
  · obtain ⟨a, _, rfl⟩ := List.mem_map.1 hv
    exact h.idem _
  · have := area_rel h xs _ _ hi.grid.strict hsr
    rwa [Verif.Lemmas.InterpPdf.area_div, div_self hi.mass.ne'] at this
  · exact List.pairwise_map.2 (hmono.imp fun {p q} hpq => h.mono _ _ (div_le_div_of_nonneg_right hpq hpos.le))
  · intro v hv
    obtain ⟨a, ha, rfl⟩ := List.mem_map.1 hv
    refine ⟨Rel.nonneg' h (rel_fl h (div_nonneg (hfl a ha).1 hpos.le)), ?_⟩
    have := h.mono (a / s) 1 ((div_le_one hpos).2 (hle a ha))
    rwa [h.one] at this
  · unfold flScale
    rw [List.getLast?_map, hs, Option.map_some, div_self hpos.ne', h.one]

/-- **C121: the CDF** in floating-point numbers is, at every point, within `2 n + 11` roundings of the CDF in exact numbers (which is the
subject of C13). -/
theorem C121_interp_cdf (h : Rounding fl u) {xs ys : List K} (hi : InterpInput fl xs ys) (s : K) (hs : (flInterpCumul fl xs ys).getLast? = some s) :
    ∃ p c, interpNormRow xs ys = .ok (some (p, c)) ∧ ∀ x, ∃ v w, interpCdf xs c x = some v ∧
      flInterpCdf fl xs (flScale fl s (flInterpCumul fl xs ys)) x = some w ∧ Rel u (2 * ys.length + 11) v w := by
  obtain ⟨s', hs', hr, c, hn, hc⟩ := last_rel h hi
  obtain ⟨s'', hs'', _, _, _, _, hm, _⟩ := C121_interp_stored h hi
  rw [hs] at hs' hs''
  cases hs'
  cases hs''
  refine ⟨_, _, hn, fun x => ?_⟩
  have hd := forall₂_div h hr hc
  have hv : ∃ v, interpCdf xs (c.map (· / area xs ys)) x = some v := by
    have h13 := C13_cdf_shape xs (ys.map (· / area xs ys)) (c.map (· / area xs ys)) ⟨ys, hi.grid, hn⟩ (by
      intro v hv
      obtain ⟨a, ha, rfl⟩ := List.mem_map.1 hv
      exact div_nonneg (hi.nonneg a ha) hi.mass.le)
    obtain ⟨p, _, hp, _⟩ := h13.2.2 x x le_rfl
    exact ⟨p, hp⟩
  obtain ⟨v, hv⟩ := hv
  obtain ⟨w, hw, hrel⟩ := flInterp_rel h (le_refl 0) zero_le_one hd hm x v hv
  refine ⟨v, w, hv, hw, rel_mono h (by omega) hrel⟩

/-! ## the PDF -/

theorem rel_abs (h : Rounding fl u) {k : ℕ} {x y : K} (r : Rel u k x y) (hk : k * u < 1) : |y - x| ≤ k * u / (1 - k * u) * x := by
  obtain ⟨h1, h2⟩ := rel_bounds h r hk
  have hp : 0 < 1 - k * u := by linarith
  have hk0 : 0 ≤ k * u := mul_nonneg (Nat.cast_nonneg k) h.nonneg
  have e : x / (1 - k * u) = x + k * u / (1 - k * u) * x := by field_simp; ring
  have h3 : k * u ≤ k * u / (1 - k * u) := by rw [le_div_iff₀ hp]; nlinarith
  rw [abs_le]
  constructor
  · nlinarith [mul_le_mul_of_nonneg_right h3 r.nonneg]
  · linarith

/-- rounding a negative number -/
theorem rel_fl_neg (h : Rounding fl u) {x : K} (hx : 0 ≤ x) : Rel u 1 x (-fl (-x)) := by
  have he := abs_le.1 (h.err (-x))
  rw [abs_neg, abs_of_nonneg hx] at he
  refine ⟨by rw [pow_one]; linarith, ?_, hx⟩
  rw [pow_one]
  have h1 : -fl (-x) ≤ (1 + u) * x := by linarith
  have h2 : (1 - u) * (-fl (-x)) ≤ (1 - u) * ((1 + u) * x) := mul_le_mul_of_nonneg_left h1 (one_sub_pos h).le
  have h3 : (1 - u) * ((1 + u) * x) = x - u * u * x := by ring
  have h4 : 0 ≤ u * u * x := mul_nonneg (mul_self_nonneg u) hx
  linarith

theorem line_le_max {x0 x1 x y0 y1 M : K} (h0 : x0 ≤ x) (h1 : x < x1) (hy0 : y0 ≤ M) (hy1 : y1 ≤ M) : line x0 y0 x1 y1 x ≤ M := by
  have hd : 0 < x1 - x0 := by linarith
  have e : line x0 y0 x1 y1 x = (x1 - x) / (x1 - x0) * y0 + (x - x0) / (x1 - x0) * y1 := by unfold line; field_simp; ring
  have ha : 0 ≤ (x1 - x) / (x1 - x0) := div_nonneg (by linarith) hd.le
  have hb : 0 ≤ (x - x0) / (x1 - x0) := div_nonneg (by linarith) hd.le
  have hs : (x1 - x) / (x1 - x0) * M + (x - x0) / (x1 - x0) * M = M := by field_simp; ring
  rw [e, ← hs]
  exact add_le_add (mul_le_mul_of_nonneg_left hy0 ha) (mul_le_mul_of_nonneg_left hy1 hb)

/-- a straight piece in floating-point numbers -/
theorem flLine_abs (h : Rounding fl u) (h6 : 6 * u < 1) {x0 x1 x y0 y1 M : K} (hy0 : 0 ≤ y0) (hy1 : 0 ≤ y1) (hM0 : y0 ≤ M) (hM1 : y1 ≤ M)
    (h0 : x0 ≤ x) (h1 : x < x1) : |flLine fl x0 y0 x1 y1 x - line x0 y0 x1 y1 x| ≤ 6 * u / (1 - 6 * u) * M := by
  have hu := h.nonneg
  have hp6 : 0 < 1 - 6 * u := by linarith
  have hg : 0 ≤ 6 * u / (1 - 6 * u) := div_nonneg (by linarith) hp6.le
  have hM : 0 ≤ M := hy0.trans hM0
  rcases le_total y0 y1 with hy | hy
  · have hr := rel_abs h (flLine_rel h hy0 hy h0 h1) (by exact_mod_cast h6)
    have hl := line_le_max h0 h1 hM0 hM1
    push_cast at hr
    exact hr.trans (mul_le_mul_of_nonneg_left hl hg)
  · have hd : 0 < x1 - x0 := by linarith
    set A := -fl (-(y0 - y1)) with hA
    set F := fl (x1 - x0) with hF
    set G := fl (x - x0) with hG
    set B1 := -fl (-(A / F)) with hB1
    set b := -fl (-(B1 * G)) with hb
    have rA : Rel u 1 (y0 - y1) A := rel_fl_neg h (by linarith)
    have rF : Rel u 1 (x1 - x0) F := rel_fl h hd.le
    have rG : Rel u 1 (x - x0) G := rel_fl h (by linarith)
    have r2 := rel_div h rA rF
    have r3 := rel_trans h r2 (rel_fl_neg h (Rel.nonneg' h r2))
    have r4 := rel_mul h r3 rG
    have r5 : Rel u 5 ((y0 - y1) / (x1 - x0) * (x - x0)) b := rel_trans h r4 (rel_fl_neg h (Rel.nonneg' h r4))
    have e1 : fl (y1 - y0) = -A := by rw [hA, neg_neg, neg_sub]
    have e2 : fl (-A / F) = -B1 := by rw [neg_div]; exact (neg_neg _).symm
    have e3 : fl (-B1 * G) = -b := by rw [neg_mul]; exact (neg_neg _).symm
    have efl : flLine fl x0 y0 x1 y1 x = fl (y0 - b) := by
      unfold flLine
      rw [e1, ← hF, e2, ← hG, e3]
      congr 1
      ring
    have el : line x0 y0 x1 y1 x = y0 - (y0 - y1) / (x1 - x0) * (x - x0) := by unfold line; ring
    have h5 : (5 : K) * u < 1 := by linarith
    have ra := rel_abs h r5 (by exact_mod_cast h5)
    push_cast at ra
    have hp5 : 0 < 1 - 5 * u := by linarith
    set B := (y0 - y1) / (x1 - x0) * (x - x0) with hBdef
    have hB0 : 0 ≤ B := r5.nonneg
    have hBM : B ≤ y0 := by
      have h2 : (x - x0) / (x1 - x0) ≤ 1 := (div_le_one hd).2 (by linarith)
      have h3 : B = (y0 - y1) * ((x - x0) / (x1 - x0)) := by rw [hBdef]; ring
      rw [h3]
      have := mul_le_mul_of_nonneg_left h2 (show 0 ≤ y0 - y1 by linarith)
      linarith
    have he := h.err (y0 - b)
    have hb0 : 0 ≤ b := Rel.nonneg' h r5
    have hg5 : 0 ≤ 5 * u / (1 - 5 * u) := div_nonneg (by linarith) hp5.le
    have hbB : |b - B| ≤ 5 * u / (1 - 5 * u) * M := ra.trans (mul_le_mul_of_nonneg_left (hBM.trans hM0) hg5)
    have hyb : |y0 - b| ≤ (1 + 5 * u / (1 - 5 * u)) * M := by
      have h2 : |y0 - b| ≤ |y0 - B| + |b - B| := by
        rw [show y0 - b = (y0 - B) - (b - B) by ring]
        exact abs_sub _ _
      have h3 : |y0 - B| ≤ M := by rw [abs_of_nonneg (by linarith)]; linarith
      linarith
    rw [efl, el]
    have h2 : |fl (y0 - b) - (y0 - B)| ≤ |fl (y0 - b) - (y0 - b)| + |b - B| := by
      rw [show fl (y0 - b) - (y0 - B) = (fl (y0 - b) - (y0 - b)) - (b - B) by ring]
      exact abs_sub _ _
    have h3 : u * |y0 - b| ≤ u * ((1 + 5 * u / (1 - 5 * u)) * M) := mul_le_mul_of_nonneg_left hyb hu
    have h4 : u * ((1 + 5 * u / (1 - 5 * u)) * M) + 5 * u / (1 - 5 * u) * M = 6 * u / (1 - 5 * u) * M := by
      have hn : (1 - 5 * u) ≠ 0 := hp5.ne'
      have e : 1 + 5 * u / (1 - 5 * u) = 1 / (1 - 5 * u) := by rw [eq_div_iff hn, add_mul, div_mul_cancel₀ _ hn]; ring
      rw [e]
      ring
    have h7 : 6 * u / (1 - 5 * u) ≤ 6 * u / (1 - 6 * u) := div_le_div_of_nonneg_left (by linarith) hp6 (by linarith)
    have h8 := mul_le_mul_of_nonneg_right h7 hM
    linarith

theorem go_le {x Y : K} (t : List (K × K)) : ∀ x0 y0 : K, x0 ≤ x → (∀ p ∈ (x0, y0) :: t, p.2 ≤ Y) → npInterpGo x0 y0 t x ≤ Y := by
  induction t with
  | nil => intro x0 y0 _ hY; exact hY (x0, y0) (by simp)
  | cons p t ih =>
    intro x0 y0 h0 hY
    obtain ⟨x1, y1⟩ := p
    rw [npInterpGo_cons]
    split
    · next h1 => exact ih x1 y1 h1 fun q hq => hY q (List.mem_cons_of_mem _ hq)
    · next h1 => exact line_le_max h0 (not_le.1 h1) (hY (x0, y0) (by simp)) (hY (x1, y1) (by simp))

theorem go_abs (h : Rounding fl u) (h6 : 6 * u < 1) {x M : K} (t : List (K × K)) : ∀ x0 y0 : K, x0 ≤ x →
    (∀ p ∈ (x0, y0) :: t, 0 ≤ p.2 ∧ p.2 ≤ M) → |flInterpGo fl x0 y0 t x - npInterpGo x0 y0 t x| ≤ 6 * u / (1 - 6 * u) * M := by
  have hu := h.nonneg
  have hg : 0 ≤ 6 * u / (1 - 6 * u) := div_nonneg (by linarith) (by linarith)
  induction t with
  | nil =>
    intro x0 y0 _ hM
    obtain ⟨h1, h2⟩ := hM (x0, y0) (by simp)
    simp only [flInterpGo, npInterpGo, sub_self, abs_zero]
    exact mul_nonneg hg (h1.trans h2)
  | cons p t ih =>
    intro x0 y0 h0 hM
    obtain ⟨x1, y1⟩ := p
    obtain ⟨h1, h2⟩ := hM (x0, y0) (by simp)
    obtain ⟨h3, h4⟩ := hM (x1, y1) (by simp)
    simp only [flInterpGo, npInterpGo]
    split
    · next h5 => exact ih x1 y1 h5 fun q hq => hM q (List.mem_cons_of_mem _ hq)
    · next h5 =>
      split
      · rw [sub_self, abs_zero]
        exact mul_nonneg hg (h1.trans h2)
      · exact flLine_abs h h6 h1 h3 h2 h4 h0 (not_le.1 h5)

/-- the curve through stored ordinates that are off by `k` roundings, read with rounding -/
theorem pdf_abs (h : Rounding fl u) {k : ℕ} {xs P Q : List K} (hsr : List.Forall₂ (Rel u k) P Q) (hne : xs.zip P ≠ [])
    (hu : ((k + 6 : ℕ) : K) * u < 1) (Y : K) (hY : ∀ v ∈ P, v ≤ Y) (x : K) :
    ∃ v w, interpPdf xs P x = some v ∧ flInterpPdf fl xs Q x = some w ∧
      |w - v| ≤ ((k + 6 : ℕ) : K) * u / (1 - ((k + 6 : ℕ) : K) * u) * Y := by
  have hu0 := h.nonneg
  have hku : (k : K) * u + 6 * u < 1 := by
    have : ((k + 6 : ℕ) : K) * u = (k : K) * u + 6 * u := by push_cast; ring
    rwa [this] at hu
  have hk0 : 0 ≤ (k : K) * u := mul_nonneg (Nat.cast_nonneg k) hu0
  have hY0 : 0 ≤ Y := by
    cases hsr with
    | nil => simp at hne
    | cons r _ => exact r.nonneg.trans (hY _ (by simp))
  have hga : 0 ≤ ((k + 6 : ℕ) : K) * u / (1 - ((k + 6 : ℕ) : K) * u) * Y :=
    mul_nonneg (div_nonneg (mul_nonneg (Nat.cast_nonneg _) hu0) (by linarith)) hY0
  have hstored : ∀ w ∈ Q, 0 ≤ w ∧ w ≤ Y / (1 - k * u) := by
    intro w hw
    refine ⟨rel_forall₂_nonneg h hsr w hw, ?_⟩
    obtain ⟨i, hi', rfl⟩ := List.mem_iff_getElem.1 hw
    have hri := List.forall₂_iff_get.1 hsr
    have hr := hri.2 i (by rw [hri.1]; exact hi') hi'
    have hb := (rel_bounds h hr (by linarith)).2
    refine hb.trans (div_le_div_of_nonneg_right ?_ (by linarith))
    exact hY _ (List.get_mem _ _)
  have hf := rel_zip hsr xs
  have hnn : ∀ p ∈ xs.zip Q, 0 ≤ p.2 ∧ p.2 ≤ Y / (1 - k * u) := fun p hp => hstored p.2 (List.of_mem_zip hp).2
  have hYz : ∀ p ∈ xs.zip P, p.2 ≤ Y := fun p hp => hY p.2 (List.of_mem_zip hp).2
  unfold interpPdf flInterpPdf
  generalize xs.zip P = A at hf hYz hne
  generalize xs.zip Q = B at hf hnn
  cases hf with
  | nil => exact absurd rfl hne
  | @cons p q t t' hpq ht =>
    obtain ⟨p1, p2⟩ := p
    obtain ⟨q1, q2⟩ := q
    obtain ⟨he, hpr⟩ := hpq
    simp only at he hpr
    subst he
    have hl := getLast_fst (List.Forall₂.cons ⟨rfl, hpr⟩ ht : List.Forall₂ (fun p q : K × K => p.1 = q.1 ∧ Rel u k p.2 q.2) ((p1, p2) :: t) ((p1, q2) :: t'))
    unfold interp flInterp
    simp only
    rw [hl]
    by_cases hx : x < p1
    · rw [if_pos hx, if_pos hx]
      exact ⟨0, 0, rfl, rfl, by simpa using hga⟩
    · rw [if_neg hx, if_neg hx]
      by_cases hx2 : (((p1, q2) :: t').getLast (by simp)).1 < x
      · rw [if_pos hx2, if_pos hx2]
        exact ⟨0, 0, rfl, rfl, by simpa using hga⟩
      · rw [if_neg hx2, if_neg hx2]
        refine ⟨_, _, rfl, rfl, ?_⟩
        have r1 := rel_interpGo t t' ht p1 p2 q2 hpr (not_lt.1 hx)
        have a1 := rel_abs h r1 (by linarith)
        have a2 := go_abs h (by linarith) t' p1 q2 (not_lt.1 hx) hnn
        have a3 := go_le t p1 p2 (not_lt.1 hx) hYz
        have hp1 : 0 < 1 - k * u := by linarith
        have hp2 : 0 < 1 - 6 * u := by linarith
        have a4 : |npInterpGo p1 q2 t' x - npInterpGo p1 p2 t x| ≤ k * u / (1 - k * u) * Y :=
          a1.trans (mul_le_mul_of_nonneg_left a3 (div_nonneg hk0 hp1.le))
        have a5 : |flInterpGo fl p1 q2 t' x - npInterpGo p1 p2 t x| ≤ 6 * u / (1 - 6 * u) * (Y / (1 - k * u)) + k * u / (1 - k * u) * Y := by
          rw [show flInterpGo fl p1 q2 t' x - npInterpGo p1 p2 t x =
            (flInterpGo fl p1 q2 t' x - npInterpGo p1 q2 t' x) + (npInterpGo p1 q2 t' x - npInterpGo p1 p2 t x) by ring]
          exact (abs_add_le _ _).trans (add_le_add a2 a4)
        refine a5.trans ?_
        have e1 : ((k + 6 : ℕ) : K) * u = k * u + 6 * u := by push_cast; ring
        rw [e1]
        have e2 : 6 * u / (1 - 6 * u) * (Y / (1 - k * u)) + k * u / (1 - k * u) * Y =
            (6 * u + k * u * (1 - 6 * u)) / ((1 - 6 * u) * (1 - k * u)) * Y := by field_simp
        rw [e2]
        refine mul_le_mul_of_nonneg_right ?_ hY0
        rw [div_le_div_iff₀ (mul_pos hp2 hp1) (by linarith)]
        have e3 : 0 ≤ 6 * u * (k * u) := mul_nonneg (by linarith) hk0
        nlinarith

/-- **C121: the PDF** in floating-point numbers differs, at every point, from the PDF in exact numbers by at most `(n + 9) u / (1 - (n + 9) u)`
times the height `Y` of the curve. -/
theorem C121_interp_pdf (h : Rounding fl u) {xs ys : List K} (hi : InterpInput fl xs ys) (s : K) (hs : (flInterpCumul fl xs ys).getLast? = some s)
    (hu : ((ys.length + 9 : ℕ) : K) * u < 1) (Y : K) (hY : ∀ v ∈ ys.map (· / area xs ys), v ≤ Y) (x : K) :
    ∃ v w, interpPdf xs (ys.map (· / area xs ys)) x = some v ∧ flInterpPdf fl xs (flScale fl s ys) x = some w ∧
      |w - v| ≤ ((ys.length + 9 : ℕ) : K) * u / (1 - ((ys.length + 9 : ℕ) : K) * u) * Y := by
  obtain ⟨s', hs', hpos, hst, hsr, _⟩ := C121_interp_stored h hi
  rw [hs] at hs'
  cases hs'
  have h2 := hi.grid.two
  refine pdf_abs h hsr ?_ hu Y hY x
  have := hi.grid.size
  obtain ⟨a, b, t, e⟩ := two_list h2
  obtain ⟨a', b', t', e'⟩ := two_list (l := xs) (by omega)
  rw [e, e']; simp

/-! ## doubles -/

/-- grid `-0.7, 0.6`, ordinates `1, 0` -/
def exGrid : List ℚ := [-3152519739159347 / 4503599627370496, 5404319552844595 / 9007199254740992]

theorem exInput : InterpInput double exGrid [1, 0] where
  grid := ⟨by decide +kernel, rfl, by decide⟩
  nonneg := by decide +kernel
  float := by unfold IsFloat; decide +kernel
  mass := by decide +kernel

/-- **C121 is violated for doubles: the PDF becomes negative.** `interp` on the grid `-0.7, 0.6` with ordinates `1, 0`: at a double
just below 0.6 the PDF is negative, although all ordinates are positive or zero. -/
theorem C121_pdf_negative : InterpInput double exGrid [1, 0] ∧
    ∃ s x w : ℚ, (flInterpCumul double exGrid [1, 0]).getLast? = some s ∧ IsFloat double x ∧
      flInterpPdf double exGrid (flScale double s [1, 0]) x = some w ∧ w < 0 := by
  refine ⟨exInput, 1463669878895411 / 2251799813685248, 2702159776422297 / 4503599627370496, -1 / 4503599627370496, ?_⟩
  unfold IsFloat
  decide +kernel

/-! ## irregular grids -/

theorem rightRects_mono (h : Rounding fl u) (xs : List K) : ∀ ys : List K, xs.Pairwise (· < ·) → (∀ v ∈ ys, 0 ≤ v) →
    ∀ r ∈ flRightRects fl xs ys, 0 ≤ r ∧ IsFloat fl r := by
  induction xs with
  | nil => intro ys _ _ r hr; simp [flRightRects] at hr
  | cons a xs ih =>
    intro ys hs hy r hr
    match xs, ys, ih with
    | [], ys, _ => simp [flRightRects] at hr
    | b :: xs, [], _ => simp [flRightRects] at hr
    | b :: xs, [_], _ => simp [flRightRects] at hr
    | b :: xs, p :: q :: ys, ih =>
      have hs' := List.pairwise_cons.1 hs
      simp only [flRightRects, List.mem_cons] at hr
      rcases hr with rfl | hr
      · have h1 := h.mono _ _ (mul_le_mul_of_nonneg_right (hs'.1 b (by simp)).le (hy q (by simp)))
        have h2 := h.mono 0 _ (sub_nonneg.2 h1)
        rw [h.zero] at h2
        exact ⟨h2, h.idem _⟩
      · exact ih _ hs'.2 (fun v hv => hy v (List.mem_cons_of_mem _ hv)) r hr

/-- **C121 (partial): irregular grids.** The cumulated values start at 0 and never decrease. Missing, because false
in general (`C121_irregular_cancels`): the sum that the row is divided by is close to the exact one, or at least not zero. It holds when the
cells are wide compared with their distance from zero (`C121_irregular_stored`). -/
theorem C121_irregular_partial (h : Rounding fl u) (xs ys : List K) (hs : xs.Pairwise (· < ·)) (hy : ∀ v ∈ ys, 0 ≤ v) :
    (flIrrCumul fl xs ys).Pairwise (· ≤ ·) ∧ (flIrrCumul fl xs ys)[0]? = some 0 ∧
    ∀ t, FlSum fl (flRightRects fl xs ys) t → 0 ≤ t := by
  have hr := rightRects_mono h xs ys hs hy
  refine ⟨?_, rfl, fun t ht => (flSum_ge h ht hr).2.1⟩
  rw [flIrrCumul, List.pairwise_cons]
  exact ⟨fun c hc => (flCumsum_float h _ hr c hc).1, flCumsum_mono h _ hr⟩

/-- **C121 is violated on irregular grids: the masses cancel.** The products `x[i+1] * y` and `x[i] * y` are rounded before the
subtraction; with neighbouring doubles just below 2 and the ordinate 9/8 they are equal, the row is divided by zero although its exact
sum is positive. -/
theorem C121_irregular_cancels :
    ∃ (xs ys : List ℚ), xs.Pairwise (· < ·) ∧ (∀ x ∈ xs, IsFloat double x) ∧ (∀ v ∈ ys, 0 < v ∧ IsFloat double v) ∧ xs.length = ys.length ∧
      0 < Np.sum (rightRects xs ys) ∧ (∃ p, irrNormRow xs ys = some p) ∧ ∀ t, FlSum double (flRightRects double xs ys) t → t = 0 := by
  refine ⟨[2 - 2 / 2 ^ 52, 2 - 1 / 2 ^ 52], [9 / 8, 9 / 8], by decide +kernel, by unfold IsFloat; decide +kernel, by unfold IsFloat; decide +kernel, rfl,
    by decide +kernel, ⟨[2 ^ 52, 2 ^ 52], by decide +kernel⟩, ?_⟩
  intro t ht
  have e : flRightRects double [(2 : ℚ) - 2 / 2 ^ 52, 2 - 1 / 2 ^ 52] [9 / 8, 9 / 8] = [0] := by decide +kernel
  rw [e] at ht
  have hr := flSum_rel C120_double ht (by simp)
  have hle := hr.right
  simp only [List.length_singleton, Nat.sub_self, pow_zero, one_mul, List.sum_singleton] at hle
  exact le_antisymm hle (by simpa using hr.left)

end Verif.Props.RoundingInterp
