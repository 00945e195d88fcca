import Verif.Model.PackedPdf
import Verif.Props.InterpPdf
import Verif.Props.Packing

/-!
# C79: packed interpolated PDFs

What the conversion to the 8-bit packed class does to a PDF: it stays normalised, and the error of its density is bounded.
-/

set_option linter.unusedSectionVars false
set_option autoImplicit false

namespace Verif.Props.PackedPdf

open Verif Verif.Np Verif.Model Verif.Spec Verif.Props.InterpPdf Verif.Props.Packing Verif.Lemmas.InterpPdf

variable {K : Type*} [Field K] [LinearOrder K] [IsStrictOrderedRing K]

/-- the areas below two broken lines that differ by at most `d` at the grid points differ by at most `d` times the length of the grid -/
theorem area_close (d : K) : ∀ (xs us ys : List K) (a : K), (a :: xs).Pairwise (· < ·) → ∀ (u y : K), |u - y| ≤ d → List.Forall₂ (fun u y => |u - y| ≤ d) us ys →
    xs.length = us.length → |area (a :: xs) (u :: us) - area (a :: xs) (y :: ys)| ≤ d * ((a :: xs).getLast (by simp) - a) := by
  intro xs
  induction xs with
  | nil => intro us ys a _ u y _ _ hl; simp at hl; simp [area]
  | cons b xs ih =>
    intro us ys a hs u y h h2 hl
    cases h2 with
    | nil => simp at hl
    | @cons u' y' us ys h' ht =>
      have hab : a < b := (List.pairwise_cons.1 hs).1 b (by simp)
      have := ih us ys b (List.pairwise_cons.1 hs).2 u' y' h' ht (by simpa using hl)
      rw [List.getLast_cons (by simp)]
      rw [abs_le] at *
      have hba : 0 < b - a := by linarith
      simp only [area]
      constructor <;> nlinarith [this.1, this.2, h.1, h.2, h'.1, h'.2]

/-- two straight lines over the same cell whose ends differ by at most `d` -/
theorem line_close {d x0 x1 x y0 y1 u0 u1 : K} (h0 : x0 ≤ x) (h1 : x < x1) (hu : |u0 - y0| ≤ d) (hv : |u1 - y1| ≤ d) :
    |line x0 u0 x1 u1 x - line x0 y0 x1 y1 x| ≤ d := by
  have hx : 0 < x1 - x0 := by linarith
  have e : line x0 u0 x1 u1 x - line x0 y0 x1 y1 x = (u0 - y0) * ((x1 - x) / (x1 - x0)) + (u1 - y1) * ((x - x0) / (x1 - x0)) := by
    unfold line; field_simp; ring
  have w0 : 0 ≤ (x1 - x) / (x1 - x0) := div_nonneg (by linarith) hx.le
  have w1 : 0 ≤ (x - x0) / (x1 - x0) := div_nonneg (by linarith) hx.le
  have w : (x1 - x) / (x1 - x0) + (x - x0) / (x1 - x0) = 1 := by field_simp; ring
  rw [e]
  rw [abs_le] at *
  constructor <;> nlinarith [hu.1, hu.2, hv.1, hv.2]

/-- two broken lines over the same knots that differ by at most `d` at the knots differ by at most `d` everywhere -/
theorem go_close (d x : K) : ∀ (xs us ys : List K) (a u y : K), a ≤ x → |u - y| ≤ d → List.Forall₂ (fun u y => |u - y| ≤ d) us ys →
    |npInterpGo a u (xs.zip us) x - npInterpGo a y (xs.zip ys) x| ≤ d := by
  intro xs
  induction xs with
  | nil => intro us ys a u y _ h _; simpa [npInterpGo] using h
  | cons b xs ih =>
    intro us ys a u y ha h h2
    cases h2 with
    | nil => simpa [npInterpGo] using h
    | @cons u' y' us ys h' ht =>
      simp only [List.zip_cons_cons, npInterpGo]
      by_cases hb : b ≤ x
      · rw [if_pos hb, if_pos hb]; exact ih us ys b u' y' hb h' ht
      · rw [if_neg hb, if_neg hb]
        by_cases hax : a = x
        · rw [if_pos hax, if_pos hax]; exact h
        · rw [if_neg hax, if_neg hax]; exact line_close ha (not_le.1 hb) h h'

theorem interp_close {d lo hi : K} (hd : 0 ≤ d) (x : K) {xs us ys : List K} (hx : xs ≠ []) (h : List.Forall₂ (fun u y => |u - y| ≤ d) us ys) (hl : xs.length = us.length) :
    ∃ p q, interp lo hi (xs.zip us) x = some p ∧ interp lo hi (xs.zip ys) x = some q ∧ |p - q| ≤ d := by
  obtain ⟨a, t, rfl⟩ := List.exists_cons_of_ne_nil hx
  cases h with
  | nil => simp at hl
  | @cons u y us ys h ht =>
    have hl' : t.length = us.length := by simpa using hl
    have e1 : (((a, u) :: t.zip us).getLast (by simp)).1 = (a :: t).getLast (by simp) :=
      congrArg Prod.fst (getLast_zip (a :: t) (u :: us) (by simp [hl']) (by simp) (by simp) (by simp))
    have e2 : (((a, y) :: t.zip ys).getLast (by simp)).1 = (a :: t).getLast (by simp) :=
      congrArg Prod.fst (getLast_zip (a :: t) (y :: ys) (by simp [hl', ht.length_eq]) (by simp) (by simp) (by simp))
    simp only [List.zip_cons_cons, interp]
    rw [e1, e2]
    by_cases h1 : x < a
    · rw [if_pos h1, if_pos h1]; exact ⟨_, _, rfl, rfl, by simpa using hd⟩
    · rw [if_neg h1, if_neg h1]
      by_cases h2 : (a :: t).getLast (by simp) < x
      · rw [if_pos h2, if_pos h2]; exact ⟨_, _, rfl, rfl, by simpa using hd⟩
      · rw [if_neg h2, if_neg h2]
        exact ⟨_, _, rfl, rfl, go_close d x t us ys a u y (not_lt.1 h1) h ht⟩

theorem cumsum_close (d : K) (hd : 0 ≤ d) : ∀ (xs us ys : List K) (a : K), (a :: xs).Pairwise (· < ·) → ∀ (u y p q e : K), |u - y| ≤ d → List.Forall₂ (fun u y => |u - y| ≤ d) us ys →
    xs.length = us.length → |p - q| ≤ e → List.Forall₂ (fun u y => |u - y| ≤ e + d * ((a :: xs).getLast (by simp) - a))
      (cumsumFrom p (trapezoids (a :: xs) (u :: us))) (cumsumFrom q (trapezoids (a :: xs) (y :: ys))) := by
  intro xs
  induction xs with
  | nil => intro us ys a _ u y p q e _ _ hl _; simp at hl; simp [trapezoids, cumsumFrom]
  | cons b xs ih =>
    intro us ys a hs u y p q e h h2 hl he
    cases h2 with
    | nil => simp at hl
    | @cons u' y' us ys h' ht =>
      have hab : a < b := (List.pairwise_cons.1 hs).1 b (by simp)
      have hba : 0 < b - a := by linarith
      have hbl : b ≤ (b :: xs).getLast (by simp) := getLast_max (List.pairwise_cons.1 hs).2 (by simp) (by simp)
      have hstep : |p + (b - a) * (1 / 2) * (u' + u) - (q + (b - a) * (1 / 2) * (y' + y))| ≤ e + d * (b - a) := by
        rw [abs_le] at *
        constructor <;> nlinarith [h.1, h.2, h'.1, h'.2, he.1, he.2]
      simp only [trapezoids, cumsumFrom]
      rw [List.getLast_cons (by simp)]
      refine List.Forall₂.cons (le_trans hstep ?_) ?_
      · nlinarith
      · have := ih us ys b (List.pairwise_cons.1 hs).2 u' y' _ _ _ h' ht (by simpa using hl) hstep
        have e : e + d * (b - a) + d * ((b :: xs).getLast (by simp) - b) = e + d * ((b :: xs).getLast (by simp) - a) := by ring
        rw [e] at this
        exact this

theorem area_nonneg : ∀ (xs ys : List K), xs.Pairwise (· < ·) → (∀ v ∈ ys, 0 ≤ v) → 0 ≤ area xs ys := by
  intro xs
  induction xs with
  | nil => intro ys _ _; simp [area]
  | cons a xs ih =>
    intro ys hs hy
    match xs, ys with
    | [], _ => simp [area]
    | b :: xs, [] => simp [area]
    | b :: xs, [u] => simp [area]
    | b :: xs, u :: v :: ys =>
      simp only [area]
      have hab : a < b := (List.pairwise_cons.1 hs).1 b (by simp)
      have := ih (v :: ys) (List.pairwise_cons.1 hs).2 (fun w hw => hy w (List.mem_cons_of_mem _ hw))
      have h1 := hy u (by simp)
      have h2 := hy v (by simp)
      have : 0 ≤ (b - a) * (u + v) / 2 := div_nonneg (mul_nonneg (by linarith) (by linarith)) (by norm_num)
      linarith

theorem area_pos : ∀ (xs ys : List K), xs.Pairwise (· < ·) → xs.length = ys.length → 2 ≤ ys.length → (∀ v ∈ ys, 0 ≤ v) → (∃ v ∈ ys, 0 < v) → 0 < area xs ys := by
  intro xs
  induction xs with
  | nil => intro ys _ hl h2; simp at hl; omega
  | cons a xs ih =>
    intro ys hs hl h2 hy hp
    match xs, ys, hl with
    | [], [_], _ => simp at h2
    | b :: xs, u :: v :: ys, hl =>
      simp only [area]
      have hab : a < b := (List.pairwise_cons.1 hs).1 b (by simp)
      have hs' := (List.pairwise_cons.1 hs).2
      have hy' : ∀ w ∈ v :: ys, 0 ≤ w := fun w hw => hy w (List.mem_cons_of_mem _ hw)
      have h0 := area_nonneg (b :: xs) (v :: ys) hs' hy'
      have h1 := hy u (by simp)
      have h2 := hy v (by simp)
      by_cases huv : 0 < u + v
      · have : 0 < (b - a) * (u + v) / 2 := div_pos (mul_pos (by linarith) huv) (by norm_num)
        linarith
      · have hu : u = 0 := by linarith
        have hv : v = 0 := by linarith
        obtain ⟨w, hw, hw0⟩ := hp
        have hw' : w ∈ ys := by
          rcases List.mem_cons.1 hw with rfl | hw
          · linarith
          · rcases List.mem_cons.1 hw with rfl | hw
            · linarith
            · exact hw
        have h3 : 2 ≤ (v :: ys).length := by
          cases ys with
          | nil => simp at hw'
          | cons _ _ => simp
        have := ih (v :: ys) hs' (by simpa using hl) h3 hy' ⟨w, by simp [hw'], hw0⟩
        subst hu; subst hv
        simpa using this

/-- Two lists of ordinates on a grid, `row` with the largest value `rm > 0` and `u` within `δ rm` of it, both non-negative and not all zero. After
normalisation the broken lines and the cumulated values are close. -/
theorem normalised_close (δ rm : K) (hδ : 0 ≤ δ) (xs row u : List K) (hg : XGrid xs row.length) (h0 : ∀ v ∈ row, 0 ≤ v) (hrm : 0 < rm) (hmem : rm ∈ row) (hmax : ∀ v ∈ row, v ≤ rm)
    (hclose : List.Forall₂ (fun u y => |u - y| ≤ δ * rm) u row) (hu0 : ∀ v ∈ u, 0 ≤ v) (hupos : ∃ v ∈ u, 0 < v) :
    ∃ y0 c0 ys c P, interpNormRow xs row = .ok (some (y0, c0)) ∧ interpNormRow xs u = .ok (some (ys, c)) ∧ area xs y0 = 1 ∧ area xs ys = 1 ∧
      (∀ v ∈ ys, 0 ≤ v) ∧ P ∈ y0 ∧ (∀ v ∈ y0, v ≤ P) ∧
      ∀ a b L, xs.head? = some a → xs.getLast? = some b → L = b - a → δ * P * L < 1 →
        ∀ x, (∃ p p0, interpPdf xs ys x = some p ∧ interpPdf xs y0 x = some p0 ∧ |p - p0| ≤ δ * P * (1 + P * L) / (1 - δ * P * L)) ∧
          (∃ F F0, interpCdf xs c x = some F ∧ interpCdf xs c0 x = some F0 ∧ |F - F0| ≤ δ * P * (1 + P * L) / (1 - δ * P * L) * L) := by
  have hul : u.length = row.length := hclose.length_eq
  have hT : 0 < area xs row := area_pos xs row hg.strict hg.size hg.two h0 ⟨rm, hmem, hrm⟩
  obtain ⟨y0, c0, hn0, ha0, hy0, hi0⟩ := (C12_interp_normalises xs row hg).2 hT.ne'
  have hgu : XGrid xs u.length := by rw [hul]; exact hg
  have hI : 0 < area xs u := area_pos xs u hg.strict (by rw [hul]; exact hg.size) hgu.two hu0 hupos
  obtain ⟨ys, c, hn, ha, hys, hi⟩ := (C12_interp_normalises xs u hgu).2 hI.ne'
  have hP : rm / area xs row ∈ y0 := by rw [hy0]; exact List.mem_map.2 ⟨rm, hmem, rfl⟩
  refine ⟨y0, c0, ys, c, rm / area xs row, hn0, ?_, ha0, ha, ?_, hP, ?_, ?_⟩
  · exact hn
  · rw [hys]; intro v hv; obtain ⟨w, hw, rfl⟩ := List.mem_map.1 hv; exact div_nonneg (hu0 w hw) hI.le
  · rw [hy0]; intro v hv; obtain ⟨w, hw, rfl⟩ := List.mem_map.1 hv; exact div_le_div_of_nonneg_right (hmax w hw) hT.le
  intro a b L hxa hxb hL hPL x
  set P := rm / area xs row with hPd
  have hP0 : 0 < P := div_pos hrm hT
  have hD : 0 < 1 - δ * P * L := by linarith
  obtain ⟨a', t, rfl⟩ := List.exists_cons_of_ne_nil (l := xs) (by rintro rfl; have := hg.size; have := hg.two; simp at *)
  obtain rfl : a' = a := by simpa using hxa
  have hb : (a' :: t).getLast (by simp) = b := by rw [List.getLast?_eq_some_getLast (by simp)] at hxb; exact Option.some.inj hxb
  have hL0 : 0 ≤ L := by rw [hL, ← hb]; exact sub_nonneg.2 (getLast_max hg.strict (by simp) (by simp))
  have hE : 0 ≤ δ * P * (1 + P * L) / (1 - δ * P * L) := div_nonneg (mul_nonneg (mul_nonneg hδ hP0.le) (by positivity)) hD.le
  have harea : |area (a' :: t) u - area (a' :: t) row| ≤ δ * rm * L := by
    obtain ⟨r0, rs, hr⟩ := List.exists_cons_of_ne_nil (l := row) (List.ne_nil_of_mem hmem)
    obtain ⟨u0, us, hus⟩ := List.exists_cons_of_ne_nil (l := u) (List.ne_nil_of_mem hupos.choose_spec.1)
    rw [hr, hus] at hclose ⊢
    cases hclose with
    | cons h ht =>
      have := area_close (δ * rm) t us rs a' hg.strict u0 r0 h ht (by have := hgu.size; rw [hus] at this; simpa using this)
      rw [hb, ← hL] at this
      exact this
  have hIge : area (a' :: t) row * (1 - δ * P * L) ≤ area (a' :: t) u := by
    have e : area (a' :: t) row * (1 - δ * P * L) = area (a' :: t) row - δ * rm * L := by rw [hPd]; field_simp
    rw [e]; linarith [(abs_le.1 harea).1]
  have hpt : List.Forall₂ (fun u y => |u - y| ≤ δ * P * (1 + P * L) / (1 - δ * P * L)) ys y0 := by
    rw [hys, hy0, List.forall₂_map_left_iff, List.forall₂_map_right_iff]
    rw [List.forall₂_iff_get] at hclose ⊢
    refine ⟨hclose.1, fun i h1 h2 => ?_⟩
    have hc := hclose.2 i h1 h2
    have hv0 : 0 ≤ row.get ⟨i, h2⟩ := h0 _ (List.get_mem _ _)
    have hvm : row.get ⟨i, h2⟩ ≤ rm := hmax _ (List.get_mem _ _)
    generalize u.get ⟨i, h1⟩ = w at hc ⊢
    generalize row.get ⟨i, h2⟩ = v at hc hv0 hvm ⊢
    generalize area (a' :: t) u = I at *
    generalize area (a' :: t) row = T at *
    have e : w / I - v / T = ((w - v) * T - v * (I - T)) / (I * T) := by field_simp; ring
    have hnum : |(w - v) * T - v * (I - T)| ≤ δ * rm * (T + rm * L) := by
      have h1 : |(w - v) * T| ≤ δ * rm * T := by rw [abs_mul, abs_of_pos hT]; exact mul_le_mul_of_nonneg_right hc hT.le
      have h2 : |v * (I - T)| ≤ rm * (δ * rm * L) := by
        rw [abs_mul, abs_of_nonneg hv0]
        exact mul_le_mul hvm harea (abs_nonneg _) hrm.le
      calc _ ≤ |(w - v) * T| + |v * (I - T)| := abs_sub _ _
        _ ≤ δ * rm * T + rm * (δ * rm * L) := add_le_add h1 h2
        _ = _ := by ring
    rw [e, abs_div, abs_of_pos (mul_pos hI hT), div_le_div_iff₀ (mul_pos hI hT) hD]
    have hPT : rm = P * T := by rw [hPd]; field_simp
    calc |(w - v) * T - v * (I - T)| * (1 - δ * P * L) ≤ δ * rm * (T + rm * L) * (1 - δ * P * L) := mul_le_mul_of_nonneg_right hnum hD.le
      _ = δ * P * (1 + P * L) * (T * (1 - δ * P * L) * T) := by rw [hPT]; ring
      _ ≤ δ * P * (1 + P * L) * (I * T) := by
        apply mul_le_mul_of_nonneg_left _ (by positivity)
        exact mul_le_mul_of_nonneg_right hIge hT.le
  have hlen' : (a' :: t).length = ys.length := by rw [hys, List.length_map, hul]; exact hg.size
  refine ⟨interp_close hE x (by simp) hpt hlen', ?_⟩
  obtain ⟨_, b1, t1, u1, v1, r1, hx1, hy1, hl1, -, -, hc1⟩ := constructed_facts (⟨u, hgu, hn⟩ : Constructed (a' :: t) ys c)
  obtain ⟨_, b2, t2, u2, v2, r2, hx2, hy2, hl2, -, -, hc2⟩ := constructed_facts (⟨row, hg, hn0⟩ : Constructed (a' :: t) y0 c0)
  simp only [List.cons.injEq] at hx1 hx2
  obtain ⟨rfl, rfl⟩ := hx1
  obtain ⟨rfl, h12⟩ := hx2
  simp only [List.cons.injEq] at h12
  obtain ⟨rfl, rfl⟩ := h12
  subst hy1 hy2 hc1 hc2
  cases hpt with
  | cons h1 ht =>
  have hab : b1 ≤ b := by rw [← hb]; exact getLast_max hg.strict (by simp) (by simp)
  have ha1 : a' < b1 := (List.pairwise_cons.1 hg.strict).1 b1 (by simp)
  have hcum := cumsum_close _ hE (b1 :: t1) (v1 :: r1) (v2 :: r2) a' hg.strict u1 u2 0 0 0 h1 ht (by simpa using hl1) (by simp)
  rw [hb, ← hL, zero_add] at hcum
  refine interp_close (mul_nonneg hE hL0) x (by simp) (List.Forall₂.cons ?_ hcum) ?_
  · have : 1 / 2 * u1 * (b1 - a') - 1 / 2 * u2 * (b1 - a') = (u1 - u2) * ((b1 - a') / 2) := by ring
    rw [this, abs_mul, abs_of_nonneg (show 0 ≤ (b1 - a') / 2 by linarith)]
    exact mul_le_mul h1 (by rw [hL]; linarith) (by linarith) hE
  · have := hcum.length_eq
    have h3 := length_trapezoids (a' :: b1 :: t1) (u1 :: v1 :: r1) (by simp [hl1])
    simp only [cumsum, List.length_cons]
    have h4 : (cumsumFrom 0 (trapezoids (a' :: b1 :: t1) (u1 :: v1 :: r1))).length = (trapezoids (a' :: b1 :: t1) (u1 :: v1 :: r1)).length := by
      generalize (trapezoids (a' :: b1 :: t1) (u1 :: v1 :: r1)) = l
      generalize (0 : K) = z
      induction l generalizing z with
      | nil => rfl
      | cons w l ih => simp [cumsumFrom, ih]
    rw [h4, h3]
    simp

variable [FloorRing K]

/-- **C79: conversion to the packed class.** Take the values of a PDF on a grid, non-negative and not all zero. The interpolated PDF made from
them (`y0`, cumulated `c0`) and the packed one (`ys`, cumulated `c`) both exist and have area one; the packed ordinates are never negative;
and if the peak density `P` of the interpolated PDF times the length `L` of the grid is below 510, then the two densities differ by at most
`P (1 + P L) / (510 - P L)` at every point, and the two CDFs by at most `L` times that. -/
theorem C79_packed_error (xs row : List K) (hg : XGrid xs row.length) (h0 : ∀ v ∈ row, 0 ≤ v) (hpos : ∃ v ∈ row, 0 < v) :
    ∃ y0 c0 ys c P, interpNormRow xs row = .ok (some (y0, c0)) ∧ packedFromVals xs row = .ok (some (ys, c)) ∧ area xs y0 = 1 ∧ area xs ys = 1 ∧
      (∀ v ∈ ys, 0 ≤ v) ∧ P ∈ y0 ∧ (∀ v ∈ y0, v ≤ P) ∧
      ∀ a b L, xs.head? = some a → xs.getLast? = some b → L = b - a → P * L < 510 →
        ∀ x, (∃ p p0, interpPdf xs ys x = some p ∧ interpPdf xs y0 x = some p0 ∧ |p - p0| ≤ P * (1 + P * L) / (510 - P * L)) ∧
          (∃ F F0, interpCdf xs c x = some F ∧ interpCdf xs c0 x = some F0 ∧ |F - F0| ≤ P * (1 + P * L) / (510 - P * L) * L) := by
  obtain ⟨codes, rm, hpack, hmem, hmax, hlen, hcode, herr, -, -⟩ := C25_linear_packing row h0 hpos
  have hrm : 0 < rm := by obtain ⟨v, hv, hv0⟩ := hpos; exact lt_of_lt_of_le hv0 (hmax v hv)
  set u := linearUnpackRow codes rm with hu
  have hul : u.length = row.length := by rw [hu, linearUnpackRow]; simp [hlen]
  have hclose : List.Forall₂ (fun u y => |u - y| ≤ 1 / 510 * rm) u row := by
    rw [List.forall₂_iff_get, one_div_mul_eq_div]
    refine ⟨hul, fun i hi1 hi2 => (herr i _ _ (List.getElem?_eq_getElem hi2) (List.getElem?_eq_getElem hi1)).1⟩
  have hu0 : ∀ v ∈ u, 0 ≤ v := by
    intro v hv
    rw [hu, linearUnpackRow, List.mem_map] at hv
    obtain ⟨n, _, rfl⟩ := hv
    positivity
  have hupos : ∃ v ∈ u, 0 < v := by
    obtain ⟨i, hi, hie⟩ := List.mem_iff_getElem.1 hmem
    have := (herr i rm _ (by rw [List.getElem?_eq_getElem hi, hie]) (List.getElem?_eq_getElem (by rw [hul]; exact hi))).2 rfl
    exact ⟨_, List.getElem_mem (by rw [hul]; exact hi), by rw [this]; exact hrm⟩
  obtain ⟨y0, c0, ys, c, P, hn0, hn, ha0, ha, hys, hP, hPm, hbound⟩ := normalised_close (1 / 510) rm (by norm_num) xs row u hg h0 hrm hmem hmax hclose hu0 hupos
  refine ⟨y0, c0, ys, c, P, hn0, by simp only [packedFromVals, hpack]; exact hn, ha0, ha, hys, hP, hPm, ?_⟩
  intro a b L hxa hxb hL hPL x
  have hD : (0 : K) < 510 - P * L := by linarith
  have e : 1 / 510 * P * (1 + P * L) / (1 - 1 / 510 * P * L) = P * (1 + P * L) / (510 - P * L) := by
    have h1 : (1 : K) - 1 / 510 * P * L = (510 - P * L) / 510 := by ring
    rw [h1]; field_simp
  have := hbound a b L hxa hxb hL (by linarith) x
  rwa [e] at this

/-- a triangle: density 1 at the peak of a grid of length 2, so the packed density is within 3/508 -/
example : interpNormRow ([0, 1, 2] : List ℚ) [0, 3, 0] = .ok (some ([0, 1, 0], [0, 1/2, 1])) := by decide +kernel

example : packedFromVals ([0, 1, 2] : List ℚ) [1, 300, 1] = .ok (some ([1/256, 255/256, 1/256], [1/512, 1/2, 1])) := by decide +kernel

end Verif.Props.PackedPdf
