import Verif.Spec.Linear
import Verif.Model.InterpPdf
import Verif.Lemmas.Interp
import Verif.Lemmas.Hist
import Mathlib.Tactic.Positivity

/-! Helper lemmas for interpolated PDFs. -/

set_option linter.unusedSectionVars false

namespace Verif.Lemmas.InterpPdf

open Verif Verif.Np Verif.Model Verif.Spec

variable {K : Type*} [Field K] [LinearOrder K] [IsStrictOrderedRing K]

/-- the broken line inside cell `i` -/
theorem npInterpGo_cell {x0 y0 : K} {t : List (K × K)} (hx : StrictX ((x0, y0) :: t)) {i : ℕ} {p q : K × K}
    (hp : ((x0, y0) :: t)[i]? = some p) (hq : ((x0, y0) :: t)[i+1]? = some q) {x : K} (h1 : p.1 ≤ x) (h2 : x ≤ q.1) :
    npInterpGo x0 y0 t x = line p.1 p.2 q.1 q.2 x := by
  induction i generalizing x0 y0 t with
  | zero =>
    match t with
    | [] => simp at hq
    | (x1, y1) :: t =>
      simp at hp hq
      subst hp hq
      rw [npInterpGo_cons]
      split
      · next h =>
        have : x = x1 := le_antisymm h2 h
        subst this
        rw [npInterpGo_head hx.tail, line_right _ _ (ne_of_lt hx.head)]
      · rfl
  | succ i ih =>
    match t with
    | [] => simp at hp
    | (x1, y1) :: t =>
      simp only [List.getElem?_cons_succ] at hp hq
      have hle : x1 ≤ x := by
        refine le_trans ?_ h1
        cases i with
        | zero => simp at hp; simp [← hp]
        | succ i =>
          simp only [List.getElem?_cons_succ] at hp
          have := List.isChain_iff_pairwise (R := fun a b : K × K => a.1 < b.1) |>.1 hx.tail
          exact le_of_lt ((List.pairwise_cons.1 this).1 p (List.mem_of_getElem? hp))
      rw [npInterpGo_cons, if_pos hle]
      exact ih hx.tail hp hq

theorem strictX_zip {xs ys : List K} (h : xs.Pairwise (· < ·)) : StrictX (xs.zip ys) := by
  unfold StrictX
  apply List.isChain_iff_pairwise.2
  induction xs generalizing ys with
  | nil => simp
  | cons a xs ih =>
    cases ys with
    | nil => simp
    | cons b ys =>
      rw [List.pairwise_cons] at h
      rw [List.zip_cons_cons, List.pairwise_cons]
      exact ⟨fun p hp => h.1 _ (List.of_mem_zip hp).1, ih h.2⟩

theorem length_trapezoids (xs ys : List K) (h : xs.length = ys.length) : (trapezoids xs ys).length = xs.length - 1 := by
  induction xs, ys using trapezoids.induct with
  | case1 a b xs u v ys ih => simp [trapezoids]; have := ih (by simpa using h); simp at this; exact this
  | case2 xs ys hn =>
    match xs, ys, h with
    | [], [], _ => simp [trapezoids]
    | [_], [_], _ => simp [trapezoids]
    | a :: b :: xs, u :: v :: ys, _ => exact absurd rfl (hn _ _ _ _ _ _ rfl)

theorem sum_trapezoids (xs ys : List K) : Np.sum (trapezoids xs ys) = area xs ys := by
  induction xs, ys using trapezoids.induct with
  | case1 a b xs u v ys ih =>
    simp only [trapezoids, area, Np.sum, List.foldr_cons] at *
    rw [ih]; ring
  | case2 xs ys hn =>
    have h1 : trapezoids xs ys = [] := by
      unfold trapezoids; split
      · exact absurd rfl (hn _ _ _ _ _ _ rfl)
      · rfl
    have h2 : area xs ys = 0 := by
      unfold area; split
      · exact absurd rfl (hn _ _ _ _ _ _ rfl)
      · rfl
    rw [h1, h2]; rfl

theorem cumsumFrom_last (c : K) (l : List K) (h : l ≠ []) : (cumsumFrom c l).getLast? = some (c + Np.sum l) := by
  induction l generalizing c with
  | nil => simp at h
  | cons a l ih =>
    cases l with
    | nil => simp [cumsumFrom, Np.sum]
    | cons b l =>
      have := ih (c + a) (by simp)
      simp only [cumsumFrom, Np.sum, List.foldr_cons, List.getLast?_cons_cons] at *
      rw [this, add_assoc]

theorem getElem?_cumsumFrom_trap (xs ys : List K) : ∀ (c : K) (i : ℕ), i + 1 < xs.length → xs.length = ys.length →
    (cumsumFrom c (trapezoids xs ys))[i]? = some (c + areaTo (i + 1) xs ys) := by
  induction xs, ys using trapezoids.induct with
  | case1 a b xs u v ys ih =>
    intro c i hi hl
    cases i with
    | zero => simp [trapezoids, cumsumFrom, areaTo]; ring
    | succ i =>
      simp only [trapezoids, cumsumFrom, List.getElem?_cons_succ]
      rw [ih _ i (by simpa using hi) (by simpa using hl)]
      simp only [areaTo]
      congr 1; ring
  | case2 xs ys hn =>
    intro c i hi hl
    match xs, ys, hi, hl with
    | a :: b :: xs, u :: v :: ys, _, _ => exact absurd rfl (hn _ _ _ _ _ _ rfl)
    | a :: b :: xs, [_], _, hl => simp at hl

theorem area_div (xs ys : List K) (s : K) : area xs (ys.map (· / s)) = area xs ys / s := by
  induction xs, ys using trapezoids.induct with
  | case1 a b xs u v ys ih =>
    simp only [List.map_cons, area] at *
    rw [ih]
    ring
  | case2 xs ys hn =>
    have h2 : ∀ ys' : List K, (∀ (a b : K) (xs' : List K) (u v : K) (ys'' : List K), xs = a :: b :: xs' →
        ys' = u :: v :: ys'' → False) → area xs ys' = 0 := by
      intro ys' h
      unfold area; split
      · exact absurd rfl (fun e => h _ _ _ _ _ _ rfl e)
      · rfl
    rw [h2 ys (fun a b xs' u v ys'' h1 h2 => hn a b xs' u v ys'' h1 h2), zero_div]
    apply h2
    intro a b xs' u v ys'' h1 h2
    match ys, h2 with
    | u' :: v' :: t, _ => exact hn a b xs' u' v' t h1 rfl

theorem areaTo_div (xs ys : List K) (s : K) (i : ℕ) : areaTo i xs (ys.map (· / s)) = areaTo i xs ys / s := by
  induction i generalizing xs ys with
  | zero => simp [areaTo]
  | succ i ih =>
    match xs, ys with
    | a :: b :: xs, u :: v :: ys =>
      have := ih (b :: xs) (v :: ys)
      simp only [List.map_cons, areaTo] at *
      rw [this]; ring
    | [], _ => simp [areaTo]
    | [_], _ => simp [areaTo]
    | _ :: _ :: _, [] => simp [areaTo]
    | _ :: _ :: _, [_] => simp [areaTo]

theorem trapezoids_div (xs ys : List K) (s : K) : trapezoids xs (ys.map (· / s)) = (trapezoids xs ys).map (· / s) := by
  induction xs, ys using trapezoids.induct with
  | case1 a b xs u v ys ih =>
    simp only [List.map_cons, trapezoids] at *
    rw [ih]; congr 1; ring
  | case2 xs ys hn =>
    match xs, ys with
    | a :: b :: xs, u :: v :: ys => exact absurd rfl (hn _ _ _ _ _ _ rfl)
    | [], _ => simp [trapezoids]
    | [_], _ => simp [trapezoids]
    | _ :: _ :: _, [] => simp [trapezoids]
    | _ :: _ :: _, [_] => simp [trapezoids]

theorem cumsumFrom_div (c s : K) (l : List K) : cumsumFrom (c / s) (l.map (· / s)) = (cumsumFrom c l).map (· / s) := by
  induction l generalizing c with
  | nil => rfl
  | cons a l ih => simp only [List.map_cons, cumsumFrom]; rw [← add_div, ih]

theorem areaTo_last (xs ys : List K) (h : xs.length = ys.length) : areaTo (xs.length - 1) xs ys = area xs ys := by
  induction xs, ys using trapezoids.induct with
  | case1 a b xs u v ys ih =>
    have := ih (by simpa using h)
    simp only [List.length_cons, Nat.add_sub_cancel, areaTo, area] at *
    rw [this]
  | case2 xs ys hn =>
    match xs, ys, h with
    | [], [], _ => simp [areaTo, area]
    | [_], [_], _ => simp [areaTo, area]
    | a :: b :: xs, u :: v :: ys, _ => exact absurd rfl (hn _ _ _ _ _ _ rfl)

end Verif.Lemmas.InterpPdf

namespace Verif.Lemmas.InterpPdf

open Verif Verif.Np Verif.Model Verif.Spec

variable {K : Type*} [Field K] [LinearOrder K] [IsStrictOrderedRing K]

/-- an interpolation with constant continuation on both sides is monotone and bounded -/
theorem interp_shape {lo hi x0 y0 : K} {t : List (K × K)} (hy : MonoY ((x0, y0) :: t)) (hlo : lo ≤ y0)
    (hhi : (((x0, y0) :: t).getLast (by simp)).2 ≤ hi) {x x' : K} (h : x ≤ x') :
    ∃ u v, interp lo hi ((x0, y0) :: t) x = some u ∧ interp lo hi ((x0, y0) :: t) x' = some v ∧
      lo ≤ u ∧ u ≤ v ∧ v ≤ hi := by
  have hlh : lo ≤ hi := hlo.trans (hy.le_last.trans hhi)
  have bound : ∀ z, x0 ≤ z → lo ≤ npInterpGo x0 y0 t z ∧ npInterpGo x0 y0 t z ≤ hi := fun z hz =>
    ⟨hlo.trans (le_npInterpGo hy hz), (npInterpGo_le hy hz).trans hhi⟩
  unfold interp
  simp only
  by_cases h1 : x' < x0
  · rw [if_pos h1, if_pos (h.trans_lt h1)]
    exact ⟨_, _, rfl, rfl, le_rfl, le_rfl, hlh⟩
  rw [if_neg h1]
  have h1 := not_lt.1 h1
  by_cases h2 : x < x0
  · rw [if_pos h2]
    split
    · exact ⟨_, _, rfl, rfl, le_rfl, hlh, le_rfl⟩
    · exact ⟨_, _, rfl, rfl, le_rfl, (bound x' h1).1, (bound x' h1).2⟩
  rw [if_neg h2]
  have h2 := not_lt.1 h2
  by_cases h3 : (((x0, y0) :: t).getLast (by simp)).1 < x
  · rw [if_pos h3, if_pos (h3.trans_le h)]
    exact ⟨_, _, rfl, rfl, hlh, le_rfl, le_rfl⟩
  rw [if_neg h3]
  split
  · exact ⟨_, _, rfl, rfl, (bound x h2).1, (bound x h2).2, le_rfl⟩
  · exact ⟨_, _, rfl, rfl, (bound x h2).1, npInterpGo_mono hy h2 h, (bound x' h1).2⟩

/-- last knot of a zip of two lists of equal length -/
theorem getLast_zip {α β : Type*} (l : List α) (m : List β) (h : l.length = m.length) (hl : l ≠ []) (hm : m ≠ [])
    (hz : l.zip m ≠ []) : (l.zip m).getLast hz = (l.getLast hl, m.getLast hm) := by
  induction l generalizing m with
  | nil => simp at hl
  | cons a l ih =>
    cases m with
    | nil => simp at hm
    | cons b m =>
      cases l with
      | nil =>
        have : m = [] := by simpa using h.symm
        subst this; simp
      | cons c l =>
        cases m with
        | nil => simp at h
        | cons d m =>
          have := ih (d :: m) (by simpa using h) (by simp) (by simp) (by simp)
          simp only [List.zip_cons_cons] at *
          rw [List.getLast_cons_cons, List.getLast_cons_cons, List.getLast_cons_cons]
          exact this

/-- interior points of an interpolation -/
theorem interp_inside {lo hi x0 y0 : K} {t : List (K × K)} {x : K} (h0 : x0 ≤ x)
    (h1 : x ≤ (((x0, y0) :: t).getLast (by simp)).1) :
    interp lo hi ((x0, y0) :: t) x = some (npInterpGo x0 y0 t x) := by
  unfold interp
  simp only
  rw [if_neg (not_lt.2 h0), if_neg (not_lt.2 h1)]

theorem StrictX_le_last {a : K × K} {l : List (K × K)} (h : StrictX (a :: l)) {p : K × K} (hp : p ∈ a :: l) :
    p.1 ≤ ((a :: l).getLast (by simp)).1 := by
  induction l generalizing a p with
  | nil => simp at hp; simp [hp]
  | cons b l ih =>
    rw [List.getLast_cons (by simp)]
    rcases List.mem_cons.1 hp with rfl | hp
    · exact h.head.le.trans (ih h.tail (by simp))
    · exact ih h.tail hp

theorem head_le_mem {a : K × K} {l : List (K × K)} (h : StrictX (a :: l)) {p : K × K} (hp : p ∈ a :: l) :
    a.1 ≤ p.1 := by
  rcases List.mem_cons.1 hp with rfl | hp
  · exact le_rfl
  · have := List.isChain_iff_pairwise (R := fun a b : K × K => a.1 < b.1) |>.1 h
    exact ((List.pairwise_cons.1 this).1 p hp).le

theorem getLast_max {l : List K} (h : l.Pairwise (· < ·)) (hne : l ≠ []) {v : K} (hv : v ∈ l) : v ≤ l.getLast hne := by
  have hpw := h
  rw [← List.dropLast_append_getLast hne] at hpw hv
  rcases List.mem_append.1 hv with hv | hv
  · exact le_of_lt ((List.pairwise_append.1 hpw).2.2 v hv _ (by simp))
  · exact le_of_eq (by simpa using hv)

/-- cumulated trapezoids are non-decreasing for non-negative ordinates -/
theorem monoY_cumul (xs ys : List K) : ∀ (a u c c' : K), (a :: xs).Pairwise (· < ·) → (∀ v ∈ u :: ys, 0 ≤ v) → c' ≤ c →
    (∀ b v xs' ys', xs = b :: xs' → ys = v :: ys' → c' ≤ c + (b - a) * (1 / 2) * (v + u)) →
    MonoY ((a, c') :: xs.zip (cumsumFrom c (trapezoids (a :: xs) (u :: ys)))) := by
  induction xs generalizing ys with
  | nil => intro a u c c' _ _ _ _; simp [MonoY]
  | cons b xs ih =>
    intro a u c c' hs hy hc h
    cases ys with
    | nil => simp [MonoY, trapezoids, cumsumFrom]
    | cons v ys =>
      have hs' := List.pairwise_cons.1 hs
      have hab : 0 < b - a := sub_pos.2 (hs'.1 b (by simp))
      simp only [trapezoids, cumsumFrom, List.zip_cons_cons]
      refine List.isChain_cons_cons.2 ⟨h b v xs ys rfl rfl, ?_⟩
      refine ih ys b v _ _ hs'.2 (fun w hw => hy w (List.mem_cons_of_mem _ hw)) le_rfl ?_
      intro d w xs' ys' hx hy'
      subst hx hy'
      have hbd : 0 < d - b := sub_pos.2 ((List.pairwise_cons.1 hs'.2).1 d (by simp))
      have : 0 ≤ (d - b) * (1 / 2) * (w + v) := by
        have := hy w (by simp)
        have := hy v (by simp)
        positivity
      linarith

end Verif.Lemmas.InterpPdf
