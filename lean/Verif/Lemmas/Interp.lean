import Verif.Np.Interp
import Mathlib.Tactic.Linarith
import Mathlib.Tactic.FieldSimp
import Mathlib.Tactic.Ring
import Mathlib.Tactic.Positivity

/-! Helper lemmas about linear interpolation. -/

set_option linter.unusedSectionVars false

namespace Verif.Np

variable {K : Type*} [Field K] [LinearOrder K] [IsStrictOrderedRing K]

theorem line_left (x0 y0 x1 y1 : K) : line x0 y0 x1 y1 x0 = y0 := by simp [line]

theorem line_right {x0 x1 : K} (y0 y1 : K) (h : x0 ≠ x1) : line x0 y0 x1 y1 x1 = y1 := by
  have : x1 - x0 ≠ 0 := sub_ne_zero.2 (Ne.symm h)
  simp only [line]; field_simp; ring

theorem le_line {x0 y0 x1 y1 x : K} (hx0 : x0 ≤ x) (hx1 : x < x1) (hy : y0 ≤ y1) :
    y0 ≤ line x0 y0 x1 y1 x := by
  have h1 : 0 < x1 - x0 := by linarith
  have : 0 ≤ (y1 - y0) / (x1 - x0) * (x - x0) :=
    mul_nonneg (div_nonneg (by linarith) h1.le) (by linarith)
  simp only [line]; linarith

theorem line_le {x0 y0 x1 y1 x : K} (hx0 : x0 ≤ x) (hx1 : x ≤ x1) (hlt : x0 < x1) (hy : y0 ≤ y1) :
    line x0 y0 x1 y1 x ≤ y1 := by
  have h1 : 0 < x1 - x0 := by linarith
  have h2 : (y1 - y0) / (x1 - x0) * (x - x0) ≤ (y1 - y0) / (x1 - x0) * (x1 - x0) :=
    mul_le_mul_of_nonneg_left (by linarith) (div_nonneg (by linarith) h1.le)
  rw [div_mul_cancel₀ _ h1.ne'] at h2
  simp only [line]; linarith

theorem line_mono {x0 y0 x1 y1 x x' : K} (hlt : x0 < x1) (hy : y0 ≤ y1) (h : x ≤ x') :
    line x0 y0 x1 y1 x ≤ line x0 y0 x1 y1 x' := by
  have h1 : 0 < x1 - x0 := by linarith
  have h2 : (y1 - y0) / (x1 - x0) * (x - x0) ≤ (y1 - y0) / (x1 - x0) * (x' - x0) :=
    mul_le_mul_of_nonneg_left (by linarith) (div_nonneg (by linarith) h1.le)
  simp only [line]; linarith

theorem line_lt {x0 y0 x1 y1 x : K} (hx0 : x0 ≤ x) (hx1 : x < x1) (hy : y0 < y1) :
    line x0 y0 x1 y1 x < y1 := by
  have h1 : 0 < x1 - x0 := by linarith
  have h2 : (y1 - y0) / (x1 - x0) * (x - x0) < (y1 - y0) / (x1 - x0) * (x1 - x0) :=
    mul_lt_mul_of_pos_left (by linarith) (div_pos (by linarith) h1)
  rw [div_mul_cancel₀ _ h1.ne'] at h2
  simp only [line]; linarith

theorem line_line {x0 y0 x1 y1 q : K} (hx : x0 < x1) (hy : y0 < y1) :
    line x0 y0 x1 y1 (line y0 x0 y1 x1 q) = q := by
  have h1 : x1 - x0 ≠ 0 := by intro h; linarith
  have h2 : y1 - y0 ≠ 0 := by intro h; linarith
  simp only [line]
  have : (y1 - y0) / (x1 - x0) * ((x1 - x0) / (y1 - y0) * (q - y0) + x0 - x0) + y0 = q := by
    field_simp
    ring
  exact this

/-- The guard of `npInterpGo` for a point exactly on the left knot is redundant. -/
theorem npInterpGo_cons (x0 y0 x1 y1 : K) (t : List (K × K)) (x : K) :
    npInterpGo x0 y0 ((x1, y1) :: t) x =
      if x1 ≤ x then npInterpGo x1 y1 t x else line x0 y0 x1 y1 x := by
  simp only [npInterpGo]
  split
  · rfl
  · split
    · next h => rw [← h, line_left]
    · rfl

theorem npInterpGo_nil (x0 y0 x : K) : npInterpGo x0 y0 [] x = y0 := rfl

/-- knots with non-decreasing abscissas -/
def MonoX (l : List (K × K)) : Prop := l.IsChain fun a b => a.1 ≤ b.1
/-- knots with strictly increasing abscissas -/
def StrictX (l : List (K × K)) : Prop := l.IsChain fun a b => a.1 < b.1
/-- knots with non-decreasing ordinates -/
def MonoY (l : List (K × K)) : Prop := l.IsChain fun a b => a.2 ≤ b.2
/-- knots with strictly increasing ordinates -/
def StrictY (l : List (K × K)) : Prop := l.IsChain fun a b => a.2 < b.2

omit [Field K] [IsStrictOrderedRing K] in
theorem StrictX.mono {l : List (K × K)} (h : StrictX l) : MonoX l :=
  List.IsChain.imp (fun _ _ h => le_of_lt h) h
omit [Field K] [IsStrictOrderedRing K] in
theorem StrictY.mono {l : List (K × K)} (h : StrictY l) : MonoY l :=
  List.IsChain.imp (fun _ _ h => le_of_lt h) h

omit [Field K] [IsStrictOrderedRing K] in
theorem MonoX.tail {a : K × K} {l : List (K × K)} (h : MonoX (a :: l)) : MonoX l := List.IsChain.tail h
omit [Field K] [IsStrictOrderedRing K] in
theorem MonoY.tail {a : K × K} {l : List (K × K)} (h : MonoY (a :: l)) : MonoY l := List.IsChain.tail h
omit [Field K] [IsStrictOrderedRing K] in
theorem StrictX.tail {a : K × K} {l : List (K × K)} (h : StrictX (a :: l)) : StrictX l := List.IsChain.tail h
omit [Field K] [IsStrictOrderedRing K] in
theorem StrictY.tail {a : K × K} {l : List (K × K)} (h : StrictY (a :: l)) : StrictY l := List.IsChain.tail h

omit [Field K] [IsStrictOrderedRing K] in
theorem MonoX.head {a b : K × K} {l : List (K × K)} (h : MonoX (a :: b :: l)) : a.1 ≤ b.1 :=
  (List.isChain_cons_cons.1 h).1
omit [Field K] [IsStrictOrderedRing K] in
theorem MonoY.head {a b : K × K} {l : List (K × K)} (h : MonoY (a :: b :: l)) : a.2 ≤ b.2 :=
  (List.isChain_cons_cons.1 h).1
omit [Field K] [IsStrictOrderedRing K] in
theorem StrictX.head {a b : K × K} {l : List (K × K)} (h : StrictX (a :: b :: l)) : a.1 < b.1 :=
  (List.isChain_cons_cons.1 h).1
omit [Field K] [IsStrictOrderedRing K] in
theorem StrictY.head {a b : K × K} {l : List (K × K)} (h : StrictY (a :: b :: l)) : a.2 < b.2 :=
  (List.isChain_cons_cons.1 h).1

omit [Field K] [IsStrictOrderedRing K] in
theorem MonoY.le_last {a : K × K} {l : List (K × K)} (h : MonoY (a :: l)) :
    a.2 ≤ ((a :: l).getLast (by simp)).2 := by
  induction l generalizing a with
  | nil => simp
  | cons b l ih => rw [List.getLast_cons (by simp)]; exact h.head.trans (ih h.tail)

omit [Field K] [IsStrictOrderedRing K] in
theorem MonoX.le_last {a : K × K} {l : List (K × K)} (h : MonoX (a :: l)) :
    a.1 ≤ ((a :: l).getLast (by simp)).1 := by
  induction l generalizing a with
  | nil => simp
  | cons b l ih => rw [List.getLast_cons (by simp)]; exact h.head.trans (ih h.tail)

/-- In a chain with non-decreasing ordinates the interpolant never goes below the current knot. -/
theorem le_npInterpGo {x0 y0 x : K} {t : List (K × K)} (hy : MonoY ((x0, y0) :: t)) (hx : x0 ≤ x) :
    y0 ≤ npInterpGo x0 y0 t x := by
  induction t generalizing x0 y0 with
  | nil => simp [npInterpGo]
  | cons p t ih =>
    obtain ⟨x1, y1⟩ := p
    rw [npInterpGo_cons]
    split
    · next h => exact le_trans hy.head (ih hy.tail h)
    · next h => exact le_line hx (not_le.1 h) hy.head

theorem npInterpGo_le {x0 y0 x : K} {t : List (K × K)} (hy : MonoY ((x0, y0) :: t)) (hx : x0 ≤ x) :
    npInterpGo x0 y0 t x ≤ (((x0, y0) :: t).getLast (by simp)).2 := by
  induction t generalizing x0 y0 with
  | nil => simp [npInterpGo]
  | cons p t ih =>
    obtain ⟨x1, y1⟩ := p
    rw [npInterpGo_cons, List.getLast_cons (by simp)]
    split
    · next h => exact ih hy.tail h
    · next h =>
      have h := not_le.1 h
      exact (line_le hx h.le (lt_of_le_of_lt hx h) hy.head).trans hy.tail.le_last

theorem npInterpGo_mono {x0 y0 x x' : K} {t : List (K × K)} (hy : MonoY ((x0, y0) :: t))
    (hx : x0 ≤ x) (hxx : x ≤ x') : npInterpGo x0 y0 t x ≤ npInterpGo x0 y0 t x' := by
  induction t generalizing x0 y0 with
  | nil => simp [npInterpGo]
  | cons p t ih =>
    obtain ⟨x1, y1⟩ := p
    rw [npInterpGo_cons, npInterpGo_cons]
    by_cases h : x1 ≤ x
    · rw [if_pos h, if_pos (h.trans hxx)]; exact ih hy.tail h
    · rw [if_neg h]
      have h := not_le.1 h
      by_cases h' : x1 ≤ x'
      · rw [if_pos h']
        exact (line_le hx h.le (lt_of_le_of_lt hx h) hy.head).trans (le_npInterpGo hy.tail h')
      · rw [if_neg h']
        exact line_mono (lt_of_le_of_lt hx h) hy.head hxx

/-- value on the first knot, strictly increasing abscissas -/
theorem npInterpGo_head {x0 y0 : K} {t : List (K × K)} (hx : StrictX ((x0, y0) :: t)) :
    npInterpGo x0 y0 t x0 = y0 := by
  cases t with
  | nil => rfl
  | cons p t =>
    obtain ⟨x1, y1⟩ := p
    rw [npInterpGo_cons, if_neg (not_le.2 hx.head), line_left]

/-- the interpolant passes through its knots -/
theorem npInterpGo_knot {x0 y0 : K} {t : List (K × K)} (hx : StrictX ((x0, y0) :: t))
    {p : K × K} (hp : p ∈ (x0, y0) :: t) : npInterpGo x0 y0 t p.1 = p.2 := by
  induction t generalizing x0 y0 with
  | nil => simp at hp; simp [hp, npInterpGo]
  | cons q t ih =>
    obtain ⟨x1, y1⟩ := q
    rcases List.mem_cons.1 hp with rfl | hp'
    · exact npInterpGo_head hx
    · have hle : x1 ≤ p.1 := by
        rcases List.mem_cons.1 hp' with rfl | h
        · exact le_refl _
        · have := hx.tail
          have := List.isChain_iff_pairwise (R := fun a b : K × K => a.1 < b.1)
            |>.1 this
          exact le_of_lt ((List.pairwise_cons.1 this).1 p h)
      rw [npInterpGo_cons, if_pos hle]
      exact ih hx.tail hp'

/-- swap abscissas and ordinates of the knots -/
def swapKnots (l : List (K × K)) : List (K × K) := l.map Prod.swap

omit [Field K] [LinearOrder K] [IsStrictOrderedRing K] in
theorem swapKnots_cons (x y : K) (l : List (K × K)) : swapKnots ((x, y) :: l) = (y, x) :: swapKnots l := rfl

/-- the interpolant through swapped knots stays in the range of abscissas -/
theorem swap_mem {x0 y0 q : K} {t : List (K × K)} (hx : MonoX ((x0, y0) :: t)) (hq : y0 ≤ q) :
    x0 ≤ npInterpGo y0 x0 (swapKnots t) q := by
  apply le_npInterpGo (t := swapKnots t) _ hq
  have : MonoY (swapKnots ((x0, y0) :: t)) := by
    unfold MonoY swapKnots; rw [List.isChain_map]; exact hx
  exact this

/-- `F (G q) = q` where `G` interpolates the swapped knots: ordinates only need to be
non-decreasing. -/
theorem npInterpGo_swap {x0 y0 q : K} {t : List (K × K)} (hx : StrictX ((x0, y0) :: t))
    (hy : MonoY ((x0, y0) :: t)) (hq0 : y0 ≤ q) (hq1 : q ≤ (((x0, y0) :: t).getLast (by simp)).2) :
    npInterpGo x0 y0 t (npInterpGo y0 x0 (swapKnots t) q) = q := by
  induction t generalizing x0 y0 with
  | nil => simp at hq1; simp [npInterpGo, swapKnots]; exact le_antisymm hq0 hq1
  | cons p t ih =>
    obtain ⟨x1, y1⟩ := p
    rw [swapKnots_cons, npInterpGo_cons y0 x0 y1 x1]
    by_cases h : y1 ≤ q
    · rw [if_pos h, npInterpGo_cons, if_pos (swap_mem hx.tail.mono h)]
      rw [List.getLast_cons (by simp)] at hq1
      exact ih hx.tail hy.tail h hq1
    · rw [if_neg h]
      have h := not_le.1 h
      have hy01 : y0 < y1 := lt_of_le_of_lt hq0 h
      have hlt : line y0 x0 y1 x1 q < x1 := line_lt hq0 h hx.head
      rw [npInterpGo_cons, if_neg (not_le.2 hlt)]
      exact line_line hx.head hy01

/-- agreement of `np.interp` and scipy's `_call_linear` for increasing abscissas -/
theorem linGo_eq_npInterpGo {x0 y0 x : K} {t : List (K × K)} (hx : StrictX ((x0, y0) :: t))
    (h0 : x0 ≤ x) (h1 : x ≤ (((x0, y0) :: t).getLast (by simp)).1) :
    linGo x0 y0 t x = npInterpGo x0 y0 t x := by
  induction t generalizing x0 y0 with
  | nil => rfl
  | cons p t ih =>
    obtain ⟨x1, y1⟩ := p
    rw [npInterpGo_cons]
    cases t with
    | nil =>
      simp at h1
      simp only [linGo, npInterpGo]
      split
      · next h => rw [le_antisymm h1 h, line_right _ _ (ne_of_lt hx.head)]
      · rfl
    | cons p2 t =>
      obtain ⟨x2, y2⟩ := p2
      simp only [linGo]
      rw [List.getLast_cons (by simp)] at h1
      rcases lt_trichotomy x x1 with h | h | h
      · rw [if_pos h.le, if_neg (not_le.2 h)]
      · subst h
        rw [if_pos le_rfl, if_pos le_rfl, line_right _ _ (ne_of_lt hx.head), npInterpGo_head hx.tail]
      · rw [if_neg (not_le.2 h), if_pos h.le]
        exact ih hx.tail h.le h1

end Verif.Np
