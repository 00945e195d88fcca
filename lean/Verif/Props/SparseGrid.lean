import Verif.Model.SparseGrid
import Verif.Props.Paths
import Verif.Lemmas.Dict
import Mathlib.Algebra.Order.Ring.Rat

/-!
# C87: the grid of a conversion to the sparse class

Specification vocabulary: `LastPositive` (below), `Spec.area`, `Spec.areaTo`.
-/

set_option linter.unusedSectionVars false
set_option autoImplicit false

namespace Verif.Props.SparseGrid

open Verif Verif.Np Verif.Model Verif.Spec Verif.Lemmas Verif.Lemmas.InterpPdf Verif.Props.InterpPdf

variable {K : Type} [Field K] [LinearOrder K] [IsStrictOrderedRing K]

/-- column `j` is the last one in which some PDF has a positive density -/
def LastPositive (ys : List (List K)) (j : ℕ) : Prop :=
  (∃ r ∈ ys, ∃ v, r[j]? = some v ∧ 0 < v) ∧ ∀ r ∈ ys, ∀ (k : ℕ) v, r[k]? = some v → j < k → v ≤ 0

omit [IsStrictOrderedRing K] in
theorem mem_positiveColumns (ys : List (List K)) (j : ℕ) :
    j ∈ positiveColumns ys ↔ ∃ r ∈ ys, ∃ v, r[j]? = some v ∧ 0 < v := by
  simp only [positiveColumns, List.mem_flatMap, List.mem_filter, List.mem_range, decide_eq_true_eq]
  constructor
  · rintro ⟨r, hr, hj, hp⟩
    refine ⟨r, hr, r[j], List.getElem?_eq_getElem hj, ?_⟩
    rwa [List.getD_eq_getElem?_getD, List.getElem?_eq_getElem hj] at hp
  · rintro ⟨r, hr, v, hv, hp⟩
    refine ⟨r, hr, (List.getElem?_eq_some_iff.1 hv).1, ?_⟩
    rw [List.getD_eq_getElem?_getD, hv]; exact hp

omit [Field K] [IsStrictOrderedRing K] in
theorem rowMin_sorted (a : K) (t : List K) (h : (a :: t).Pairwise (· < ·)) : rowMin (a :: t) = .ok a := by
  have h1 := (List.pairwise_cons.1 h).1
  have : ∀ l : List K, (∀ b ∈ l, a < b) → l.foldl min a = a := by
    intro l hl
    induction l with
    | nil => rfl
    | cons b l ih =>
      rw [List.foldl_cons, min_eq_left (hl b (by simp)).le]
      exact ih fun c hc => hl c (by simp [hc])
  simp [rowMin, this t h1]

omit [Field K] [IsStrictOrderedRing K] in
/-- on an increasing grid, a larger position has a larger abscissa -/
theorem get_le {xs : List K} (h : xs.Pairwise (· < ·)) {i j : ℕ} {a b : K} (ha : xs[i]? = some a) (hb : xs[j]? = some b) (hij : i ≤ j) :
    a ≤ b := by
  obtain ⟨hi, rfl⟩ := List.getElem?_eq_some_iff.1 ha
  obtain ⟨hj, rfl⟩ := List.getElem?_eq_some_iff.1 hb
  rcases Nat.lt_or_eq_of_le hij with h' | h'
  · exact (List.pairwise_iff_getElem.1 h i j hi hj h').le
  · subst h'; exact le_rfl

theorem linspace_mem {a b v : K} {n : ℕ} (hn : 2 ≤ n) (hab : a ≤ b) (hv : v ∈ Np.linspace a b n) : a ≤ v ∧ v ≤ b := by
  simp only [Np.linspace, List.mem_map, List.mem_range] at hv
  obtain ⟨i, hi, rfl⟩ := hv
  rw [if_neg (by omega)]
  have h1 : (0 : K) < (n : K) - 1 := by
    have : (2 : K) ≤ (n : K) := by exact_mod_cast hn
    linarith
  have h2 : (i : K) ≤ (n : K) - 1 := by
    have : (i : K) + 1 ≤ (n : K) := by exact_mod_cast hi
    linarith
  have h0 : (0 : K) ≤ i := Nat.cast_nonneg i
  have h3 : 0 ≤ (b - a) / ((n : K) - 1) := div_nonneg (by linarith) h1.le
  constructor
  · have := mul_nonneg h0 h3; linarith
  · have := mul_le_mul_of_nonneg_right h2 h3
    rw [mul_div_cancel₀ _ h1.ne'] at this
    linarith

omit [IsStrictOrderedRing K] in
theorem interpLin_some (p : K × K) (t : List (K × K)) (v : K) : ∃ d, interpLin 0 0 (p :: t) v = some d := by
  simp only [interpLin]
  split
  · exact ⟨_, rfl⟩
  · split <;> exact ⟨_, rfl⟩

/-- **C87: the new grid and the values on it.** For PDFs given on an increasing grid of at least two points: without any positive
density the conversion raises `ValueError`; otherwise the new grid consists of `n` equally spaced points from the first grid point to
the last grid point at which some PDF is positive, and every PDF is replaced by its own densities at these points.
Missing: that the new grid covers the PDFs (`C87_covered_iff`, false in `C87_half_lost_wrong`). -/
theorem C87_grid_partial (xs : List K) (ys : List (List K)) (n : ℕ) (hx : xs.Pairwise (· < ·)) (h2 : 2 ≤ xs.length)
    (hlen : ∀ r ∈ ys, r.length = xs.length) (hn : 2 ≤ n) :
    ((∀ r ∈ ys, ∀ v ∈ r, v ≤ 0) → rebin xs ys n = .error .ValueError) ∧
    ∀ (j : ℕ) a b, LastPositive ys j → xs[0]? = some a → xs[j]? = some b →
      ∃ rows, rebin xs ys n = .ok (Np.linspace a b n, rows) ∧ rows.length = ys.length ∧
        ∀ (i : ℕ) r, ys[i]? = some r → ∃ nr, rows[i]? = some nr ∧ nr.map some = (Np.linspace a b n).map (interpPdf xs r) := by
  obtain ⟨a0, t, rfl⟩ : ∃ a0 t, xs = a0 :: t := by
    cases xs with
    | nil => simp at h2
    | cons a t => exact ⟨a, t, rfl⟩
  have hpick : (positiveColumns ys).mapM (pickAt (a0 :: t)) = .ok ((positiveColumns ys).map fun (j : ℕ) => (a0 :: t).getD j 0) := by
    apply mapM_ok_map
    intro j hj
    obtain ⟨r, hr, v, hv, -⟩ := (mem_positiveColumns ys j).1 hj
    have hjl : j < (a0 :: t).length := by rw [← hlen r hr]; exact (List.getElem?_eq_some_iff.1 hv).1
    rw [pickAt, List.getElem?_eq_getElem hjl, List.getD_eq_getElem?_getD, List.getElem?_eq_getElem hjl]; rfl
  constructor
  · intro h0
    have : positiveColumns ys = [] := by
      apply List.eq_nil_iff_forall_not_mem.2
      intro j hj
      obtain ⟨r, hr, v, hv, hp⟩ := (mem_positiveColumns ys j).1 hj
      exact absurd (h0 r hr v (List.mem_of_getElem? hv)) (not_le.2 hp)
    unfold rebin
    rw [rowMin_sorted a0 t hx]
    simp only [bind, Except.bind]
    rw [this]
    rfl
  · intro j a b hj ha hb
    have ha0 : a = a0 := by simpa using ha.symm
    subst ha0
    have hmax : rowMax ((positiveColumns ys).map fun (j : ℕ) => (a :: t).getD j 0) = .ok b := by
      rw [rowMax_ok_iff]
      constructor
      · rw [List.mem_map]
        refine ⟨j, (mem_positiveColumns ys j).2 hj.1, ?_⟩
        rw [List.getD_eq_getElem?_getD, hb]; rfl
      · intro v hv
        obtain ⟨k, hk, rfl⟩ := List.mem_map.1 hv
        obtain ⟨r, hr, w, hw, hp⟩ := (mem_positiveColumns ys k).1 hk
        have hkl : k < (a :: t).length := by rw [← hlen r hr]; exact (List.getElem?_eq_some_iff.1 hw).1
        have hkj : k ≤ j := by
          by_contra hlt
          exact absurd (hj.2 r hr k w hw (by omega)) (not_le.2 hp)
        rw [List.getD_eq_getElem?_getD, List.getElem?_eq_getElem hkl]
        exact get_le hx (List.getElem?_eq_getElem hkl) hb hkj
    have hab : a ≤ b := get_le hx ha hb (Nat.zero_le _)
    have hne : (a :: t) ≠ [] := by simp
    have hlast : (a :: t).getLastD 0 = (a :: t).getLast hne := by
      rw [List.getLastD_eq_getLast?, List.getLast?_eq_some_getLast hne]; rfl
    have hbl : b ≤ (a :: t).getLastD 0 := by
      rw [hlast]; exact getLast_max hx hne (List.mem_of_getElem? hb)
    have hin : (Np.linspace a b n).any (fun v => decide (v < (a :: t).headD 0) || decide ((a :: t).getLastD 0 < v)) = false := by
      rw [List.any_eq_false]
      intro v hv
      obtain ⟨h1, h3⟩ := linspace_mem hn hab hv
      rw [Bool.or_eq_true, decide_eq_true_eq, decide_eq_true_eq, not_or, not_lt, not_lt]
      exact ⟨h1, h3.trans hbl⟩
    have hlens : ys.any (fun r => decide (r.length ≠ (a :: t).length)) = false := by
      rw [List.any_eq_false]
      intro r hr
      simp [hlen r hr]
    have hrows : ys.mapM (fun r => (Np.linspace a b n).mapM (lineAt (a :: t) r)) = .ok (ys.map fun r => (Np.linspace a b n).map fun v => (interpLin 0 0 ((a :: t).zip r) v).getD 0) := by
      apply mapM_ok_map
      intro r hr
      apply mapM_ok_map
      intro v hv
      have hl := hlen r hr
      cases r with
      | nil => simp at hl
      | cons u s =>
        obtain ⟨d, hd⟩ := interpLin_some (K := K) (a, u) (t.zip s) v
        rw [lineAt, List.zip_cons_cons, hd]; rfl
    refine ⟨ys.map fun r => (Np.linspace a b n).map fun v => (interpLin 0 0 ((a :: t).zip r) v).getD 0, ?_, List.length_map _, ?_⟩
    · unfold rebin
      rw [rowMin_sorted a t hx]
      simp only [bind, Except.bind]
      rw [hpick]
      simp only
      rw [hmax]
      simp only
      rw [hlens, hin, hrows]
      rfl
    · intro i r hr
      refine ⟨_, by rw [List.getElem?_map, hr]; rfl, ?_⟩
      rw [List.map_map]
      apply List.map_congr_left
      intro v _
      have e := (Paths.C04_paths_same_function (a :: t) r [] hx).2
      rw [← e]
      have hl := hlen r (List.mem_of_getElem? hr)
      cases r with
      | nil => simp at hl
      | cons u s =>
        obtain ⟨d, hd⟩ := interpLin_some (K := K) (a, u) (t.zip s) v
        rw [Function.comp, interpPdfLin, List.zip_cons_cons, hd]; rfl

/-- area up to a grid point behind which everything is zero -/
private theorem area_cut (xs r : List K) : ∀ (j : ℕ), xs.length = r.length → (∀ (k : ℕ) v, r[k]? = some v → j < k → v = 0) →
    ∀ b y, xs[j]? = some b → r[j]? = some y →
    area xs r = areaTo j xs r + match xs[j+1]? with
      | none => 0
      | some c => (c - b) * y / 2 := by
  induction xs generalizing r with
  | nil => intro j _ _ b y hb; simp at hb
  | cons a xs ih =>
    intro j hl h0 b y hb hy
    match r, hl with
    | u :: r, hl =>
    have hl' : xs.length = r.length := by simpa using hl
    cases j with
    | zero =>
      simp at hb hy
      subst hb hy
      match xs, r, hl' with
      | [], [], _ => simp [area, areaTo]
      | c :: xs, v :: r, hl' =>
        have hv : v = 0 := h0 1 v (by simp) (by simp)
        subst hv
        have hz : ∀ (xs r : List K), (∀ w ∈ r, w = 0) → area xs r = 0 := by
          intro xs
          induction xs with
          | nil => intro r _; simp [area]
          | cons p xs ih =>
            intro r hr
            match xs, r with
            | [], _ => simp [area]
            | q :: xs, [] => simp [area]
            | q :: xs, [w] => simp [area]
            | q :: xs, w :: w' :: r =>
              have e1 : w = 0 := hr w (by simp)
              have e2 : w' = 0 := hr w' (by simp)
              rw [area, ih (w' :: r) fun z hz => hr z (by simp at hz ⊢; tauto), e1, e2]
              simp
        have : area (c :: xs) (0 :: r) = 0 := by
          apply hz
          intro w hw
          obtain ⟨k, hk⟩ := List.mem_iff_getElem?.1 hw
          exact h0 (k + 1) w (by simpa using hk) (by omega)
        simp [area, areaTo, this]
    | succ j =>
      simp only [List.getElem?_cons_succ] at hb hy
      match xs, r, hl' with
      | [], [], _ => simp at hb
      | c :: xs, v :: r, hl' =>
        have := ih (v :: r) j hl' (fun k w hk hjk => h0 (k + 1) w (by simpa using hk) (by omega)) b y hb hy
        simp only [area, areaTo, List.getElem?_cons_succ] at this ⊢
        rw [this]; ring

/-- **C87: what the new grid leaves out.** Of a PDF without negative densities the conversion keeps the area up to the end of the new
grid; the area under the segment from the last positive grid point to the next grid point is lost. -/
theorem C87_lost (xs r : List K) (ys : List (List K)) (hr : r ∈ ys) (hlen : xs.length = r.length) (hpos : ∀ v ∈ r, 0 ≤ v) (j : ℕ)
    (hj : LastPositive ys j) (b y : K) (hb : xs[j]? = some b) (hy : r[j]? = some y) :
    (∀ c, xs[j+1]? = some c → area xs r = areaTo j xs r + (c - b) * y / 2) ∧
    (j + 1 = xs.length → area xs r = areaTo j xs r) := by
  have h := area_cut xs r j hlen (fun k v hk hjk =>
    le_antisymm (hj.2 r hr k v hk hjk) (hpos v (List.mem_of_getElem? hk))) b y hb hy
  constructor
  · intro c hc; rw [hc] at h; exact h
  · intro he
    rw [List.getElem?_eq_none (by omega), add_zero] at h
    exact h

/-- **C87, exact characterisation**: some PDF has a positive density behind the end of the new grid if and only if the last positive
grid point is not the last grid point. -/
theorem C87_covered_iff (xs : List K) (ys : List (List K)) (hx : xs.Pairwise (· < ·)) (h2 : 2 ≤ xs.length)
    (hlen : ∀ r ∈ ys, r.length = xs.length) (hpos : ∀ r ∈ ys, ∀ v ∈ r, 0 ≤ v) (j : ℕ) (hj : LastPositive ys j) (b : K)
    (hb : xs[j]? = some b) :
    (∃ r ∈ ys, ∃ x d, b < x ∧ interpPdf xs r x = some d ∧ 0 < d) ↔ j + 1 < xs.length := by
  have hjl : j < xs.length := (List.getElem?_eq_some_iff.1 hb).1
  constructor
  · rintro ⟨r, hr, x, d, hbx, hd, hdp⟩
    by_contra hn
    have hg : XGrid xs r.length := ⟨hx, (hlen r hr).symm, by rw [hlen r hr]; exact h2⟩
    have := (C15_pdf_through_points xs r hg).2.2.1 x (Or.inr fun e he => by
      obtain ⟨k, hk⟩ := List.mem_iff_getElem?.1 he
      have hkl : k < xs.length := (List.getElem?_eq_some_iff.1 hk).1
      exact lt_of_le_of_lt (get_le hx hk hb (by omega)) hbx)
    rw [this] at hd
    injection hd with hd
    exact absurd hdp (by rw [← hd]; exact lt_irrefl _)
  · intro hlt
    obtain ⟨r, hr, y, hy, hyp⟩ := hj.1
    have hg : XGrid xs r.length := ⟨hx, (hlen r hr).symm, by rw [hlen r hr]; exact h2⟩
    have hc : xs[j+1]? = some xs[j+1] := List.getElem?_eq_getElem hlt
    have hrl : j + 1 < r.length := by rw [hlen r hr]; exact hlt
    have hz : r[j+1]? = some r[j+1] := List.getElem?_eq_getElem hrl
    have hz0 : r[j+1] = 0 := le_antisymm (hj.2 r hr (j+1) _ hz (by omega)) (hpos r hr _ (List.getElem_mem hrl))
    have hbc : b < xs[j+1] := by
      obtain ⟨hj', rfl⟩ := List.getElem?_eq_some_iff.1 hb
      exact List.pairwise_iff_getElem.1 hx j (j+1) hj' hlt (by omega)
    obtain ⟨d, hd, he, -, -⟩ := (C15_pdf_through_points xs r hg).2.1 j b xs[j+1] y r[j+1] ((b + xs[j+1]) / 2) hb hc hy hz (by linarith) (by linarith)
    refine ⟨r, hr, (b + xs[j+1]) / 2, d, by linarith, hd, ?_⟩
    rw [hz0] at he
    have hw : 0 < xs[j+1] - b := by linarith
    have : d * (xs[j+1] - b) = y * ((xs[j+1] - b) / 2) := by linear_combination he
    have h3 : 0 < d * (xs[j+1] - b) := by rw [this]; exact mul_pos hyp (by linarith)
    exact (pos_iff_pos_of_mul_pos h3).2 hw

/-! ## instances -/

/-- grid 0, 1, 2, 3, the triangle with its top at 1: the new grid ends at 1 and half of the mass is gone -/
theorem C87_half_lost_wrong :
    rebin (K := ℚ) [0, 1, 2, 3] [[0, 1, 0, 0]] 3 = .ok ([0, 1/2, 1], [[0, 1/2, 1]]) ∧
    area (K := ℚ) [0, 1, 2, 3] [0, 1, 0, 0] = 1 ∧ area (K := ℚ) [0, 1/2, 1] [0, 1/2, 1] = 1/2 ∧
    interpPdf (K := ℚ) [0, 1, 2, 3] [0, 1, 0, 0] (3/2) = some (1/2) := by
  refine ⟨?_, ?_, ?_, ?_⟩ <;> decide +kernel

private theorem exLast : LastPositive (K := ℚ) [[0, 1, 0, 0], [1, 1, 2, 0]] 2 := by
  constructor
  · exact ⟨[1, 1, 2, 0], by simp, 2, by simp, by norm_num⟩
  · intro r hr k v hk hjk
    match k, hjk with
    | 3, _ =>
      simp only [List.mem_cons, List.not_mem_nil, or_false] at hr
      rcases hr with rfl | rfl <;> (simp at hk; exact hk.ge)
    | k + 4, _ =>
      simp only [List.mem_cons, List.not_mem_nil, or_false] at hr
      rcases hr with rfl | rfl <;> simp at hk

example := (C87_grid_partial (K := ℚ) [0, 1, 2, 3] [[0, 1, 0, 0], [1, 1, 2, 0]] 3 (by decide +kernel) (by simp) (by simp) (by norm_num)).2
  2 0 2 exLast rfl rfl
example := C87_lost (K := ℚ) [0, 1, 2, 3] [1, 1, 2, 0] [[0, 1, 0, 0], [1, 1, 2, 0]] (by simp) rfl (by simp) 2 exLast 2 2 rfl rfl
example := C87_covered_iff (K := ℚ) [0, 1, 2, 3] [[0, 1, 0, 0], [1, 1, 2, 0]] (by decide +kernel) (by simp) (by simp) (by simp) 2 exLast 2 rfl

end Verif.Props.SparseGrid
