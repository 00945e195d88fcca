import Verif.Lemmas.EvalCase
import Mathlib.Algebra.Order.Ring.Rat
import Mathlib.Tactic.NormNum

/-!
# C01-C04: which PDF is evaluated at which point

`f r v` stands for the value of PDF number `r` at the point `v` (density, CDF or PPF, of any class that goes
through `utils.get_eval_case`). `β` is the type of values.
-/

namespace Verif.Props.Evaluation

open Verif Verif.Np Verif.Model

variable {K : Type*} [LinearOrder K] {β : Type*}

/-! ## Specification -/

/-- C01: the table of values a user expects from `ens.pdf(x)`: row `i`, column `j` is PDF `i` at `x[j]`. -/
def SharedSpec (f : ℕ → K → β) (npdf : ℕ) (x : List K) : List (List β) :=
  (List.range npdf).map fun i => x.map fun v => f i v

/-- C02: one point per PDF: entry `i` is PDF `i` at `x[i]`. -/
def PerPdfSpec (f : ℕ → K → β) (x : List K) : List (List β) :=
  x.zipIdx.map fun p => [f p.2 p.1]

/-- general matrix of points: entry `(i,j)` is PDF `i` at `X[i][j]`. -/
def MatSpec (f : ℕ → K → β) (X : List (List K)) : List (List β) :=
  X.zipIdx.map fun p => p.1.map fun v => f p.2 v

/-! ## C01 -/

theorem shared_core (f : ℕ → K → β) (npdf : ℕ) (x : List K) (h : (List.replicate npdf x).flatten ≠ []) :
    dispatch f f f (.vec (List.replicate npdf x).flatten) (.vec (flatRows 0 (List.replicate npdf x))) =
      .ok (SharedSpec f npdf (if 2 ≤ npdf ∧ x.Nodup then sort x else x)).flatten := by
  have hx : x ≠ [] := by rintro rfl; simp at h
  have hn : npdf ≠ 0 := by rintro rfl; simp at h
  have hnx : x.length ≠ 0 := by simpa using hx
  set X := List.replicate npdf x with hX
  have hlen : X.flatten.length = npdf * x.length := by simp [hX]
  have hrl : (flatRows 0 X).length = npdf * x.length := by rw [flatRows_length, hlen]
  have hflat : evalFlat f X.flatten (flatRows 0 X) = .ok (SharedSpec f npdf x).flatten := by
    unfold evalFlat
    rw [if_pos (by rw [hlen, hrl]), zipWith_flatRows, hX, zipIdx_replicate_map]
    simp [SharedSpec, List.range_eq_range']
  have hux : unique X.flatten = unique x := unique_congr (mem_flatten_replicate hn)
  have hur : unique (flatRows 0 X) = List.range npdf := unique_flatRows_replicate hx npdf
  have hprod : ∀ xs : List K, evalProduct f xs (List.range npdf) = (SharedSpec f npdf xs).flatten := by
    intro xs; simp [evalProduct, SharedSpec, List.flatMap_def]
  rw [dispatch_vec, hlen, hrl, hux, hur, List.length_range]
  by_cases h1 : npdf * x.length = 1
  · rw [if_pos (Or.inl h1), hflat]
    have : npdf = 1 := Nat.eq_one_of_mul_eq_one_right h1
    rw [if_neg (by omega)]
  by_cases hnd : x.Nodup
  swap
  · -- a repeated point: nothing is factored
    rw [if_neg (show ¬ (2 ≤ npdf ∧ x.Nodup) from fun hc => hnd hc.2), if_pos, hflat]
    refine Or.inr (Or.inr fun hc => hnd ?_)
    rw [Nat.mul_comm] at hc
    exact (length_unique_eq_iff x).1 (Nat.eq_of_mul_eq_mul_left (by omega) hc)
  have hl := (length_unique_eq_iff x).2 hnd
  rw [if_neg (by rw [hl, Nat.mul_comm x.length]; simp [h1])]
  by_cases hn1 : npdf = 1
  · -- a single PDF: the points are kept in the order given
    subst hn1
    have hX1 : X.flatten = x := by simp [hX]
    rw [if_neg (show ¬ (2 ≤ 1 ∧ x.Nodup) by omega), if_pos (by omega), if_neg (by omega), hX1, hprod]
  · have h2 : 2 ≤ npdf := by omega
    have hlt : x.length < npdf * x.length :=
      calc x.length < 2 * x.length := by omega
        _ ≤ npdf * x.length := Nat.mul_le_mul_right _ h2
    have hrr : (if npdf = npdf * x.length then flatRows 0 X else List.range npdf) = List.range npdf := by
      split
      · next h' =>
        have hx1 : x.length = 1 := by
          have h3 : npdf * 1 = npdf * x.length := by omega
          exact (Nat.eq_of_mul_eq_mul_left (by omega) h3).symm
        obtain ⟨a, rfl⟩ := List.length_eq_one_iff.1 hx1
        have h4 : ∀ n s, flatRows s (List.replicate n [a]) = List.range' s n := by
          intro n; induction n with
          | zero => intro s; rfl
          | succ n ih => intro s; simp [List.replicate_succ, flatRows, List.range'_succ, ih]
        rw [hX, h4, ← List.range_eq_range']
      · rfl
    rw [hrr, if_neg (by omega), if_pos (And.intro h2 hnd), unique_of_nodup hnd, hprod]

/-- **C01, exact behaviour.** For *every* list of points, `ens.pdf(x)` evaluates PDF `i` at the points *in sorted
order* when there are at least two PDFs and the points are distinct, and at the points as given otherwise. -/
theorem C01_shared_grid_exact (f : ℕ → K → β) (npdf : ℕ) (x : List K) :
    evalShared (dispatch f f f) npdf x =
      .ok (SharedSpec f npdf (if 2 ≤ npdf ∧ x.Nodup then x.insertionSort (· ≤ ·) else x)) := by
  apply scipyEval_of_core (fun h => shared_core f npdf x h)
  have : (if 2 ≤ npdf ∧ x.Nodup then sort x else x).length = x.length := by
    split <;> simp [sort]
  simp only [SharedSpec, List.map_map, List.map_replicate]
  rw [List.eq_replicate_iff]
  simp [this]

/-- **C01 (partial).** The full statement (correct for every order of the points) is false, see
`C01_unsorted_points_wrong`. It holds when the points are strictly increasing, or contain a repetition, or
when there is at most one PDF. -/
theorem C01_shared_grid_partial (f : ℕ → K → β) (npdf : ℕ) (x : List K)
    (h : x.Pairwise (· < ·) ∨ ¬ x.Nodup ∨ npdf ≤ 1) :
    evalShared (dispatch f f f) npdf x = .ok (SharedSpec f npdf x) := by
  rw [C01_shared_grid_exact]
  split
  · next hc =>
    rcases h with h | h | h
    · rw [show x.insertionSort (· ≤ ·) = x from (h.imp le_of_lt).insertionSort_eq]
    · exact absurd hc.2 h
    · omega
  · rfl

/-- **C01 is violated** for points that are not sorted: with two PDFs, asking for the values at `[2, 1]` returns
the values at `[1, 2]`. -/
theorem C01_unsorted_points_wrong :
    ∃ (f : ℕ → ℚ → ℚ) (npdf : ℕ) (x : List ℚ),
      evalShared (dispatch f f f) npdf x ≠ .ok (SharedSpec f npdf x) ∧
      evalShared (dispatch f f f) npdf x = .ok (SharedSpec f npdf [1, 2]) ∧ x = [2, 1] := by
  refine ⟨fun _ v => v, 2, [2, 1], ?_, ?_, rfl⟩
  · rw [C01_shared_grid_exact]; decide +kernel
  · rw [C01_shared_grid_exact]; decide +kernel

example : (evalShared (dispatch (fun r v => (r : ℚ) * v) (fun r v => (r : ℚ) * v) (fun r v => (r : ℚ) * v)) 3
    [1, 2, 5]).toOption = some [[0, 0, 0], [1, 2, 5], [2, 4, 10]] := by decide +kernel
example : ([1, 2, 5] : List ℚ).Pairwise (· < ·) := by decide +kernel

/-! ## C02 -/

private theorem flatRows_singletons {α : Type*} (x : List α) (s : ℕ) :
    flatRows s (x.map fun v => [v]) = List.range' s x.length := by
  induction x generalizing s with
  | nil => rfl
  | cons a x ih => simp [flatRows, ih, List.range'_succ]

private theorem perpdf_core (f : ℕ → K → β) (x : List K) :
    dispatch f f f (.vec x) (.vec (List.range' 0 x.length)) = .ok (PerPdfSpec f x).flatten := by
  have hzip : ∀ s, List.zipWith (fun r v => f r v) (List.range' s x.length) x =
      ((x.zipIdx s).map fun p => [f p.2 p.1]).flatten := by
    induction x with
    | nil => intro s; rfl
    | cons a x ih => intro s; simp [List.range'_succ, List.zipIdx_cons, ih]
  have hflat : evalFlat f x (List.range' 0 x.length) = .ok (PerPdfSpec f x).flatten := by
    unfold evalFlat; rw [if_pos (by simp), hzip 0]; rfl
  have hr : (unique (List.range' 0 x.length)).length = x.length := by
    rw [(length_unique_eq_iff _).2 (List.nodup_range')]; simp
  rw [dispatch_vec, hr, List.length_range']
  by_cases h1 : x.length = 1
  · rw [if_pos (Or.inl h1), hflat]
  by_cases hc : (unique x).length * x.length ≠ x.length
  · rw [if_pos (Or.inr (Or.inr hc)), hflat]
  rw [if_neg (by simp only [h1, hc, or_self, not_false_eq_true])]
  simp only [ne_eq, not_not] at hc
  by_cases h0 : x.length = 0
  · have : x = [] := List.length_eq_zero_iff.1 h0
    subst this; simp [evalProduct, PerPdfSpec]
  have hu : (unique x).length = 1 :=
    Nat.eq_of_mul_eq_mul_right (Nat.pos_of_ne_zero h0) (by omega)
  rw [hu, if_neg (fun h => h1 h.symm)]
  obtain ⟨a, ha⟩ := List.length_eq_one_iff.1 hu
  have hall : ∀ v ∈ x, v = a := by
    intro v hv
    have := (mem_unique (l := x)).2 hv
    rw [ha] at this; simpa using this
  rw [ha]
  simp only [if_true]
  congr 1
  have : ∀ s, (List.range' s x.length).flatMap (fun r => [a].map (f r)) =
      ((x.zipIdx s).map fun p => [f p.2 p.1]).flatten := by
    clear hzip hflat h1 hr hc h0 hu ha
    induction x with
    | nil => intro s; rfl
    | cons b x ih =>
      intro s
      have hb := hall b (by simp)
      have hih := ih (fun v hv => hall v (by simp [hv])) (s + 1)
      rw [List.length_cons, List.range'_succ, List.flatMap_cons, hih, List.zipIdx_cons, hb]
      rfl
  exact this 0

/-- **C02.** One point per PDF (`x` of shape (npdf, 1)): entry `i` is PDF `i` at its own point, for every list of
points, whatever coincidences there are between them. -/
theorem C02_one_point_per_pdf (f : ℕ → K → β) (x : List K) :
    evalPerPdf (dispatch f f f) x = .ok (PerPdfSpec f x) := by
  apply scipyEval_of_core
  · intro _
    have : ∀ x : List K, (x.map fun v => [v]).flatten = x := by
      intro x
      induction x with
      | nil => rfl
      | cons a x ih => simp only [List.map_cons, List.flatten_cons, ih]; rfl
    rw [this x, flatRows_singletons]
    exact perpdf_core f x
  · simp only [PerPdfSpec, List.map_map]
    have : ∀ s, (x.zipIdx s).map (List.length ∘ fun p : K × ℕ => [f p.2 p.1]) =
        x.map (List.length ∘ fun v => [v]) := by
      induction x with
      | nil => intro s; rfl
      | cons a x ih => intro s; simp only [List.zipIdx_cons, List.map_cons, ih]; rfl
    exact this 0

example : (evalPerPdf (dispatch (fun r v => (r : ℚ) + 10 * v) (fun r v => (r : ℚ) + 10 * v)
    (fun r v => (r : ℚ) + 10 * v)) [7, 7, 5]).toOption = some [[70], [71], [52]] := by decide +kernel
example : (evalPerPdf (dispatch (fun r v => (r : ℚ) + 10 * v) (fun r v => (r : ℚ) + 10 * v)
    (fun r v => (r : ℚ) + 10 * v)) [7, 7, 7]).toOption = some [[70], [71], [72]] := by decide +kernel

/-! ## C03 -/

/-- **C03.** The 2-D path taken by `rvs` (`_rvs` draws `U` of shape (npdf, size) and calls `_ppf(U, row)` with the
frozen `row = [[0],[1],...]`): draw `(i,j)` is transformed with the PPF of PDF `i`, for every matrix of draws. -/
theorem C03_sampling_uses_own_pdf (f f' f'' : ℕ → K → β) (U : List (List K)) :
    dispatch f f' f'' (.mat U) (.mat ((List.range U.length).map fun i => [i])) =
      .ok (MatSpec f'' U).flatten := by
  have h1 : ((List.range U.length).map fun i => [i]).flatten = List.range U.length := by
    have : ∀ l : List ℕ, (l.map fun i => [i]).flatten = l := by
      intro l; induction l with
      | nil => rfl
      | cons a l ih => simp only [List.map_cons, List.flatten_cons, ih]; rfl
    exact this _
  have h2 : ∀ s, List.zipWith (fun r xs => xs.map (f'' r)) (List.range' s U.length) U =
      (U.zipIdx s).map fun p => p.1.map fun v => f'' p.2 v := by
    clear h1
    induction U with
    | nil => intro s; rfl
    | cons a U ih =>
      intro s
      simp only [List.length_cons, List.range'_succ, List.zipWith_cons_cons, List.zipIdx_cons, List.map_cons]
      rw [ih]
  simp only [dispatch, getEvalCase, Pts.ndim]
  simp only [le_refl, true_and, ne_eq, if_true, show ((2 : ℕ) = 1) = False by simp, not_false_eq_true]
  simp only [eval2D, h1, List.length_range, if_true]
  rw [if_pos (by simp)]
  congr 2
  rw [List.range_eq_range']
  exact h2 0

example : (dispatch (fun r v => (r : ℚ) + 10 * v) (fun r v => (r : ℚ) + 10 * v)
    (fun r v => (r : ℚ) + 10 * v) (.mat [[1, 2], [2, 1]]) (.mat [[0], [1]])).toOption =
      some [10, 20, 21, 11] := by decide +kernel

/-! ## C04 -/

/-- **C04 (partial), flat path.** Whenever the dispatcher does not factor the arguments, every `(row, point)` pair
is evaluated on its own, for arbitrary matrices of points. -/
theorem C04_flat_path_partial (f : ℕ → K → β) (X : List (List K))
    (h : (X.flatten.dedup.length) * ((flatRows 0 X).dedup.length) ≠ X.flatten.length) :
    scipyEval (dispatch f f f) X = .ok (MatSpec f X) := by
  apply scipyEval_of_core
  · intro _
    have hflat : evalFlat f X.flatten (flatRows 0 X) = .ok (MatSpec f X).flatten := by
      unfold evalFlat
      rw [if_pos (flatRows_length X 0).symm, zipWith_flatRows]; rfl
    rw [dispatch_vec, if_pos, hflat]
    refine Or.inr (Or.inr ?_)
    rwa [length_unique, length_unique]
  · simp only [MatSpec, List.map_map]
    have : ∀ (X : List (List K)) s, (X.zipIdx s).map
        (List.length ∘ fun p : List K × ℕ => p.1.map fun v => f p.2 v) = X.map List.length := by
      intro X
      induction X with
      | nil => intro s; rfl
      | cons a X ih => intro s; simp only [List.zipIdx_cons, List.map_cons, ih]; simp
    exact this X 0

/-- **C04 is violated**: the value returned for PDF 1 at point 2 depends on the other points of the same call. Points
`[[1,2],[2,1]]` (two points for each of two PDFs) give PDF 1's values in the wrong order, although the same
pairs evaluated through the per-PDF path are right. -/
theorem C04_depends_on_other_points :
    ∃ (f : ℕ → ℚ → ℚ) (X : List (List ℚ)),
      scipyEval (dispatch f f f) X ≠ .ok (MatSpec f X) := by
  refine ⟨fun r v => (r : ℚ) + 10 * v, [[1, 2], [2, 1]], ?_⟩
  decide +kernel

example : ((([[1, 2], [2, 3]] : List (List ℚ)).flatten.dedup.length) *
    ((flatRows 0 ([[1, 2], [2, 3]] : List (List ℚ))).dedup.length)) ≠
    ([[1, 2], [2, 3]] : List (List ℚ)).flatten.length := by decide +kernel

end Verif.Props.Evaluation
