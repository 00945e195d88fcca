import Verif.Props.Evaluation

/-!
# C04 (third part): exactly which matrices of points are evaluated correctly

`X` has a row of `m` points for every PDF (the shape scipy broadcasts to).
-/

set_option linter.unusedSectionVars false
set_option autoImplicit false

namespace Verif.Props.Evaluation

open Verif Verif.Np Verif.Model

variable {K : Type*} [LinearOrder K] {β : Type*}

theorem mem_flatRows {α : Type*} (X : List (List α)) (hX : ∀ r ∈ X, r ≠ []) (s k : ℕ) :
    k ∈ flatRows s X ↔ s ≤ k ∧ k < s + X.length := by
  induction X generalizing s with
  | nil => simp [flatRows]
  | cons x X ih =>
    simp only [flatRows, List.mem_append, ih (fun r hr => hX r (by simp [hr])), List.length_cons]
    have : (k ∈ x.map fun _ => s) ↔ k = s := by
      cases x with
      | nil => exact absurd rfl (hX [] (by simp))
      | cons a x => simp
    rw [this]; omega

theorem unique_flatRows {α : Type*} (X : List (List α)) (hX : ∀ r ∈ X, r ≠ []) : unique (flatRows 0 X) = List.range X.length := by
  have : unique (flatRows 0 X) = unique (List.range X.length) := by
    apply unique_congr
    intro r; rw [mem_flatRows X hX]; simp
  rw [this, unique_of_nodup List.nodup_range]
  exact sort_of_pairwise ((List.pairwise_lt_range).imp le_of_lt)

theorem flatRows_ones {α : Type*} (X : List (List α)) (hX : ∀ r ∈ X, r.length = 1) (s : ℕ) : flatRows s X = List.range' s X.length := by
  induction X generalizing s with
  | nil => rfl
  | cons x X ih =>
    obtain ⟨a, rfl⟩ := List.length_eq_one_iff.1 (hX x (by simp))
    simp [flatRows, ih (fun r hr => hX r (by simp [hr])), List.range'_succ]

theorem length_flatten_rect {α : Type*} (X : List (List α)) (m : ℕ) (hX : ∀ r ∈ X, r.length = m) : X.flatten.length = X.length * m := by
  induction X with
  | nil => simp
  | cons x X ih =>
    rw [List.flatten_cons, List.length_append, ih (fun r hr => hX r (by simp [hr])), hX x (by simp), List.length_cons, Nat.succ_mul, Nat.add_comm]

/-- the different points of a matrix, in increasing order -/
def points (X : List (List K)) : List K := unique X.flatten

theorem map_length_matSpec (f : ℕ → K → β) (X : List (List K)) (s : ℕ) :
    ((X.zipIdx s).map fun p => p.1.map fun v => f p.2 v).map List.length = X.map List.length := by
  induction X generalizing s with
  | nil => rfl
  | cons a X ih => simp only [List.zipIdx_cons, List.map_cons, ih]; simp

/-- **C04, exact behaviour.** For every matrix with `m ≥ 1` points for each of the PDFs: if there are at least two PDFs and the matrix has exactly
`m` different points, every PDF is evaluated at these points in increasing order, whatever its own row is; otherwise every entry is right. -/
theorem C04_exact (f : ℕ → K → β) (X : List (List K)) (m : ℕ) (hm : 1 ≤ m) (hX : ∀ r ∈ X, r.length = m) :
    scipyEval (dispatch f f f) X =
      .ok (if 2 ≤ X.length ∧ (points X).length = m then SharedSpec f X.length (points X) else MatSpec f X) := by
  have hne : ∀ r ∈ X, r ≠ [] := by rintro r hr rfl; have := hX _ hr; simp at this; omega
  have hlen := length_flatten_rect X m hX
  have hrl : (flatRows 0 X).length = X.length * m := by rw [flatRows_length, hlen]
  have hur := unique_flatRows X hne
  have hflat : evalFlat f X.flatten (flatRows 0 X) = .ok (MatSpec f X).flatten := by
    unfold evalFlat
    rw [if_pos (flatRows_length X 0).symm, zipWith_flatRows]; rfl
  have hprod : ∀ xs : List K, evalProduct f xs (List.range X.length) = (SharedSpec f X.length xs).flatten := by
    intro xs; simp [evalProduct, SharedSpec, List.flatMap_def]
  by_cases hc : 2 ≤ X.length ∧ (points X).length = m
  · rw [if_pos hc]
    obtain ⟨h2, hp⟩ := hc
    apply scipyEval_of_core
    · intro _
      have hlt : m < X.length * m := lt_of_lt_of_le (by omega : m < 2 * m) (Nat.mul_le_mul_right m h2)
      unfold points at hp
      rw [dispatch_vec, hlen, hrl, hur, List.length_range, hp, Nat.mul_comm m, if_neg (by omega), if_neg (by omega)]
      have hrr : (if X.length = X.length * m then flatRows 0 X else List.range X.length) = List.range X.length := by
        split
        · rename_i h'
          have h1 : m = 1 := (Nat.eq_of_mul_eq_mul_left (by omega : 0 < X.length) (by omega : X.length * 1 = X.length * m)).symm
          subst h1
          rw [flatRows_ones X hX, List.range_eq_range']
        · rfl
      rw [hrr, hprod]
      rfl
    · have e1 : X.map List.length = List.replicate X.length m :=
        List.eq_replicate_iff.2 ⟨by simp, fun b hb => by obtain ⟨r, hr, rfl⟩ := List.mem_map.1 hb; exact hX r hr⟩
      have e2 : (SharedSpec f X.length (points X)).map List.length = List.replicate X.length m := by
        refine List.eq_replicate_iff.2 ⟨by simp [SharedSpec], fun b hb => ?_⟩
        simp only [SharedSpec, List.map_map, List.mem_map, Function.comp, List.length_map] at hb
        obtain ⟨_, _, rfl⟩ := hb
        exact hp
      rw [e1, e2]
  · rw [if_neg hc]
    refine scipyEval_of_core (fun hn => ?_) (map_length_matSpec f X 0)
    have hX0 : X.length ≠ 0 := by intro h0; rw [List.length_eq_zero_iff] at h0; subst h0; simp at hn
    rw [dispatch_vec, hlen, hrl, hur, List.length_range]
    by_cases h1 : X.length * m = 1 ∨ X.length * m = 1 ∨ (unique X.flatten).length * X.length ≠ X.length * m
    · rw [if_pos h1, hflat]
    · rw [if_neg h1]
      push Not at h1
      have hp : (unique X.flatten).length = m :=
        Nat.eq_of_mul_eq_mul_left (Nat.pos_of_ne_zero hX0) (by rw [Nat.mul_comm]; exact h1.2.2)
      have hl1 : X.length = 1 := by
        by_contra h
        exact hc ⟨by omega, hp⟩
      obtain ⟨x, rfl⟩ := List.length_eq_one_iff.1 hl1
      have hxl : x.length = m := hX x (by simp)
      rw [hp, if_pos (by simp), if_neg (by simp at h1 ⊢; omega)]
      simp [evalProduct, MatSpec]

/-- **C04, exactly when it holds**: the values of all families of PDFs are right if and only if there is at most one PDF, or the number of different
points is not the number of points of one PDF, or all rows are the same increasing list of points. -/
theorem C04_iff (X : List (List K)) (m : ℕ) (hm : 1 ≤ m) (hX : ∀ r ∈ X, r.length = m) :
    (∀ f : ℕ → K → ℕ × K, scipyEval (dispatch f f f) X = .ok (MatSpec f X)) ↔
      X.length ≤ 1 ∨ (points X).length ≠ m ∨ ∃ x : List K, x.Pairwise (· < ·) ∧ X = List.replicate X.length x := by
  constructor
  · intro h
    by_contra hc
    push Not at hc
    obtain ⟨h1, h2, h3⟩ := hc
    have h' := h fun i v => (i, v)
    rw [C04_exact _ X m hm hX, if_pos ⟨by omega, h2⟩] at h'
    have e : SharedSpec (fun i (v : K) => (i, v)) X.length (points X) = MatSpec (fun i v => (i, v)) X := Except.ok.inj h'
    refine h3 (points X) ?_ ?_
    · exact (List.pairwise_and_iff.2 ⟨pairwise_unique X.flatten, nodup_unique X.flatten⟩).imp fun h => lt_of_le_of_ne h.1 h.2
    · have e' := congrArg (List.map (List.map Prod.snd)) e
      simp only [SharedSpec, MatSpec, List.map_map, Function.comp_def, List.map_id'] at e'
      rw [show (fun p : List K × ℕ => p.1) = Prod.fst from rfl, List.zipIdx_map_fst] at e'
      conv_lhs => rw [← e']
      rw [List.map_const', List.length_range]
  · rintro h f
    rw [C04_exact f X m hm hX]
    split
    · rename_i hc
      rcases h with h | h | ⟨x, hx, hr⟩
      · omega
      · exact absurd hc.2 h
      · have hp : points X = x := by
          have : points X = unique x := by
            unfold points
            rw [hr]
            exact unique_congr (mem_flatten_replicate (by omega))
          rw [this, unique_of_nodup (nodup_of_strict hx)]
          exact sort_of_pairwise (hx.imp le_of_lt)
        rw [hp]
        conv_rhs => rw [hr]
        have e := zipIdx_replicate_map X.length 0 x f
        unfold MatSpec SharedSpec
        rw [List.range_eq_range']
        exact congrArg _ e.symm
    · rfl

example := C04_exact (K := ℚ) (fun i x => (i : ℚ) + 10 * x) [[1, 2], [2, 1]] 2 (by norm_num) (by decide)

-- three PDFs, two points each, two different points in all: PDF 2 was asked for [1, 1]
example : scipyEval (dispatch (fun i (x : ℚ) => (i : ℚ) + 10 * x) (fun i x => (i : ℚ) + 10 * x) fun i x => (i : ℚ) + 10 * x) [[2, 1], [1, 2], [1, 1]] =
    .ok [[10, 20], [11, 21], [12, 22]] := by
  rw [C04_exact (K := ℚ) _ _ 2 (by norm_num) (by decide)]
  decide +kernel

example : ∀ f : ℕ → ℚ → ℕ × ℚ, scipyEval (dispatch f f f) [[2, 1], [1, 3]] = .ok (MatSpec f [[2, 1], [1, 3]]) :=
  (C04_iff (K := ℚ) [[2, 1], [1, 3]] 2 (by norm_num) (by decide)).2 (Or.inr (Or.inl (by decide +kernel)))

/-- **C04, two-dimensional calls** (points with one row for each row number, as `rvs` makes them), exactly: row `i` of the points is evaluated on row number
`i`; one row number serves all rows of points, one row of points all row numbers; any other combination is refused. -/
theorem C04_two_dim (f f' f'' : ℕ → K → β) (x : List (List K)) (rows : List ℕ) :
    dispatch f f' f'' (.mat x) (.mat (rows.map fun r => [r])) =
      if rows.length = x.length then .ok (List.zipWith (fun r xs => xs.map (f'' r)) rows x).flatten
      else if rows.length = 1 ∨ x.length = 1 then .ok (rows.flatMap fun r => x.flatMap fun xs => xs.map (f'' r))
      else .error .ValueError := by
  have h1 : (rows.map fun r => [r]).flatten = rows := by
    induction rows with
    | nil => rfl
    | cons a l ih => simp only [List.map_cons, List.flatten_cons, ih]; rfl
  simp only [dispatch, getEvalCase, Pts.ndim]
  simp only [le_refl, true_and, ne_eq, if_true, show ((2 : ℕ) = 1) = False by simp, not_false_eq_true]
  simp only [eval2D, h1]
  rw [if_pos (by simp)]

/-- one row of points for three PDFs -/
example : (dispatch (fun r v => (r : ℚ) + 10 * v) (fun r v => (r : ℚ) + 10 * v) (fun r v => (r : ℚ) + 10 * v) (.mat [[1, 2]]) (.mat [[0], [1], [2]])).toOption =
    some [10, 20, 11, 21, 12, 22] := by decide +kernel

end Verif.Props.Evaluation
