import Mathlib.Data.List.Basic
import Mathlib.Algebra.BigOperators.Group.List.Basic
import Mathlib.Tactic.Ring
import Verif.Model.Err

/-!
# n-dimensional arrays

A numpy array is its shape and its elements in row-major (C) order. Only the operations qp uses are defined. Strides,
views and element types are not modelled.
-/

set_option linter.unusedSectionVars false
set_option autoImplicit false

namespace Verif.Np

open Verif

/-- a numpy array: shape and row-major elements -/
structure Arr (α : Type) where
  shape : List ℕ
  data : List α
deriving DecidableEq, Repr

namespace Arr

variable {α : Type}

/-- the number of elements is the product of the shape -/
def Wf (a : Arr α) : Prop := a.data.length = a.shape.prod

instance (a : Arr α) : Decidable a.Wf := inferInstanceAs (Decidable (_ = _))

/-- `np.size(a)` -/
def size (a : Arr α) : ℕ := a.shape.prod

/-- number of elements of `a[i]` -/
def rowSize (a : Arr α) : ℕ := a.shape.tail.prod

/-- `a.shape[0]` for an array of rank at least one -/
def nrows (a : Arr α) : ℕ := a.shape.headD 0

/-- the elements of `a[i]` -/
def row (a : Arr α) (i : ℕ) : List α := (a.data.drop (i * a.rowSize)).take a.rowSize

/-- all rows (first axis) -/
def rows (a : Arr α) : List (List α) := (List.range a.nrows).map a.row

/-- the array with trailing shape `t` and the given rows -/
def ofRows (t : List ℕ) (rs : List (List α)) : Arr α := ⟨rs.length :: t, rs.flatten⟩

/-- `np.expand_dims(a, 0)` -/
def expand0 (a : Arr α) : Arr α := ⟨1 :: a.shape, a.data⟩

/-- `np.expand_dims(a, -1)` -/
def expandLast (a : Arr α) : Arr α := ⟨a.shape ++ [1], a.data⟩

/-- `np.squeeze(a)` -/
def squeeze (a : Arr α) : Arr α := ⟨a.shape.filter (· ≠ 1), a.data⟩

/-- `a.reshape(s)` with non-negative entries -/
def reshape (a : Arr α) (s : List ℕ) : Except Err (Arr α) :=
  if s.prod = a.shape.prod then .ok ⟨s, a.data⟩ else .error .ValueError

/-- `a[i]` for an index in range, first axis -/
def at0 (a : Arr α) (i : ℕ) : Arr α := ⟨a.shape.tail, a.row i⟩

/-- `a[is]` for indices in range (slice, mask or index array on the first axis) -/
def takeRows (a : Arr α) (is : List ℕ) : Arr α := ofRows a.shape.tail (is.map a.row)

/-- `np.concatenate(as)`: all arrays have rank at least one and the same trailing shape -/
def concatenate (as : List (Arr α)) : Except Err (Arr α) :=
  match as with
  | [] => .error .ValueError
  | a :: _ =>
    if as.any (fun b => b.shape = []) then .error .ValueError
    else if as.any (fun b => b.shape.tail ≠ a.shape.tail) then .error .ValueError
    else .ok ⟨(as.map nrows).sum :: a.shape.tail, (as.map data).flatten⟩

/-! ### lemmas -/

theorem drop_take_flatten (p : ℕ) (l : List (List α)) (h : ∀ r ∈ l, r.length = p) (j : ℕ) (hj : j < l.length) :
    (l.flatten.drop (j * p)).take p = l[j] := by
  induction l generalizing j with
  | nil => simp at hj
  | cons r t ih =>
    have hr : r.length = p := h r (by simp)
    cases j with
    | zero => simp [← hr]
    | succ j =>
      have : (j + 1) * p = r.length + j * p := by rw [hr]; ring
      rw [List.flatten_cons, this, List.drop_append]
      simp only [List.getElem_cons_succ]
      rw [List.drop_eq_nil_of_le (by omega), List.nil_append]
      simp only [Nat.add_sub_cancel_left]
      exact ih (fun r hr => h r (by simp [hr])) j (by simpa using hj)

theorem length_flatten_const (p : ℕ) (l : List (List α)) (h : ∀ r ∈ l, r.length = p) :
    l.flatten.length = l.length * p := by
  induction l with
  | nil => simp
  | cons r t ih =>
    simp only [List.flatten_cons, List.length_append, List.length_cons]
    rw [ih fun r hr => h r (by simp [hr]), h r (by simp)]; ring

theorem length_row (a : Arr α) (h : a.Wf) (i : ℕ) (hi : i < a.nrows) : (a.row i).length = a.rowSize := by
  obtain ⟨s, d⟩ := a
  cases s with
  | nil => simp [nrows] at hi
  | cons n t =>
    simp only [nrows, List.headD_cons] at hi
    simp only [Wf, List.prod_cons] at h
    simp only [row, rowSize, List.tail_cons, List.length_take, List.length_drop, h]
    have : (i + 1) * t.prod ≤ n * t.prod := Nat.mul_le_mul_right _ hi
    rw [Nat.min_eq_left]
    have e : (i + 1) * t.prod = i * t.prod + t.prod := by ring
    omega

theorem flatten_blocks (p : ℕ) (d : List α) (n : ℕ) (h : d.length = n * p) :
    ((List.range n).map fun i => (d.drop (i * p)).take p).flatten = d := by
  induction n generalizing d with
  | zero => simp at h; simp [h]
  | succ n ih =>
    rw [List.range_succ_eq_map]
    simp only [List.map_cons, List.map_map, List.flatten_cons]
    have hd : (d.drop p).length = n * p := by
      rw [List.length_drop, h]; have : (n + 1) * p = n * p + p := by ring
      omega
    have e : ((fun i => List.take p (List.drop (i * p) d)) ∘ Nat.succ)
        = fun i => ((d.drop p).drop (i * p)).take p := by
      funext i
      simp only [Function.comp, List.drop_drop]
      congr 2
      rw [Nat.succ_eq_add_one]; ring
    rw [e, ih _ hd]
    simp

theorem rows_flatten (a : Arr α) (h : a.Wf) (hs : a.shape ≠ []) : a.rows.flatten = a.data := by
  obtain ⟨s, d⟩ := a
  cases s with
  | nil => simp at hs
  | cons n t => exact flatten_blocks t.prod d n (by simpa [Wf] using h)

theorem ofRows_rows (a : Arr α) (h : a.Wf) (hs : a.shape ≠ []) : ofRows a.shape.tail a.rows = a := by
  have := rows_flatten a h hs
  obtain ⟨s, d⟩ := a
  cases s with
  | nil => simp at hs
  | cons n t => simp only [ofRows, this]; simp [rows, nrows]

theorem nrows_ofRows (t : List ℕ) (rs : List (List α)) : (ofRows t rs).nrows = rs.length := rfl

theorem wf_ofRows (t : List ℕ) (rs : List (List α)) (h : ∀ r ∈ rs, r.length = t.prod) : (ofRows t rs).Wf := by
  simp only [Wf, ofRows, List.prod_cons]
  exact length_flatten_const _ _ h

theorem row_ofRows (t : List ℕ) (rs : List (List α)) (h : ∀ r ∈ rs, r.length = t.prod) (i : ℕ)
    (hi : i < rs.length) : (ofRows t rs).row i = rs[i] :=
  drop_take_flatten _ rs h i hi

theorem rows_ofRows (t : List ℕ) (rs : List (List α)) (h : ∀ r ∈ rs, r.length = t.prod) :
    (ofRows t rs).rows = rs := by
  apply List.ext_getElem
  · simp [rows, nrows_ofRows]
  · intro i h1 h2
    simp only [rows, List.getElem_map, List.getElem_range]
    exact row_ofRows t rs h i h2

/-- an array of rank ≥ 1 is determined by its trailing shape and its rows -/
theorem ext_rows {a b : Arr α} (ha : a.Wf) (hb : b.Wf) (hsa : a.shape ≠ []) (hsb : b.shape ≠ [])
    (ht : a.shape.tail = b.shape.tail) (hr : a.rows = b.rows) : a = b := by
  rw [← ofRows_rows a ha hsa, ← ofRows_rows b hb hsb, ht, hr]

theorem rowSize_mem_rows (a : Arr α) (h : a.Wf) : ∀ r ∈ a.rows, r.length = a.rowSize := by
  intro r hr
  simp only [rows, List.mem_map, List.mem_range] at hr
  obtain ⟨i, hi, rfl⟩ := hr
  exact length_row a h i hi

theorem wf_takeRows (a : Arr α) (h : a.Wf) (is : List ℕ) (hi : ∀ i ∈ is, i < a.nrows) : (a.takeRows is).Wf := by
  apply wf_ofRows
  intro r hr
  simp only [List.mem_map] at hr
  obtain ⟨i, hi', rfl⟩ := hr
  exact length_row a h i (hi i hi')

theorem rows_takeRows (a : Arr α) (h : a.Wf) (is : List ℕ) (hi : ∀ i ∈ is, i < a.nrows) :
    (a.takeRows is).rows = is.map a.row := by
  apply rows_ofRows
  intro r hr
  simp only [List.mem_map] at hr
  obtain ⟨i, hi', rfl⟩ := hr
  exact length_row a h i (hi i hi')

theorem row_takeRows (a : Arr α) (h : a.Wf) (is : List ℕ) (hi : ∀ i ∈ is, i < a.nrows) (j : ℕ) (hj : j < is.length) :
    (a.takeRows is).row j = a.row is[j] := by
  have := row_ofRows a.shape.tail (is.map a.row) (by
    intro r hr
    simp only [List.mem_map] at hr
    obtain ⟨i, hi', rfl⟩ := hr
    exact length_row a h i (hi i hi')) j (by simpa using hj)
  simpa [takeRows] using this

theorem shape_takeRows (a : Arr α) (is : List ℕ) : (a.takeRows is).shape = is.length :: a.shape.tail := by
  simp [takeRows, ofRows]

theorem nrows_takeRows (a : Arr α) (is : List ℕ) : (a.takeRows is).nrows = is.length := by
  simp [nrows, shape_takeRows]

/-- selecting all rows in order gives the array back -/
theorem takeRows_range (a : Arr α) (h : a.Wf) (hs : a.shape ≠ []) : a.takeRows (List.range a.nrows) = a :=
  ofRows_rows a h hs

/-- selecting twice is selecting once with the composed indices -/
theorem takeRows_takeRows (a : Arr α) (h : a.Wf) (is js : List ℕ) (hi : ∀ i ∈ is, i < a.nrows)
    (hj : ∀ j ∈ js, j < is.length) :
    (a.takeRows is).takeRows js = a.takeRows (js.map fun j => is.getD j 0) := by
  simp only [takeRows, ofRows, List.tail_cons, List.length_map, List.map_map]
  congr 2
  apply List.map_congr_left
  intro j hj'
  have := row_takeRows a h is hi j (hj j hj')
  simp only [takeRows, ofRows, List.length_map] at this
  rw [this]
  simp [List.getD_eq_getElem?_getD, List.getElem?_eq_getElem (hj j hj')]

theorem concatenate_ok {as : List (Arr α)} {c : Arr α} (h : concatenate as = .ok c) :
    ∃ t : List ℕ, (∀ b ∈ as, b.shape ≠ [] ∧ b.shape.tail = t) ∧ as ≠ [] ∧
      c = ⟨(as.map nrows).sum :: t, (as.map data).flatten⟩ := by
  cases as with
  | nil => simp [concatenate] at h
  | cons a l =>
    simp only [concatenate] at h
    split_ifs at h with h1 h2
    refine ⟨a.shape.tail, ?_, by simp, (Except.ok.inj h).symm⟩
    intro b hb
    simp only [List.any_eq_true, decide_eq_true_eq, not_exists, not_and, not_not] at h1 h2
    exact ⟨h1 b hb, h2 b hb⟩

theorem concatenate_eq (as : List (Arr α)) (t : List ℕ) (hne : as ≠ [])
    (h : ∀ b ∈ as, b.shape ≠ [] ∧ b.shape.tail = t) :
    concatenate as = .ok ⟨(as.map nrows).sum :: t, (as.map data).flatten⟩ := by
  cases as with
  | nil => simp at hne
  | cons a l =>
    simp only [concatenate]
    rw [if_neg, if_neg, (h a (by simp)).2]
    · simp only [List.any_eq_true, decide_eq_true_eq, not_exists, not_and, not_not]
      intro b hb; rw [(h b hb).2, (h a (by simp)).2]
    · simp only [List.any_eq_true, decide_eq_true_eq, not_exists, not_and]
      intro b hb; exact (h b hb).1

/-- stacking: the rows of the concatenation are the rows of the parts in order -/
theorem concatenate_rows {as : List (Arr α)} {c : Arr α} (h : concatenate as = .ok c) (hw : ∀ b ∈ as, b.Wf) :
    c.Wf ∧ c.rows = (as.map rows).flatten := by
  obtain ⟨t, ht, _, rfl⟩ := concatenate_ok h
  have hr : ∀ r ∈ (as.map rows).flatten, r.length = t.prod := by
    intro r hr
    simp only [List.mem_flatten, List.mem_map] at hr
    obtain ⟨_, ⟨b, hb, rfl⟩, hr⟩ := hr
    have := rowSize_mem_rows b (hw b hb) r hr
    rw [this, rowSize, (ht b hb).2]
  have e : (⟨(as.map nrows).sum :: t, (as.map data).flatten⟩ : Arr α) = ofRows t (as.map rows).flatten := by
    simp only [ofRows]
    congr 1
    · congr 1
      rw [List.length_flatten, List.map_map]
      congr 1
      apply List.map_congr_left
      intro b _; simp [rows]
    · rw [List.flatten_flatten, List.map_map]
      congr 1
      apply List.map_congr_left
      intro b hb
      exact (rows_flatten b (hw b hb) (ht b hb).1).symm
  rw [e]
  exact ⟨wf_ofRows t _ hr, rows_ofRows t _ hr⟩

end Arr

end Verif.Np
