import Verif.Model.Shapes
import Verif.Spec.Index
import Mathlib.Algebra.Order.Field.Basic
import Mathlib.Algebra.Order.Ring.Rat
import Mathlib.Tactic.Ring
import Mathlib.Tactic.Linarith

/-!
# C42, C43, C44: shapes, binning, mode
-/

set_option linter.unusedSectionVars false
set_option autoImplicit false

namespace Verif.Props.Shapes

open Verif Verif.Np Verif.Model Verif.Spec

variable {α : Type}

/-! ## C44 -/

private theorem offset_append (s is : List ℕ) (h : ValidIdx s is) (m j : ℕ) :
    offset (s ++ [m]) (is ++ [j]) = offset s is * m + j := by
  induction h with
  | nil => simp [offset]
  | cons hi _ ih =>
    simp only [List.cons_append, offset, ih, List.prod_append, List.prod_cons, List.prod_nil]
    ring

private theorem offset_lt (s is : List ℕ) (h : ValidIdx s is) : offset s is < s.prod := by
  induction h with
  | nil => simp [offset]
  | @cons i n is s hi _ ih =>
    simp only [offset, List.prod_cons]
    calc i * s.prod + offset s is < i * s.prod + s.prod := by omega
      _ = (i + 1) * s.prod := by ring
      _ ≤ n * s.prod := Nat.mul_le_mul_right _ hi

private theorem offset_inj (s is js : List ℕ) (hi : ValidIdx s is) (hj : ValidIdx s js)
    (h : offset s is = offset s js) : is = js := by
  induction hi generalizing js with
  | nil => cases hj; rfl
  | @cons i n is s hin hs ih =>
    cases hj with
    | @cons j _ js _ hjn hs' =>
      simp only [offset] at h
      have l1 := offset_lt s is hs
      have l2 := offset_lt s js hs'
      have hp : 0 < s.prod := by omega
      have e1 : (i * s.prod + offset s is) / s.prod = i := by
        rw [add_comm, Nat.add_mul_div_right _ _ hp, Nat.div_eq_of_lt l1]; simp
      have e2 : (j * s.prod + offset s js) / s.prod = j := by
        rw [add_comm, Nat.add_mul_div_right _ _ hp, Nat.div_eq_of_lt l2]; simp
      have hij : i = j := by rw [← e1, ← e2, h]
      subst hij
      rw [ih js hs' (by omega)]

private theorem offset_surj (s : List ℕ) (k : ℕ) (h : k < s.prod) : ∃ is, ValidIdx s is ∧ offset s is = k := by
  induction s generalizing k with
  | nil => exact ⟨[], .nil, by simp at h; simp [offset, h]⟩
  | cons n s ih =>
    simp only [List.prod_cons] at h
    have hp : 0 < s.prod := by
      rcases Nat.eq_zero_or_pos s.prod with e | e
      · rw [e] at h; simp at h
      · exact e
    obtain ⟨is, hv, he⟩ := ih (k % s.prod) (Nat.mod_lt _ hp)
    refine ⟨k / s.prod :: is, .cons ?_ hv, ?_⟩
    · rw [Nat.div_lt_iff_lt_mul hp]; exact h
    · simp only [offset, he]
      rw [mul_comm]; exact Nat.div_add_mod k s.prod

/-- **C44 (flattening)**: one row per PDF, rows numbered in row-major order of the PDF's position: entry `j` of the PDF at
position `is` is entry `j` of row `offset s is`. -/
theorem C44_flatten (a : Arr α) (s : List ℕ) (m : ℕ) (hs : a.shape = s ++ [m]) :
    ∃ b, reshapeToPdfSize a = .ok b ∧ b.shape = [s.prod, m] ∧ (a.Wf → b.Wf) ∧
      ∀ is j, ValidIdx s is → j < m → elem b [offset s is, j] = elem a (is ++ [j]) := by
  refine ⟨⟨[s.prod, m], a.data⟩, ?_, rfl, ?_, ?_⟩
  · simp [reshapeToPdfSize, hs, Arr.reshape]
  · intro hw; simpa [Arr.Wf, hs] using hw
  · intro is j hv _
    simp only [elem, hs, offset_append s is hv]
    simp [offset]

/-- **C44 (round trip)**, for ensembles with at least one leading axis: flattening and restoring gives the array back.
Missing: a single PDF given as a 1-D array, see `C44_single_pdf_fails`. -/
theorem C44_roundtrip_partial (a : Arr α) (s : List ℕ) (m : ℕ) (hs : a.shape = s ++ [m]) (hne : s ≠ []) :
    ∃ b, reshapeToPdfSize a = .ok b ∧ reshapeToPdfShape b s m = .ok a := by
  refine ⟨⟨[s.prod, m], a.data⟩, ?_, ?_⟩
  · simp [reshapeToPdfSize, hs, Arr.reshape]
  · obtain ⟨sh, d⟩ := a
    simp only at hs
    simp [reshapeToPdfShape, hne, Arr.reshape, hs]

/-- **C44 is violated** for a single PDF given as a 1-D array (ensemble shape `()`): flattening works, restoring always raises. -/
theorem C44_single_pdf_fails (a : Arr α) (m : ℕ) (hs : a.shape = [m]) :
    ∃ b, reshapeToPdfSize a = .ok b ∧ b.shape = [1, m] ∧ reshapeToPdfShape b [] m = .error .TypeError := by
  refine ⟨⟨[1, m], a.data⟩, ?_, rfl, ?_⟩
  · simp [reshapeToPdfSize, hs, Arr.reshape]
  · simp [reshapeToPdfShape]

/-- **C44 (row numbers)**: the row index of the PDF at position `is` is `offset s is`; each row number `0..npdf-1` belongs to
exactly one position. -/
theorem C44_row_numbers (s : List ℕ) :
    (∃ r, rowArray s = .ok r ∧ r.shape = s ++ [1] ∧ ∀ is, ValidIdx s is → elem r (is ++ [0]) = some (offset s is)) ∧
    ∀ k, k < s.prod → ∃! is, ValidIdx s is ∧ offset s is = k := by
  constructor
  · refine ⟨⟨s ++ [1], List.range s.prod⟩, ?_, rfl, ?_⟩
    · simp [rowArray, Arr.reshape, Arr.expandLast, Bind.bind, Except.bind]
    · intro is hv
      simp only [elem, offset_append s is hv]
      have := offset_lt s is hv
      simp [this]
  · intro k hk
    obtain ⟨is, hv, he⟩ := offset_surj s k hk
    exact ⟨is, ⟨hv, he⟩, fun js hj => offset_inj s js is hj.1 hv (hj.2.trans he.symm)⟩

example : ∃ b, reshapeToPdfSize (⟨[2, 2, 3], List.range 12⟩ : Arr ℕ) = .ok b ∧ reshapeToPdfShape b [2, 2] 3 = .ok ⟨[2, 2, 3], List.range 12⟩ :=
  C44_roundtrip_partial ⟨[2, 2, 3], List.range 12⟩ [2, 2] 3 rfl (by simp)

example : elem (⟨[2, 2, 3], List.range 12⟩ : Arr ℕ) [1, 0, 2] = some 8 := by decide

/-! ## C42 -/

section
variable {K : Type} [Field K] [LinearOrder K] [IsStrictOrderedRing K]

/-- **C42 (integrate)**: adjacent intervals add up, an empty interval has integral 0, reversing the limits changes the sign, and
for a non-decreasing CDF the integral over `a ≤ b` is not negative. -/
theorem C42_integrate (F : K → K) (a b c : K) :
    integrate F a c = integrate F a b + integrate F b c ∧ integrate F a a = 0 ∧ integrate F b a = -integrate F a b ∧
      (Monotone F → a ≤ b → 0 ≤ integrate F a b) := by
  refine ⟨by simp [integrate], by simp [integrate], by simp [integrate], fun h hab => ?_⟩
  simpa [integrate] using h hab

private theorem diff_length (l : List K) : (diff l).length = l.length - 1 := by
  induction l with
  | nil => rfl
  | cons a t ih =>
    cases t with
    | nil => rfl
    | cons b t => simp only [diff, List.length_cons, ih]; simp

private theorem diff_get (l : List K) (k : ℕ) (h : k + 1 < l.length) :
    (diff l)[k]? = some (l[k + 1] - l[k]) := by
  induction l generalizing k with
  | nil => simp at h
  | cons a t ih =>
    cases t with
    | nil => simp at h
    | cons b t =>
      cases k with
      | zero => simp [diff]
      | succ k =>
        have := ih k (by simpa using h)
        simpa [diff] using this

private theorem diff_sum (a : K) (t : List K) : Np.sum (diff (a :: t)) = (a :: t).getLast (by simp) - a := by
  induction t generalizing a with
  | nil => simp [diff, Np.sum]
  | cons b t ih =>
    have := ih b
    simp only [diff, Np.sum, List.foldr_cons] at this ⊢
    rw [this]
    simp

/-- **C42 (histogramize)**, for ensembles with at least one leading axis: `histogramize(bins)` of PDFs with distribution
functions `Fs` returns an array of the ensemble's shape whose entry for PDF number `i` and bin `k` is the mass
`integrate F_i bins[k] bins[k+1]`; the masses of one PDF add up to the mass between the outer edges. Missing: ensemble shape
`()`, see `C42_single_pdf_fails`. -/
theorem C42_histogramize_partial (Fs : List (K → K)) (shape : List ℕ) (hn : Fs.length = shape.prod) (hs : shape ≠ [])
    (b0 : K) (bt : List K) :
    ∃ h, histogramize ⟨shape ++ [(b0 :: bt).length], Fs.flatMap fun F => (b0 :: bt).map F⟩ shape (b0 :: bt) = .ok h ∧
      h.shape = shape ++ [bt.length] ∧
      (∀ i (F : K → K), Fs[i]? = some F → ∀ k a b, (b0 :: bt)[k]? = some a → (b0 :: bt)[k + 1]? = some b →
        h.data[i * bt.length + k]? = some (integrate F a b)) ∧
      (∀ i (F : K → K), Fs[i]? = some F →
        Np.sum ((h.data.drop (i * bt.length)).take bt.length) = integrate F b0 ((b0 :: bt).getLast (by simp))) := by
  set nb := (b0 :: bt).length with hnb
  have hnb1 : nb - 1 = bt.length := by simp [hnb]
  set M : List (List K) := Fs.map fun F => (b0 :: bt).map F with hM
  have hfl : (Fs.flatMap fun F => (b0 :: bt).map F) = M.flatten := by simp [hM, List.flatMap]
  have hrs : reshapeToPdfSize (⟨shape ++ [nb], M.flatten⟩ : Arr K) = .ok (Arr.ofRows [nb] M) := by
    simp only [reshapeToPdfSize, List.getLast?_append, List.getLast?_singleton, Option.some_or, List.dropLast_concat,
      Arr.reshape]
    simp [Arr.ofRows, hM, hn]
  have hrows : (Arr.ofRows [nb] M).rows = M := by
    apply Arr.rows_ofRows
    intro r hr
    simp only [hM, List.mem_map] at hr
    obtain ⟨F, _, rfl⟩ := hr
    simp [hnb]
  set D : List (List K) := M.map diff with hD
  have hDl : ∀ r ∈ D, r.length = bt.length := by
    intro r hr
    simp only [hD, hM, List.mem_map, List.map_map] at hr
    obtain ⟨F, _, rfl⟩ := hr
    simp [diff_length]
  have hDn : D.length = shape.prod := by simp [hD, hM, hn]
  have hfin : histogramize ⟨shape ++ [nb], Fs.flatMap fun F => (b0 :: bt).map F⟩ shape (b0 :: bt)
      = .ok ⟨shape ++ [bt.length], D.flatten⟩ := by
    unfold histogramize
    rw [hfl, hrs]
    simp only [Bind.bind, Except.bind, hrows]
    rw [if_neg (by simp), ← hnb, hnb1]
    simp [reshapeToPdfShape, hs, Arr.reshape, Arr.ofRows, ← hD, hDn]
  refine ⟨_, hfin, rfl, ?_, ?_⟩
  · intro i F hF k a b ha hb
    obtain ⟨hi, hFi⟩ := List.getElem?_eq_some_iff.1 hF
    obtain ⟨hk, hbk⟩ := List.getElem?_eq_some_iff.1 hb
    obtain ⟨hk', hak⟩ := List.getElem?_eq_some_iff.1 ha
    have hiD : i < D.length := by simp [hD, hM, hi]
    have hrow := Arr.drop_take_flatten bt.length D hDl i hiD
    have hDi : D[i] = diff ((b0 :: bt).map F) := by simp [hD, hM, hFi]
    have hkl : k < bt.length := by simp at hk; omega
    have e : (D[i])[k]? = D.flatten[i * bt.length + k]? := by
      rw [← hrow, List.getElem?_take, if_pos hkl, List.getElem?_drop]
    rw [← e, hDi, diff_get _ k (by simpa using hk)]
    simp only [List.getElem_map, hbk, hak, integrate]
  · intro i F hF
    obtain ⟨hi, hFi⟩ := List.getElem?_eq_some_iff.1 hF
    have hiD : i < D.length := by simp [hD, hM, hi]
    have hDi : D[i] = diff ((b0 :: bt).map F) := by simp [hD, hM, hFi]
    rw [Arr.drop_take_flatten bt.length D hDl i hiD, hDi, List.map_cons, diff_sum]
    simp only [integrate, ← List.map_cons, List.getLast_map]

/-- **C42 is violated** for a single PDF given as a 1-D array (ensemble shape `()`): `histogramize` always raises. -/
theorem C42_single_pdf_fails (F : K → K) (b0 : K) (bt : List K) :
    histogramize ⟨[(b0 :: bt).length], (b0 :: bt).map F⟩ [] (b0 :: bt) = .error .TypeError := by
  simp [histogramize, reshapeToPdfSize, Arr.reshape, Bind.bind, Except.bind, reshapeToPdfShape]

/-- Merging two adjacent bins adds their masses (the bin masses are `integrate`s by the theorem above). -/
theorem C42_merge (F : K → K) (pre post : List K) (a b c : K) :
    Np.sum (diff ((pre ++ a :: c :: post).map F)) = Np.sum (diff ((pre ++ a :: b :: c :: post).map F)) ∧
    (diff ((pre ++ a :: c :: post).map F))[pre.length]? = some (integrate F a b + integrate F b c) := by
  constructor
  · cases pre with
    | nil => simp [diff_sum]
    | cons p ps => simp only [List.cons_append, List.map_cons, diff_sum]; simp
  · rw [diff_get _ _ (by simp)]
    simp [integrate]

example : histogramize (K := ℚ) ⟨[2, 1, 3], [0, 1/2, 1, 0, 1/4, 1]⟩ [2, 1] [0, 1, 2] =
    .ok ⟨[2, 1, 2], [1/2, 1/2, 1/4, 3/4]⟩ := by decide +kernel

/-! ## C43 -/

theorem argmax_spec (l : List K) (h : l ≠ []) : ∃ k, argmax l = some k ∧ IsFirstMax l k := by
  induction l with
  | nil => simp at h
  | cons a t ih =>
    by_cases ht : t = []
    · subst ht
      refine ⟨0, rfl, a, rfl, ?_, ?_⟩
      · intro j w hj; cases j <;> simp_all
      · intro j w hj; omega
    · obtain ⟨j, hj, v, hv, hmax, hfirst⟩ := ih ht
      by_cases hav : a < v
      · refine ⟨j + 1, by simp [argmax, hj, hv, hav], v, by simpa using hv, ?_, ?_⟩
        · intro i w hi
          cases i with
          | zero => simp at hi; rw [← hi]; exact hav.le
          | succ i => exact hmax i w (by simpa using hi)
        · intro i w hij hi
          cases i with
          | zero => simp at hi; rw [← hi]; exact hav
          | succ i => exact hfirst i w (by omega) (by simpa using hi)
      · refine ⟨0, by simp [argmax, hj, hv, hav], a, rfl, ?_, ?_⟩
        · intro i w hi
          cases i with
          | zero => simp at hi; rw [hi]
          | succ i => exact (hmax i w (by simpa using hi)).trans (not_lt.1 hav)
        · intro i w hij; omega

private theorem blockColumn_one (r : List K) (m : ℕ) (h : r.length = m) : blockColumn r 1 m 0 = r := by
  subst h
  unfold blockColumn
  induction r with
  | nil => rfl
  | cons a t ih =>
    rw [List.length_cons, List.range_succ_eq_map, List.filterMap_cons, List.filterMap_map]
    simp only [mul_one, add_zero, List.getElem?_cons_zero] at ih ⊢
    congr 1

private theorem mapM_some {β γ : Type} (f : β → Option γ) (g : β → γ) (l : List β) (h : ∀ x ∈ l, f x = some (g x)) :
    l.mapM f = some (l.map g) := by
  induction l with
  | nil => rfl
  | cons a t ih =>
    rw [List.mapM_cons, h a (by simp), ih fun x hx => h x (by simp [hx])]
    rfl

/-- **C43**, for ensembles with one leading axis (shape `(npdf,)`): `mode(grid)` has shape `(npdf, 1)` and entry `i` is the grid
point at the first largest value of PDF `i` on the grid. Missing: other ensemble shapes, see the next two theorems. -/
theorem C43_mode_partial (grid : List K) (hg : grid ≠ []) (vals : List (List K)) (hv : ∀ r ∈ vals, r.length = grid.length) :
    ∃ v, mode grid ⟨[vals.length, grid.length], vals.flatten⟩ = .ok ⟨[vals.length, 1], v⟩ ∧ v.length = vals.length ∧
      ∀ (i : ℕ) (r : List K), vals[i]? = some r → ∃ k, IsFirstMax r k ∧ v[i]? = grid[k]? ∧ k < grid.length := by
  have hpos : 0 < grid.length := List.length_pos_iff.2 hg
  let am : List K → ℕ := fun r => (argmax r).getD 0
  have ham : ∀ r ∈ vals, IsFirstMax r (am r) ∧ am r < grid.length := by
    intro r hr
    have : r ≠ [] := by intro e; have := hv r hr; rw [e] at this; simp at this; omega
    obtain ⟨k, hk, hs⟩ := argmax_spec r this
    have e : am r = k := by simp [am, hk]
    rw [e]
    refine ⟨hs, ?_⟩
    obtain ⟨w, hw, _⟩ := hs
    rw [← hv r hr]
    exact (List.getElem?_eq_some_iff.1 hw).1
  have hrows : (⟨[vals.length, grid.length], vals.flatten⟩ : Arr K).rows = vals :=
    Arr.rows_ofRows [grid.length] vals (by simpa using hv)
  have hidx : argmaxAxis1 (⟨[vals.length, grid.length], vals.flatten⟩ : Arr K) = .ok ⟨[vals.length], vals.map am⟩ := by
    simp only [argmaxAxis1]
    rw [if_neg (by omega), hrows]
    congr 2
    simp only [List.prod_nil, List.range_one, List.map_cons, List.map_nil]
    rw [← List.flatMap_pure_eq_map]
    apply List.flatMap_congr
    intro r hr
    rw [blockColumn_one r _ (hv r hr)]
    rfl
  have hmap : (vals.map am).mapM (fun (i : ℕ) => grid[i]?) = some ((vals.map am).map fun i => grid.getD i 0) := by
    apply mapM_some
    intro i hi
    obtain ⟨r, hr, rfl⟩ := List.mem_map.1 hi
    rw [List.getD_eq_getElem?_getD, List.getElem?_eq_getElem (ham r hr).2]; rfl
  refine ⟨(vals.map am).map fun i => grid.getD i 0, ?_, by simp, ?_⟩
  · simp only [mode, hidx, Bind.bind, Except.bind, hmap]
    rfl
  · intro i r hr
    have hm := ham r (List.mem_of_getElem? hr)
    refine ⟨am r, hm.1, ?_, hm.2⟩
    simp only [List.map_map, List.getElem?_map, hr, Option.map_some, Function.comp]
    rw [List.getD_eq_getElem?_getD, List.getElem?_eq_getElem hm.2]; rfl

/-- **C43 is violated** for a single PDF given as a 1-D array (ensemble shape `()`, so `pdf(grid)` is 1-D): `mode` always raises. -/
theorem C43_single_pdf_fails (grid vals : List K) : mode grid ⟨[vals.length], vals⟩ = .error .ValueError := rfl

/-- **C43 is violated** for ensembles of shape `(1, 2)`: the maximum is taken over the wrong axis, so there are three "modes"
(one for each grid point) instead of two, all at the first two grid points although both PDFs peak at the last one. -/
theorem C43_nested_wrong :
    mode (K := ℚ) [10, 20, 30] ⟨[1, 2, 3], [0, 1, 5, 1, 0, 5]⟩ = .ok ⟨[1, 3, 1], [20, 10, 10]⟩ := by decide +kernel

example : mode (K := ℚ) [10, 20, 30] ⟨[2, 3], [0, 5, 5, 7, 0, 5]⟩ = .ok ⟨[2, 1], [20, 10]⟩ := by decide +kernel

end

end Verif.Props.Shapes
