import Verif.Lemmas.Ancil
import Verif.Props.ExEns
import Mathlib.Algebra.Order.Ring.Rat
import Mathlib.Data.List.Sort

/-!
# C32, C33, C41: selecting rows and iterating

The ensembles are those of `Spec.Reach`: built from plain arguments by one of the eight row classes, then changed by any history of
operations. `Selects` says what the result must contain.
-/

set_option linter.unusedSectionVars false
set_option autoImplicit false

namespace Verif.Props.Select

open Verif Verif.Np Verif.Model Verif.Spec Verif.Lemmas

/-! ### which rows a key means -/

/-- `ens[i]`: a non-negative index counts from the front, a negative one from the back; anything else is an `IndexError`. -/
theorem C32_int_key (n : ℕ) (i : ℤ) :
    (∀ j : ℕ, (Key.int i).resolve n = .ok (.one j) ↔ j < n ∧ ((j : ℤ) = i ∨ (j : ℤ) = i + n ∧ i < 0)) ∧
    ((Key.int i).resolve n = .error .IndexError ↔ i < -n ∨ (n : ℤ) ≤ i) := by
  simp only [Key.resolve]
  unfold normIndex
  constructor
  · intro j
    split_ifs with h1 h2
    · simp only [Except.map, Except.ok.injEq, Sel.one.injEq]; omega
    · simp only [Except.map, Except.ok.injEq, Sel.one.injEq]; omega
    · simp only [Except.map]
      constructor
      · intro h; simp at h
      · omega
  · split_ifs with h1 h2
    · simp only [Except.map]
      constructor
      · intro h; simp at h
      · omega
    · simp only [Except.map]
      constructor
      · intro h; simp at h
      · omega
    · simp only [Except.map, true_iff]; omega

/-- `ens[a:b]` within range is rows `a, a+1, ..., b-1` -/
theorem C32_slice_key (n a b : ℕ) (hab : a ≤ b) (hb : b ≤ n) :
    (Key.slice (some (a : ℤ)) (some (b : ℤ)) none).resolve n = .ok (.many (List.range' a (b - a))) := by
  have h1 : sliceBound n 0 n 0 (some (a : ℤ)) = a := by simp [sliceBound]; omega
  have h2 : sliceBound n 0 n n (some (b : ℤ)) = b := by simp [sliceBound]; omega
  simp only [Key.resolve, sliceIndices, Option.getD_none, one_ne_zero, if_false, zero_lt_one, if_true, h1, h2, Except.map,
    Except.ok.injEq, Sel.many.injEq]
  have h3 : (((b : ℤ) - a + 1 - 1) / 1).toNat = b - a := by omega
  rw [h3]
  apply List.ext_getElem
  · simp
  · intro i _ _
    simp only [List.getElem_map, List.getElem_range, List.getElem_range']
    omega

/-- `ens[:]` is all rows, `ens[::-1]` all rows backwards -/
theorem C32_slice_all (n : ℕ) :
    (Key.slice none none none).resolve n = .ok (.many (List.range n)) ∧
    (Key.slice none none (some (-1))).resolve n = .ok (.many (List.range n).reverse) := by
  constructor
  · simp only [Key.resolve, sliceIndices, Option.getD_none, one_ne_zero, if_false, zero_lt_one, if_true, Except.map,
      sliceBound, Except.ok.injEq, Sel.many.injEq]
    have h3 : (((n : ℤ) - 0 + 1 - 1) / 1).toNat = n := by omega
    rw [h3]
    apply List.ext_getElem
    · simp
    · intro i _ _
      simp only [List.getElem_map, List.getElem_range]
      omega
  · simp only [Key.resolve, sliceIndices, Option.getD_some, Except.map, sliceBound]
    rw [if_neg (by omega), if_neg (by omega)]
    simp only [Except.ok.injEq, Sel.many.injEq]
    have h3 : (((n : ℤ) - 1 - -1 + - -1 - 1) / - -1).toNat = n := by
      rw [show -(-1 : ℤ) = 1 by rfl, Int.ediv_one]; omega
    rw [h3]
    apply List.ext_getElem
    · simp
    · intro i h1 h2
      simp only [List.getElem_map, List.getElem_range, List.getElem_reverse, List.length_range]
      simp at h1
      omega

/-- a slice with a positive step: ascending, and exactly the in-range rows on the progression before the stop (`lo`, `hi` are the
bounds after counting negative ones from the end and clipping to the axis) -/
theorem C32_slice_step (n : ℕ) (start stop : Option ℤ) (st : ℤ) (hst : 0 < st) :
    ∃ (is : List ℕ) (lo hi : ℤ), (Key.slice start stop (some st)).resolve n = .ok (.many is) ∧
      (lo = match start with | none => (0 : ℤ) | some x => min (n : ℤ) (max 0 (if x < 0 then x + n else x))) ∧
      (hi = match stop with | none => (n : ℤ) | some x => min (n : ℤ) (max 0 (if x < 0 then x + n else x))) ∧
      is.Pairwise (· < ·) ∧ ∀ i : ℕ, i ∈ is ↔ lo ≤ i ∧ (i : ℤ) < hi ∧ st ∣ i - lo := by
  have hlo : sliceBound n 0 n 0 start = match start with | none => (0 : ℤ) | some x => min (n : ℤ) (max 0 (if x < 0 then x + n else x)) := by
    cases start with
    | none => rfl
    | some x => simp only [sliceBound]; split_ifs <;> omega
  have hhi : sliceBound n 0 n n stop = match stop with | none => (n : ℤ) | some x => min (n : ℤ) (max 0 (if x < 0 then x + n else x)) := by
    cases stop with
    | none => rfl
    | some x => simp only [sliceBound]; split_ifs <;> omega
  have hkey : (Key.slice start stop (some st)).resolve n = .ok (.many ((List.range
      ((sliceBound n 0 n n stop - sliceBound n 0 n 0 start + st - 1) / st).toNat).map fun (i : ℕ) =>
        (sliceBound n 0 n 0 start + i * st).toNat)) := by
    simp only [Key.resolve, sliceIndices, Option.getD_some]
    rw [if_neg (by omega), if_pos hst]
    rfl
  refine ⟨_, _, _, hkey, hlo, hhi, ?_, ?_⟩
  · have h0 := le_sliceBound n 0 n 0 (by omega) (by omega) (by omega) start
    rw [List.pairwise_map]
    refine List.Pairwise.imp ?_ List.pairwise_lt_range
    intro x y hxy
    have : (x : ℤ) * st < y * st := by
      apply mul_lt_mul_of_pos_right _ hst
      exact_mod_cast hxy
    have hx : (0 : ℤ) ≤ x * st := by positivity
    omega
  · intro i
    have h0 := le_sliceBound n 0 n 0 (by omega) (by omega) (by omega) start
    simp only [List.mem_map, List.mem_range]
    constructor
    · rintro ⟨x, hx, rfl⟩
      have h1 := ceil_bound _ _ hst x hx
      have hx0 : (0 : ℤ) ≤ x * st := by positivity
      have hcast : (((sliceBound n 0 n 0 start + x * st).toNat : ℕ) : ℤ) = sliceBound n 0 n 0 start + x * st := by omega
      rw [hcast]
      refine ⟨by omega, by omega, ⟨x, by ring⟩⟩
    · rintro ⟨h1, h2, ⟨q, hq⟩⟩
      have hq0 : 0 ≤ q := by
        by_contra hc
        have : st * q < 0 := mul_neg_of_pos_of_neg hst (by omega)
        omega
      refine ⟨q.toNat, ?_, ?_⟩
      · have hle : q + 1 ≤ (sliceBound n 0 n n stop - sliceBound n 0 n 0 start + st - 1) / st := by
          rw [Int.le_ediv_iff_mul_le hst]
          nlinarith
        omega
      · have : ((q.toNat : ℕ) : ℤ) = q := by omega
        rw [this]
        have : q * st = st * q := by ring
        omega

/-- a boolean mask selects exactly the positions of `True`, in ascending order; its length must be the number of rows -/
theorem C32_mask_key (n : ℕ) (m : List Bool) :
    (m.length = n → ∃ is, (Key.mask m).resolve n = .ok (.many is) ∧ is.Pairwise (· < ·) ∧ ∀ i, i ∈ is ↔ m[i]? = some true) ∧
    (m.length ≠ n → (Key.mask m).resolve n = .error .IndexError) := by
  constructor
  · intro h
    refine ⟨maskIndices m, by simp [Key.resolve, h], ?_, ?_⟩
    · exact List.Pairwise.sublist List.filter_sublist List.pairwise_lt_range
    · intro i
      simp only [maskIndices, List.mem_filter, List.mem_range, List.getD_eq_getElem?_getD]
      constructor
      · rintro ⟨h1, h2⟩
        rw [List.getElem?_eq_getElem h1] at h2 ⊢
        simpa using h2
      · intro h1
        have := (List.getElem?_eq_some_iff.1 h1).1
        exact ⟨this, by rw [h1]; rfl⟩
  · intro h; simp [Key.resolve, h]

/-- an index list selects the listed rows in the listed order, or raises `IndexError` if one is out of range -/
theorem C32_list_key (n : ℕ) (js : List ℕ) :
    ((∀ j ∈ js, j < n) → (Key.list (js.map (Nat.cast : ℕ → ℤ))).resolve n = .ok (.many js)) ∧
    (∀ is : List ℤ, (∃ i ∈ is, i < -n ∨ (n : ℤ) ≤ i) → (Key.list is).resolve n = .error .IndexError) := by
  constructor
  · intro h
    simp only [Key.resolve]
    have : (js.map (Nat.cast : ℕ → ℤ)).mapM (normIndex n) = .ok js := by
      rw [mapM_ok_iff]
      induction js with
      | nil => exact .nil
      | cons j t ih =>
        refine .cons ?_ (ih fun x hx => h x (by simp [hx]))
        have := h j (by simp)
        unfold normIndex
        rw [if_pos (by omega)]
        simp
    rw [this]; rfl
  · intro is h
    simp only [Key.resolve]
    have : is.mapM (normIndex n) = .error .IndexError := by
      induction is with
      | nil => simp at h
      | cons a t ih =>
        rw [mapM_cons]
        cases ha : normIndex n a with
        | error e => obtain ⟨rfl, -⟩ := normIndex_err ha; rfl
        | ok v =>
          obtain ⟨i, hi, hr⟩ := h
          have : i ∈ t := by
            rcases List.mem_cons.1 hi with rfl | h
            · have := normIndex_ok ha; omega
            · exact h
          rw [ih ⟨i, this, hr⟩]
    rw [this]; rfl

/-! ### selection -/

section
variable {K : Type} [Field K] [LinearOrder K] [IsStrictOrderedRing K]

/-- **C32.** For every ensemble of a row class, however obtained, without ancillary data (see C33 for those), and every key: a bad key
raises the indexing error; otherwise the result holds exactly the selected PDFs in order, with the same metadata. Missing from the
full claim: selecting no rows raises `ValueError` for the classes that take a minimum over the table (quantile, irregular, spline). -/
theorem C32_select_partial (k : RowKind) {e : Ens K} (h : Reach k e) (ha : e.ancil = none) (key : Key) :
    match key.resolve e.frozen.npdf with
    | .error err => getItem e key = .error err
    | .ok s => if (k.cls (K := K)).needsRows = true ∧ selRows s = [] then getItem e key = .error .ValueError
      else ∃ e', getItem e key = .ok e' ∧ Selects e.frozen e'.frozen (selRows s) ∧ e'.ancil = none ∧ Reach k e' := by
  obtain ⟨mo, ws, out, hs⟩ := reach_stored h
  have hn : e.frozen.npdf = out.length := by rw [hs.frozen]; rfl
  have hg := getItem_frozen hs.create hs.frozen hs.fixed hs.w key
  rw [hn]
  cases hr : key.resolve out.length with
  | error err => rw [hr] at hg; exact hg
  | ok s =>
    rw [hr, ha] at hg
    simp only [sliceAncil, Except.bind, checkArrayShapes] at hg
    simp only
    split_ifs with hc
    · rw [if_pos hc] at hg; exact hg
    · rw [if_neg hc] at hg
      refine ⟨_, hg, ?_, rfl, .select h hg⟩
      have := selects_frozenOf hs.fixed e.frozen.shape (selRows s) (resolve_lt hr)
      rw [← hs.frozen] at this
      exact this

/-- **C32**, out-of-range integers -/
theorem C32_out_of_range (k : RowKind) {e : Ens K} (h : Reach k e) (i : ℤ) (hi : i < -e.frozen.npdf ∨ (e.frozen.npdf : ℤ) ≤ i) :
    getItem e (.int i) = .error .IndexError := by
  obtain ⟨mo, ws, out, hs⟩ := reach_stored h
  have hn : e.frozen.npdf = out.length := by rw [hs.frozen]; rfl
  rw [getItem_frozen hs.create hs.frozen hs.fixed hs.w, ← hn, ((C32_int_key _ i).2.2 hi)]
  rfl

/-- **C32**, composition: selecting twice is one selection by the composed row list -/
theorem C32_compose (k : RowKind) {e e1 e2 : Ens K} (h : Reach k e) (ha : e.ancil = none) (k1 k2 : Key) (h1 : getItem e k1 = .ok e1)
    (h2 : getItem e1 k2 = .ok e2) :
    ∃ s1 s2, k1.resolve e.frozen.npdf = .ok s1 ∧ k2.resolve (selRows s1).length = .ok s2 ∧
      getItem e (.list ((selRows s2).map fun j => (((selRows s1).getD j 0 : ℕ) : ℤ))) = .ok e2 := by
  obtain ⟨mo, ws, out, hs⟩ := reach_stored h
  have hn : e.frozen.npdf = out.length := by rw [hs.frozen]; rfl
  rw [getItem_frozen hs.create hs.frozen hs.fixed hs.w, ha] at h1
  obtain ⟨s1, hr1, h1⟩ := bind_ok h1
  simp only [sliceAncil, Except.bind, checkArrayShapes] at h1
  split_ifs at h1 with hc1
  obtain rfl := Except.ok.inj h1
  have hlt1 := resolve_lt hr1
  have hfs := hs.fixed.sub (pick_mem (K := K) hlt1)
  rw [getItem_frozen (e := ⟨e.create, e.create, frozenOf (k.cls (K := K)) mo ws (pick out (selRows s1)) [(selRows s1).length], none⟩)
    (out := pick out (selRows s1)) hs.create rfl hfs hs.w] at h2
  obtain ⟨s2, hr2, h2⟩ := bind_ok h2
  simp only [sliceAncil, Except.bind, checkArrayShapes] at h2
  split_ifs at h2 with hc2
  obtain rfl := Except.ok.inj h2
  rw [pick_length] at hr2
  have hlt2 := resolve_lt hr2
  refine ⟨s1, s2, by rw [hn]; exact hr1, hr2, ?_⟩
  have hlt : ∀ j ∈ (selRows s2).map (fun j => (selRows s1).getD j 0), j < out.length := by
    intro j hj
    obtain ⟨i, hi, rfl⟩ := List.mem_map.1 hj
    have := hlt2 i hi
    rw [List.getD_eq_getElem?_getD, List.getElem?_eq_getElem this]
    exact hlt1 _ (List.getElem_mem _)
  have hk := (C32_list_key out.length ((selRows s2).map fun j => (selRows s1).getD j 0)).1 hlt
  rw [List.map_map] at hk
  rw [getItem_frozen hs.create hs.frozen hs.fixed hs.w, ha]
  have hk' : (Key.list ((selRows s2).map fun j => (((selRows s1).getD j 0 : ℕ) : ℤ))).resolve out.length
      = .ok (.many ((selRows s2).map fun j => (selRows s1).getD j 0)) := hk
  rw [hk']
  simp only [sliceAncil, Except.bind, checkArrayShapes]
  have hsr : selRows (.many ((selRows s2).map fun j => (selRows s1).getD j 0)) = (selRows s2).map fun j => (selRows s1).getD j 0 := rfl
  rw [hsr, if_neg (by
    rintro ⟨hx, hy⟩
    exact hc2 ⟨hx, List.map_eq_nil_iff.1 hy⟩)]
  rw [List.length_map]
  have hp : pick (pick out (selRows s1)) (selRows s2) = pick out ((selRows s2).map fun j => (selRows s1).getD j 0) := by
    unfold pick
    rw [List.map_map]
    apply List.map_congr_left
    intro j hj
    have := hlt2 j hj
    simp only [Function.comp, List.getD_eq_getElem?_getD, List.getElem?_map]
    rw [List.getElem?_eq_getElem this]
    rfl
  rw [hp]

/-! ### ancillary data -/

/-- **C33**, slices, masks and index lists: whenever selecting the rows succeeds, selecting with ancillary columns (arrays with one
entry per PDF and any trailing shape) succeeds, and row `j` of every column is row `is[j]` of the original column. (Missing from the
full claim: integer keys, see `C33_integer_key`; columns given as Python lists, see `C33_list_column_misaligned`; the empty
selection of C32.) -/
theorem C33_many_partial (k : RowKind) {e : Ens K} (h : Reach k e) (a : Dict K) (ha : e.ancil = some a)
    (hcols : AncilCols a e.frozen.npdf) (key : Key) (is : List ℕ) (hr : key.resolve e.frozen.npdf = .ok (.many is))
    (hne : (k.cls (K := K)).needsRows = true → is ≠ []) :
    ∃ e' a', getItem e key = .ok e' ∧ Selects e.frozen e'.frozen is ∧ e'.ancil = some a' ∧ Dict.keys a' = Dict.keys a ∧
      AncilCols a' is.length ∧
      ∀ (i : ℕ) (hi : i < a.length), ∃ c c', a[i].2 = .arr c ∧ a'[i]? = some (a[i].1, .arr c') ∧
        c'.shape = is.length :: c.shape.tail ∧ ∀ j (hj : j < is.length), c'.row j = c.row is[j] := by
  obtain ⟨mo, ws, out, hs⟩ := reach_stored h
  have hn : e.frozen.npdf = out.length := by rw [hs.frozen]; rfl
  have hg := getItem_frozen hs.create hs.frozen hs.fixed hs.w key
  rw [hn] at hr hcols
  have hlt : ∀ i ∈ is, i < out.length := resolve_lt hr
  have hnew := selArr_many_cols hcols is hlt
  rw [hr, ha] at hg
  simp only [sliceAncil, index_cols_ok hcols hr, Except.map, Except.bind, checkArrayShapes] at hg
  rw [if_neg (fun hc => hne hc.1 hc.2)] at hg
  simp only [selRows] at hg
  rw [checkShapes_cols hnew] at hg
  refine ⟨_, _, hg, ?_, rfl, ?_, hnew, ?_⟩
  · have := selects_frozenOf hs.fixed e.frozen.shape is hlt
    rw [← hs.frozen] at this
    exact this
  · exact keys_map a fun _ v => .arr (selArr (.many is) v.toArr)
  · intro i hi
    obtain ⟨c, hc, hw, hh⟩ := hcols a[i] (List.getElem_mem hi)
    have hnr : c.nrows = out.length := by
      cases hs : c.shape with
      | nil => rw [hs] at hh; simp at hh
      | cons m t => rw [hs] at hh; simp at hh; simp [Arr.nrows, hs, hh]
    refine ⟨c, c.takeRows is, hc, ?_, ?_, ?_⟩
    · rw [List.getElem?_map, List.getElem?_eq_getElem hi]
      simp only [Option.map_some, selArr]
      rw [hc]
      rfl
    · simp [Arr.takeRows, Arr.ofRows]
    · intro j hj
      exact Arr.row_takeRows c hw is (fun x hx => by rw [hnr]; exact hlt x hx) j hj

/-- **C33**, integer keys, exactly: `ens[i]` succeeds iff each column's entry for one PDF is a scalar (or has a first axis of length
one); otherwise it raises `ValueError` although selecting the PDF alone succeeds. -/
theorem C33_integer_key (k : RowKind) {e : Ens K} (h : Reach k e) (a : Dict K) (ha : e.ancil = some a)
    (hcols : AncilCols a e.frozen.npdf) (i : ℕ) (hi : i < e.frozen.npdf) :
    if ∀ p ∈ a, p.2.shape.tail.prod = 1 ∨ p.2.shape.tail.head? = some 1 then
      ∃ e', getItem e (.int i) = .ok e' ∧ Selects e.frozen e'.frozen [i] ∧
        e'.ancil = some (a.map fun p => (p.1, .arr (p.2.toArr.at0 i)))
    else getItem e (.int i) = .error .ValueError := by
  obtain ⟨mo, ws, out, hs⟩ := reach_stored h
  have hn : e.frozen.npdf = out.length := by rw [hs.frozen]; rfl
  have hg := getItem_frozen hs.create hs.frozen hs.fixed hs.w (.int i)
  rw [hn] at hcols hi
  have hr : (Key.int i).resolve out.length = .ok (.one i) := ((C32_int_key _ _).1 i).2 ⟨hi, Or.inl rfl⟩
  rw [hr, ha] at hg
  simp only [sliceAncil, index_cols_ok hcols hr, Except.map, Except.bind, checkArrayShapes] at hg
  rw [if_neg (by simp [selRows])] at hg
  simp only [selRows] at hg
  have hcheck : ∀ p ∈ a, checkArrayShape (Val.arr (selArr (.one i) p.2.toArr)) 1 =
      if p.2.shape.tail.prod = 1 ∨ p.2.shape.tail.head? = some 1 then .ok () else .error .ValueError := by
    intro p hp
    have hsh : (Val.arr (selArr (.one i) p.2.toArr)).shape = p.2.shape.tail := rfl
    unfold checkArrayShape Val.size
    rw [hsh]
    cases ht : p.2.shape.tail with
    | nil => simp
    | cons m t =>
      by_cases h1 : (m :: t).prod = 1
      · simp only [h1, and_self, if_true, true_or]
      · simp only [h1, false_and, if_false, false_or, List.head?_cons, Option.some.injEq]
  have hall : checkShapes (a.map fun p => (p.1, Val.arr (selArr (.one i) p.2.toArr))) 1 =
      if ∀ p ∈ a, p.2.shape.tail.prod = 1 ∨ p.2.shape.tail.head? = some 1 then .ok () else .error .ValueError := by
    clear hg hcols ha
    induction a with
    | nil => simp [checkShapes]
    | cons p t ih =>
      simp only [List.map_cons, checkShapes]
      rw [hcheck p (by simp)]
      by_cases h1 : p.2.shape.tail.prod = 1 ∨ p.2.shape.tail.head? = some 1
      · rw [if_pos h1]
        simp only
        rw [ih fun q hq => hcheck q (by simp [hq])]
        simp only [List.forall_mem_cons, h1, true_and]
      · rw [if_neg h1, if_neg]
        intro hc
        exact h1 (hc p (by simp))
  simp only [List.length_singleton, hall] at hg
  split_ifs with hc
  · rw [if_pos hc] at hg
    refine ⟨_, hg, ?_, rfl⟩
    have := selects_frozenOf hs.fixed e.frozen.shape [i] (by simpa using hi)
    rw [← hs.frozen] at this
    exact this
  · rw [if_neg hc] at hg
    exact hg

/-! ### iteration -/

theorem iterFrom_spec (e : Ens K) (n : ℕ) (f : ℕ → Ens K) (hok : ∀ i, i < n → getItem e (.int i) = .ok (f i))
    (hend : getItem e (.int n) = .error .IndexError) :
    ∀ d i fuel, i + d = n → d < fuel → iterFrom e fuel i = some (.ok ((List.range' i d).map f)) := by
  intro d
  induction d with
  | zero =>
    intro i fuel hi hf
    obtain ⟨fuel, rfl⟩ := Nat.exists_eq_succ_of_ne_zero (by omega : fuel ≠ 0)
    have : i = n := by omega
    subst this
    simp [iterFrom, hend]
  | succ d ih =>
    intro i fuel hi hf
    obtain ⟨fuel, rfl⟩ := Nat.exists_eq_succ_of_ne_zero (by omega : fuel ≠ 0)
    simp only [iterFrom, hok i (by omega)]
    rw [ih (i + 1) fuel (by omega) (by omega)]
    simp [List.range'_succ]

/-- **C41.** Iterating over an ensemble of a row class stops after visiting every PDF once: with any number of steps beyond `npdf` the
loop has ended, and the i-th object is `ens[i]` with one PDF. Ancillary columns must have one number per PDF (otherwise `ens[i]`
raises, see `C33_integer_key` and `C41_wide_column_raises`). Analytic classes: `C41_scalar_parameters_never_end`. -/
theorem C41_iteration_partial (k : RowKind) {e : Ens K} (h : Reach k e)
    (ha : ∀ a, e.ancil = some a → AncilCols a e.frozen.npdf ∧ ∀ p ∈ a, p.2.shape.tail.prod = 1) (fuel : ℕ)
    (hf : e.frozen.npdf < fuel) :
    ∃ xs, iterFrom e fuel 0 = some (.ok xs) ∧ xs.length = e.frozen.npdf ∧
      ∀ i (hi : i < xs.length), getItem e (.int i) = .ok xs[i] ∧ xs[i].frozen.npdf = 1 ∧ Selects e.frozen xs[i].frozen [i] := by
  have hone : ∀ i, i < e.frozen.npdf → ∃ x, getItem e (.int i) = .ok x ∧ Selects e.frozen x.frozen [i] := by
    intro i hi
    cases hanc : e.ancil with
    | none =>
      have := C32_select_partial k h hanc (.int i)
      rw [((C32_int_key _ (i : ℤ)).1 i).2 ⟨hi, Or.inl rfl⟩] at this
      simp only [selRows, List.cons_ne_nil, and_false, if_false] at this
      obtain ⟨x, hx, hsel, -, -⟩ := this
      exact ⟨x, hx, hsel⟩
    | some a =>
      obtain ⟨hc, hp⟩ := ha a hanc
      have := C33_integer_key k h a hanc hc i hi
      rw [if_pos (fun p hpa => Or.inl (hp p hpa))] at this
      obtain ⟨x, hx, hsel, -⟩ := this
      exact ⟨x, hx, hsel⟩
  classical
  let f : ℕ → Ens K := fun i => if hi : i < e.frozen.npdf then (hone i hi).choose else e
  have hfx : ∀ i, i < e.frozen.npdf → getItem e (.int i) = .ok (f i) ∧ Selects e.frozen (f i).frozen [i] := by
    intro i hi
    simp only [f, dif_pos hi]
    exact (hone i hi).choose_spec
  have hend := C32_out_of_range k h (e.frozen.npdf : ℤ) (Or.inr (le_refl _))
  refine ⟨_, iterFrom_spec e e.frozen.npdf f (fun i hi => (hfx i hi).1) hend e.frozen.npdf 0 fuel (by omega) hf, by simp, ?_⟩
  intro i hi
  simp only [List.length_map, List.length_range'] at hi
  simp only [List.getElem_map, List.getElem_range', zero_add, one_mul]
  exact ⟨(hfx i hi).1, (hfx i hi).2.npdf, (hfx i hi).2⟩

/-- **C41** fails when an ancillary column has several numbers per PDF: the loop raises at the first PDF. -/
theorem C41_wide_column_raises (k : RowKind) {e : Ens K} (h : Reach k e) (a : Dict K) (ha : e.ancil = some a)
    (hcols : AncilCols a e.frozen.npdf) (hpos : 0 < e.frozen.npdf)
    (hwide : ∃ p ∈ a, p.2.shape.tail.prod ≠ 1 ∧ p.2.shape.tail.head? ≠ some 1) (fuel : ℕ) :
    iterFrom e (fuel + 1) 0 = some (.error .ValueError) := by
  have := C33_integer_key k h a ha hcols 0 hpos
  rw [if_neg (by
    obtain ⟨p, hp, h1, h2⟩ := hwide
    intro hc
    rcases hc p hp with h | h
    · exact h1 h
    · exact h2 h)] at this
  simp only [iterFrom, Nat.cast_zero] at this ⊢
  rw [this]

/-! ### what fails -/

/-- **C32** fails for the empty selection of the classes that take a minimum over their table. -/
theorem C32_empty_selection_fails (k : RowKind) (hk : k = .irr ∨ k = .quant ∨ k = .spline) {e : Ens K} (h : Reach k e)
    (ha : e.ancil = none) : getItem e (.list []) = .error .ValueError := by
  have := C32_select_partial k h ha (.list [])
  rw [show (Key.list []).resolve e.frozen.npdf = .ok (.many []) from rfl] at this
  simp only [selRows] at this
  rw [if_pos] at this
  · exact this
  · rcases hk with rfl | rfl | rfl <;> exact ⟨rfl, trivial⟩

/-- **C33** fails for a column given as a Python list: with an index list or a mask of as many rows, the selection succeeds and the
column keeps its original order, so it no longer belongs to the selected PDFs. -/
theorem C33_list_column_misaligned (k : RowKind) {e : Ens K} (h : Reach k e) (name : String) (l : List (Elem K))
    (ha : e.ancil = some [(name, .lst l)]) (is : List ℕ) (hlt : ∀ i ∈ is, i < e.frozen.npdf) (hlen : is.length = l.length)
    (hne : is ≠ []) :
    ∃ e', getItem e (.list (is.map (Nat.cast : ℕ → ℤ))) = .ok e' ∧ Selects e.frozen e'.frozen is ∧ e'.ancil = some [(name, .lst l)] := by
  obtain ⟨mo, ws, out, hs⟩ := reach_stored h
  have hn : e.frozen.npdf = out.length := by rw [hs.frozen]; rfl
  rw [hn] at hlt
  have hg := getItem_frozen hs.create hs.frozen hs.fixed hs.w (.list (is.map (Nat.cast : ℕ → ℤ)))
  rw [(C32_list_key out.length is).1 hlt, ha] at hg
  have hsl : sliceDict [(name, Val.lst l)] (.list (is.map (Nat.cast : ℕ → ℤ))) = .ok [(name, .lst l)] := by
    simp [sliceDict, sliceVal, Val.index, Except.map, Pure.pure, Except.pure, Bind.bind, Except.bind]
  have hck : checkArrayShapes (some [(name, Val.lst l)]) is.length = .ok () := by
    simp [checkArrayShapes, checkShapes, checkArrayShape, Val.shape, Val.toArr, hlen]
  simp only [sliceAncil, hsl, Except.map, Except.bind] at hg
  rw [if_neg (fun hc => hne hc.2)] at hg
  simp only [selRows, hck] at hg
  refine ⟨_, hg, ?_, rfl⟩
  have := selects_frozenOf hs.fixed e.frozen.shape is hlt
  rw [← hs.frozen] at this
  exact this

/-- **C33** fails for selecting from `ens[i]`: the columns with one number per PDF have become numbers, and any further selection
raises `IndexError`. -/
theorem C33_reselect_fails (k : RowKind) {e e' : Ens K} (h : Reach k e) (name : String) (c : Arr (Elem K)) (hc : c.Wf)
    (hsh : c.shape = [e.frozen.npdf]) (hnum : ∀ x ∈ c.data, ∃ v, x = .num v) (ha : e.ancil = some [(name, .arr c)]) (i : ℕ)
    (hi : i < e.frozen.npdf) (h1 : getItem e (.int i) = .ok e') :
    e'.frozen.npdf = 1 ∧ getItem e' (.int 0) = .error .IndexError := by
  have hcols : AncilCols [(name, Val.arr c)] e.frozen.npdf := by
    intro p hp
    rw [List.mem_singleton.1 hp]
    exact ⟨c, rfl, hc, by rw [hsh]; rfl⟩
  have h2 := C33_integer_key k h _ ha hcols i hi
  rw [if_pos (by
    intro p hp
    rw [List.mem_singleton.1 hp]
    left
    simp [Val.shape, Val.toArr, hsh])] at h2
  obtain ⟨e2, he2, hsel, hanc⟩ := h2
  obtain rfl : e2 = e' := Except.ok.inj (he2.symm.trans h1)
  refine ⟨hsel.npdf, ?_⟩
  obtain ⟨mo, ws, out, hs⟩ := reach_stored (Reach.select h h1)
  have hn : e2.frozen.npdf = out.length := by rw [hs.frozen]; rfl
  rw [getItem_frozen hs.create hs.frozen hs.fixed hs.w, ← hn, hsel.npdf, hanc]
  have hrow : ∃ v, c.row i = [.num v] := by
    have hlen : (c.row i).length = 1 := by
      rw [Arr.length_row c hc i (by simpa [Arr.nrows, hsh] using hi)]
      simp [Arr.rowSize, hsh]
    obtain ⟨x, hx⟩ := List.length_eq_one_iff.1 hlen
    have : x ∈ c.data := List.mem_of_mem_drop (List.mem_of_mem_take (by
      show x ∈ c.row i
      rw [hx]; simp))
    obtain ⟨v, rfl⟩ := hnum x this
    exact ⟨v, hx⟩
  obtain ⟨v, hv⟩ := hrow
  have hr : (Key.int 0).resolve ([i] : List ℕ).length = .ok (.one 0) := rfl
  rw [hr]
  have hsl : sliceDict [(name, Val.arr (c.at0 i))] (.int 0) = .error .IndexError := by
    have hat : c.at0 i = ⟨[], [.num v]⟩ := by simp only [Arr.at0, hv, hsh]; rfl
    rw [hat]
    simp [sliceDict, sliceVal, Val.index, Except.map, Pure.pure, Except.pure, Bind.bind, Except.bind]
  simp only [List.map_cons, List.map_nil, Val.toArr, sliceAncil, hsl, Except.map, Except.bind]

/-! ### analytic classes -/

/-- **C32** for the analytic classes, with parameters given as `(n, 1)` arrays: any key selects the rows of the parameters. -/
theorem C32_analytic_partial (name : String) (version : ℤ) (data : Dict K) (e : Ens K) (n : ℕ)
    (hok : mkEns (analyticCreate name version) (analyticCreate name version) data none = .ok e) (hne : data ≠ [])
    (hnd : (Dict.keys data).Nodup) (hpar : ∀ p ∈ data, ∃ c : Arr (Elem K), p.2 = .arr c ∧ c.Wf ∧ c.shape = [n, 1]) (key : Key) :
    e.frozen.npdf = n ∧ match key.resolve n with
    | .error err => getItem e key = .error err
    | .ok s => ∃ e', getItem e key = .ok e' ∧ Selects e.frozen e'.frozen (selRows s) ∧ e'.ancil = none := by
  have hcols : AncilCols data n := fun p hp => by
    obtain ⟨c, h1, h2, h3⟩ := hpar p hp
    exact ⟨c, h1, h2, by rw [h3]; rfl⟩
  have hcreate : ∀ (d : Dict K) (m : ℕ), d ≠ [] → (∀ p ∈ d, p.2.shape = [m, 1]) →
      analyticCreate name version d = .ok ⟨classMeta name version, d, m, [m]⟩ := by
    intro d m hd hs
    have hh : (d.map fun p => p.2.shape).headD [] = [m, 1] := by
      cases d with
      | nil => exact absurd rfl hd
      | cons p t => simp [hs p (by simp)]
    unfold analyticCreate
    simp only [hh]
    rw [if_neg (by
      simp only [List.any_map, List.any_eq_true, Function.comp, decide_eq_true_eq, not_exists, not_and, not_not]
      exact hs)]
    simp
  have hsh : ∀ p ∈ data, p.2.shape = [n, 1] := by
    intro p hp
    obtain ⟨c, h1, h2, h3⟩ := hpar p hp
    rw [h1]; exact h3
  unfold mkEns at hok
  rw [hcreate data n hne hsh] at hok
  obtain rfl := Except.ok.inj hok
  refine ⟨rfl, ?_⟩
  have hmeta : squeezedMeta (classMeta name version : Dict K) = .ok [] := rfl
  have hidx := index_cols hcols key
  obtain ⟨p0, t0, rfl⟩ := List.exists_cons_of_ne_nil hne
  simp only at hidx
  cases hr : key.resolve n with
  | error err =>
    rw [hr] at hidx
    simp only [getItem, hmeta, hidx, Except.map, Bind.bind, Except.bind]
  | ok s =>
    rw [hr] at hidx
    simp only
    have hval : ∀ p ∈ p0 :: t0, (expandRow (.arr (selArr s p.2.toArr))).shape = [(selRows s).length, 1] ∧
        ∃ b, expandRow (.arr (selArr s p.2.toArr)) = .arr b ∧ ∀ j (hj : j < (selRows s).length), b.row j = p.2.toArr.row (selRows s)[j] := by
      intro p hp
      obtain ⟨c, h1, h2, h3⟩ := hpar p hp
      rw [h1]
      simp only [Val.toArr]
      have hnr : c.nrows = n := by simp [Arr.nrows, h3]
      cases s with
      | one i =>
        have hsa : selArr (.one i) c = ⟨[1], c.row i⟩ := by simp [selArr, Arr.at0, h3]
        have hi : i < n := resolve_lt hr i (by simp [selRows])
        rw [hsa]
        refine ⟨rfl, ⟨[1, 1], c.row i⟩, rfl, ?_⟩
        intro j hj
        simp only [selRows, List.length_singleton] at hj
        obtain rfl : j = 0 := by omega
        have hl : (c.row i).length = 1 := by
          rw [Arr.length_row c h2 i (by omega)]; simp [Arr.rowSize, h3]
        simp only [selRows, List.getElem_cons_zero, Arr.row, Arr.rowSize, List.tail_cons, List.prod_cons, List.prod_nil, mul_one,
          zero_mul, List.drop_zero]
        exact List.take_of_length_le (le_of_eq hl)
      | many is =>
        have hlt : ∀ i ∈ is, i < n := resolve_lt hr
        have hsa : (selArr (.many is) c).shape = [is.length, 1] := by simp [selArr, Arr.takeRows, Arr.ofRows, h3]
        have hex : expandRow (.arr (selArr (.many is) c)) = .arr (selArr (.many is) c) := by
          unfold expandRow
          rw [if_neg]
          simp [Val.shape, Val.toArr, hsa]
        rw [hex]
        exact ⟨hsa, _, rfl, fun j hj => Arr.row_takeRows c h2 is (fun x hx => by rw [hnr]; exact hlt x hx) j hj⟩
    set dd : Dict K := (p0 :: t0).map fun p => (p.1, expandRow (.arr (selArr s p.2.toArr))) with hdd
    have hkeys : Dict.keys dd = Dict.keys (p0 :: t0) := keys_map (p0 :: t0) fun _ v => expandRow (.arr (selArr s v.toArr))
    have hget : getItem ⟨analyticCreate name version, analyticCreate name version, ⟨classMeta name version, p0 :: t0, n, [n]⟩, none⟩ key
        = .ok ⟨analyticCreate name version, analyticCreate name version,
          ⟨classMeta name version, dd, (selRows s).length, [(selRows s).length]⟩, none⟩ := by
      have hup : Dict.update ([] : Dict K) dd = dd := by
        rw [update_disjoint _ _ (by rw [hkeys]; exact hnd) (by simp [Dict.keys])]; rfl
      have hcr := hcreate dd (selRows s).length (by simp [hdd]) (by
        intro q hq
        obtain ⟨p, hp, rfl⟩ := List.mem_map.1 hq
        exact (hval p hp).1)
      simp only [getItem, hmeta, hidx, Except.map, Bind.bind, Except.bind, sliceAncil, List.map_map]
      have hmm : ((p0 :: t0).map ((fun p : String × Val K => (p.1, expandRow p.2)) ∘ fun p => (p.1, Val.arr (selArr s p.2.toArr)))) = dd := rfl
      rw [hmm, hup]
      simp only [mkEns, hcr, checkArrayShapes, Bind.bind, Except.bind]
    refine ⟨_, hget, ⟨rfl, rfl, rfl, hkeys, ?_⟩, rfl⟩
    intro x a hxa
    have hg2 : Dict.get? dd x = some (expandRow (.arr (selArr s a))) := by
      have := mem_of_get? hxa
      have hm : (x, expandRow (.arr (selArr s a))) ∈ dd := List.mem_map.2 ⟨(x, .arr a), this, rfl⟩
      exact get?_of_mem (by rw [hkeys]; exact hnd) hm
    obtain ⟨hs1, b, hb, hrows⟩ := hval (x, .arr a) (mem_of_get? hxa)
    obtain ⟨c, h1, h2, h3⟩ := hpar (x, .arr a) (mem_of_get? hxa)
    simp only [Val.arr.injEq] at h1
    subst h1
    simp only [Val.toArr] at hb hrows hs1
    refine ⟨b, by rw [hg2, hb], ?_, hrows⟩
    rw [hb] at hs1
    rw [h3]
    exact hs1

/-- **C41** fails for analytic distributions whose parameters are Python numbers: `ens[i]` succeeds for every `i`, so the loop never
ends. -/
theorem C41_scalar_parameters_never_end (name : String) (version : ℤ) (data : Dict K) (e : Ens K)
    (hok : mkEns (analyticCreate name version) (analyticCreate name version) data none = .ok e)
    (hpar : ∀ p ∈ data, ∃ v, p.2 = .py (.num v)) (fuel i : ℕ) : iterFrom e fuel i = none := by
  have hfr : e = ⟨analyticCreate name version, analyticCreate name version, e.frozen, none⟩ ∧
      e.frozen.metadata = classMeta name version ∧ e.frozen.objdata = data := by
    unfold mkEns at hok
    obtain ⟨fr, h1, h2⟩ := bind_ok hok
    simp only [checkArrayShapes, Bind.bind, Except.bind, Except.ok.injEq] at h2
    subst h2
    unfold analyticCreate at h1
    simp only at h1
    split_ifs at h1 <;> · obtain rfl := Except.ok.inj h1; exact ⟨rfl, rfl, rfl⟩
  obtain ⟨he, hm, ho⟩ := hfr
  have hstep : ∀ i : ℕ, ∃ x, getItem e (.int i) = .ok x := by
    intro i
    have hmeta : squeezedMeta (classMeta name version : Dict K) = .ok [] := rfl
    have hsl : sliceDict data (.int i) = .ok data := by
      unfold sliceDict
      rw [mapM_ok_map _ id]
      · simp
      · intro p hp
        obtain ⟨v, hv⟩ := hpar p hp
        obtain ⟨x, y⟩ := p
        simp only at hv
        subst hv
        rfl
    have hshape : ∀ p ∈ Dict.update ([] : Dict K) (data.map fun p => (p.1, expandRow p.2)), p.2.shape = [1] := by
      intro p hp
      rcases mem_update hp with h | h
      · simp at h
      · obtain ⟨q, hq, rfl⟩ := List.mem_map.1 h
        obtain ⟨v, hv⟩ := hpar q hq
        rw [hv]; rfl
    have hcr : ∃ fr, analyticCreate name version (Dict.update ([] : Dict K) (data.map fun p => (p.1, expandRow p.2))) = .ok fr := by
      unfold analyticCreate
      simp only
      rw [if_neg]
      · exact ⟨_, rfl⟩
      · generalize Dict.update ([] : Dict K) (data.map fun p => (p.1, expandRow p.2)) = d at hshape
        simp only [List.any_map, List.any_eq_true, Function.comp, decide_eq_true_eq, not_exists, not_and, not_not]
        intro p hp
        cases d with
        | nil => simp at hp
        | cons q t =>
          rw [hshape p hp]
          simp [hshape q (by simp)]
    obtain ⟨fr, hfr⟩ := hcr
    rw [he]
    refine ⟨⟨analyticCreate name version, analyticCreate name version, fr, none⟩, ?_⟩
    simp only [getItem, hm, ho, hmeta, hsl, Bind.bind, Except.bind, sliceAncil, mkEns, hfr, checkArrayShapes]
  induction fuel generalizing i with
  | zero => rfl
  | succ f ih =>
    obtain ⟨x, hx⟩ := hstep i
    simp only [iterFrom, hx, ih (i + 1)]

end

/-! ### concrete cases -/

section examples
open Verif.Props.ExEns

example : (Key.int (-1)).resolve 3 = .ok (.one 2) := ((C32_int_key 3 (-1)).1 2).2 ⟨by decide, by decide⟩
example : (Key.int 3).resolve 3 = .error .IndexError := (C32_int_key 3 3).2.2 (by decide)
example : (Key.slice (some 1) (some 4) none).resolve 5 = .ok (.many [1, 2, 3]) := C32_slice_key 5 1 4 (by decide) (by decide)
example : (Key.slice none (some (-1)) (some 2)).resolve 6 = .ok (.many [0, 2, 4]) := by decide
example : (Key.mask [true, false, true]).resolve 3 = .ok (.many [0, 2]) := by decide
example : (Key.list [-1, 0, 0]).resolve 3 = .ok (.many [2, 0, 0]) := by decide

/-- rows 2 and 0 of three histograms -/
example : ∃ e', getItem (histEns none) (.list [-1, 0]) = .ok e' ∧ Selects histFrozen e'.frozen [2, 0] ∧ e'.ancil = none := by
  have h := C32_select_partial .hist (histReach none rfl) rfl (.list [-1, 0])
  have hr : (Key.list [-1, 0]).resolve (histEns none).frozen.npdf = .ok (.many [2, 0]) := by decide
  rw [hr] at h
  simp only at h
  rw [if_neg (by decide)] at h
  obtain ⟨e', h1, h2, h3, -⟩ := h
  exact ⟨e', h1, h2, h3⟩

/-- with an ancillary column with two numbers per PDF: index lists work, integers raise, so does the loop -/
example : (∃ e' a', getItem (histEns (some wide)) (.list [2, 0]) = .ok e' ∧ e'.ancil = some a' ∧ AncilCols a' 2) ∧
    getItem (histEns (some wide)) (.int 0) = .error .ValueError ∧
    ∀ fuel, iterFrom (histEns (some wide)) (fuel + 1) 0 = some (.error .ValueError) := by
  have hR := histReach (some wide) (by decide +kernel)
  refine ⟨?_, ?_, ?_⟩
  · obtain ⟨e', a', h1, -, h3, -, h5, -⟩ := C33_many_partial .hist hR wide rfl wide_cols (.list [2, 0]) [2, 0] (by decide) (by simp)
    exact ⟨e', a', h1, h3, h5⟩
  · have := C33_integer_key .hist hR wide rfl wide_cols 0 (by decide)
    rwa [if_neg (by decide +kernel)] at this
  · exact C41_wide_column_raises .hist hR wide rfl wide_cols (by decide) ⟨_, List.mem_singleton.2 rfl, by decide +kernel, by decide +kernel⟩

/-- with one number per PDF the loop visits the three histograms -/
example : ∃ xs, iterFrom (histEns (some narrow)) 4 0 = some (.ok xs) ∧ xs.length = 3 := by
  obtain ⟨xs, h1, h2, -⟩ := C41_iteration_partial .hist (histReach (some narrow) (by decide +kernel)) (by
    intro a ha
    obtain rfl := Option.some.inj ha
    exact ⟨narrow_cols, by decide +kernel⟩) 4 (by decide)
  exact ⟨xs, h1, h2⟩

/-- but `ens[1][0]` raises -/
example (e' : Ens ℚ) (h : getItem (histEns (some narrow)) (.int 1) = .ok e') : getItem e' (.int 0) = .error .IndexError :=
  (C33_reselect_fails .hist (histReach (some narrow) (by decide +kernel)) "id" ⟨[3], nums [10, 20, 30]⟩ (by decide +kernel) rfl
    (by intro x hx; simp [nums] at hx; rcases hx with rfl | rfl | rfl <;> exact ⟨_, rfl⟩) rfl 1 (by decide) h).2

/-- a Python list column stays in the old order -/
example : ∃ e', getItem (histEns (some [("id", .lst (nums [10, 20, 30]))])) (.list [2, 1, 0]) = .ok e' ∧
    Selects histFrozen e'.frozen [2, 1, 0] ∧ e'.ancil = some [("id", .lst (nums [10, 20, 30]))] :=
  C33_list_column_misaligned .hist (histReach (some [("id", .lst (nums [10, 20, 30]))]) (by decide +kernel)) "id" _ rfl [2, 1, 0]
    (by decide) (by decide) (by decide)

/-- two normal distributions given by `(2, 1)` arrays -/
def normData : Dict ℚ := [("loc", qarr [2, 1] [0, 1]), ("scale", qarr [2, 1] [1, 2])]

def normEns : Ens ℚ := ⟨analyticCreate "norm" 0, analyticCreate "norm" 0, ⟨classMeta "norm" 0, normData, 2, [2]⟩, none⟩

theorem normMade : mkEns (analyticCreate "norm" 0) (analyticCreate "norm" 0) normData none = .ok normEns := rfl

example : ∃ e', getItem normEns (.int 1) = .ok e' ∧ Selects normEns.frozen e'.frozen [1] := by
  have h := (C32_analytic_partial "norm" 0 normData _ 2 normMade (by simp [normData]) (by decide)
    (by
      intro p hp
      simp only [normData, List.mem_cons, List.not_mem_nil, or_false] at hp
      rcases hp with rfl | rfl
      · exact ⟨_, rfl, by decide +kernel, rfl⟩
      · exact ⟨_, rfl, by decide +kernel, rfl⟩) (.int 1)).2
  rw [show (Key.int 1).resolve 2 = .ok (.one 1) by decide] at h
  obtain ⟨e', h1, h2, -⟩ := h
  exact ⟨e', h1, h2⟩

/-- one normal distribution given by Python numbers -/
def scalarData : Dict ℚ := [("loc", .py (.num (some 0))), ("scale", .py (.num (some 1)))]

example (fuel : ℕ) : ∃ e, mkEns (analyticCreate "norm" 0) (analyticCreate "norm" 0) scalarData none = .ok e ∧ iterFrom e fuel 0 = none :=
  ⟨_, rfl, C41_scalar_parameters_never_end "norm" 0 scalarData _ rfl (by
    intro p hp
    simp only [scalarData, List.mem_cons, List.not_mem_nil, or_false] at hp
    rcases hp with rfl | rfl <;> exact ⟨_, rfl⟩) fuel 0⟩

end examples

end Verif.Props.Select
