import Verif.Props.EndToEnd
import Verif.Props.PackedPdf
import Verif.Props.Spline
import Verif.Model.EnsCurvesReal

/-!
# C104 for packed grids and splines; C81: the spline densities are sums of B-splines
-/

set_option linter.unusedSectionVars false
set_option autoImplicit false

namespace Verif.Props.EndToEndReal

open Verif Verif.Np Verif.Model Verif.Spec Verif.Lemmas Verif.Props.EndToEnd Verif.Props.InterpPdf Verif.Props.Spline MeasureTheory

/-- a packed value: 0 is linear packing in steps of 1/255 of the largest value `top`; 1 is logarithmic packing down to `10 ^ floor` of it, with code 0
for zero -/
noncomputable def unpacked (kind : ℕ) (floor top : ℝ) (code : ℕ) : ℝ :=
  if kind = 0 then top * (code / 255) else if code = 0 then 0 else top * 10 ^ (floor * (1 - (code : ℝ) / 255))

/-- the keyword arguments of `qp.packed_interp(xvals=..., packing_type=..., log_floor=..., ypacked=..., ymax=...)`, from pairs (codes, largest value) -/
def packedArgs (xs : List ℝ) (kind : ℕ) (floor : ℝ) (rows : List (List ℕ × ℝ)) : Dict ℝ :=
  [("xvals", .arr (vec xs)), ("packing_type", .arr ⟨[], [.num (some (kind : ℝ))]⟩), ("log_floor", .arr ⟨[], [.num (some floor)]⟩),
   ("ypacked", table xs.length (rows.map fun r => r.1.map fun c => ((c : ℕ) : ℝ))), ("ymax", table 1 (rows.map fun r => [r.2]))]

theorem unpack_codes (codes : List ℕ) : ((codes.map fun c => ((c : ℕ) : ℝ)).map fun c => ⌊c⌋₊) = codes := by
  simp [Function.comp_def]

/-- **C104: packed grids.** For both kinds of packing the ensemble evaluates to the broken lines through the unpacked values divided by the area below
them. -/
theorem C104_packed (xs : List ℝ) (hs : xs.Pairwise (· < ·)) (h2 : 2 ≤ xs.length) (kind : ℕ) (hk : kind = 0 ∨ kind = 1) (floor : ℝ)
    (rows : List (List ℕ × ℝ)) (hlen : ∀ r ∈ rows, r.1.length = xs.length)
    (ha : ∀ r ∈ rows, area xs (r.1.map (unpacked kind floor r.2)) ≠ 0) :
    ∃ e, mkEns (rowCreate packedCls) (rowCreate packedCls) (packedArgs xs kind floor rows) none = .ok e ∧ e.frozen.npdf = rows.length ∧
      ∀ x : List ℝ, x.Pairwise (· < ·) →
        ensEval packedEval e.frozen x = .ok (rows.map fun r => x.map fun t =>
          some (brokenLine xs (r.1.map (unpacked kind floor r.2)) t / area xs (r.1.map (unpacked kind floor r.2)))) := by
  set mo : List (String × Arr (Elem ℝ)) := [("xvals", vec xs), ("packing_type", ⟨[], [.num (some (kind : ℝ))]⟩), ("log_floor", ⟨[], [.num (some floor)]⟩)] with hmo
  have hgrid : grid1 ([("xvals", .arr (vec xs)), ("packing_type", .arr ⟨[], [.num (some (kind : ℝ))]⟩), ("log_floor", .arr ⟨[], [.num (some floor)]⟩),
      ("check_input", .py (.bool true))] : Dict ℝ) "xvals" = .ok xs := by
    simp [grid1, get?_cons, Val.toArr, vec, finites_nums]
  have hkind : ¬ ((kind : ℝ) ≠ 0 ∧ (kind : ℝ) ≠ 1) := by
    rintro ⟨a, b⟩
    rcases hk with rfl | rfl
    · simp at a
    · simp at b
  obtain ⟨e, h1, h3, h4⟩ := create_eval rows (fun r => [nums (r.1.map fun c => ((c : ℕ) : ℝ)), nums [r.2]])
    (fun r => [nums (r.1.map fun c => ((c : ℕ) : ℝ)), nums [r.2]])
    (c := packedCls (K := ℝ)) names_packed (mo := mo) (mo' := mo)
    (ws := [xs.length, 1]) (ws' := [xs.length, 1]) (by simp [packedCls, hmo]) (by simp [packedCls])
    (fun r hr => by simp [nums_length, hlen r hr])
    (m := [("xvals", .arr (vec xs)), ("packing_type", .arr ⟨[], [.num (some (kind : ℝ))]⟩), ("log_floor", .arr ⟨[], [.num (some floor)]⟩),
      ("check_input", .py (.bool true))])
    (by simp [packedCls, hmo, metaDict, checkInputArg, argVal, get?_cons, get?_nil, Bind.bind, Except.bind, pure, Except.pure])
    (data := packedArgs xs kind floor rows)
    (by simp [packedArgs, hmo, metaDict, storeRows, packedCls, table, Function.comp_def])
    (by simp [packedCls])
    (by
      simp only [packedCls, hgrid, numArg, argData, get?_cons, Val.toArr, Bind.bind, Except.bind, if_neg (not_lt.2 h2)]
      simp [hmo]
      omega)
    (by simp [packedCls, hgrid, Bind.bind, Except.bind])
    (fun r hr => by simp [packedCls, nums, Elem.isText])
    (by simp [packedCls])
    (fun r hr => by simp [nums_length, hlen r hr])
  refine ⟨e, h1, h3, fun x hx => h4 _ _ (fun r hr row hrow => ?_) x hx⟩
  funext t
  have hr0 : row "ypacked" = nums (r.1.map fun c => ((c : ℕ) : ℝ)) := hrow 0 (by simp [packedCls])
  have hr1 : row "ymax" = nums [r.2] := hrow 1 (by simp [packedCls])
  set md : Dict ℝ := classMeta (packedCls (K := ℝ)).name (packedCls (K := ℝ)).version ++ mo.map fun p => (p.1, .arr p.2.expand0) with hmd
  have gx : metaGrid md "xvals" = xs := by
    simp [metaGrid, hmd, hmo, classMeta, get?_cons, Val.toArr, vec, Arr.expand0, finites_nums]
  have gp : metaGrid md "packing_type" = [(kind : ℝ)] := by
    simp [metaGrid, hmd, hmo, classMeta, get?_cons, Val.toArr, Arr.expand0, finites, Elem.finite?]
  have gf : metaGrid md "log_floor" = [floor] := by
    simp [metaGrid, hmd, hmo, classMeta, get?_cons, Val.toArr, Arr.expand0, finites, Elem.finite?]
  have hy : (if [(kind : ℝ)] = [0] then linearUnpackRow r.1 r.2 else logUnpackRow floor r.1 r.2) = r.1.map (unpacked kind floor r.2) := by
    rcases hk with rfl | rfl
    · simp only [Nat.cast_zero, if_true, linearUnpackRow]
      apply List.map_congr_left
      intro c _
      simp only [unpacked, if_true]
      ring
    · simp only [Nat.cast_one, List.cons.injEq, one_ne_zero, false_and, if_false, logUnpackRow]
      apply List.map_congr_left
      intro c _
      simp only [logValue, unpacked, one_ne_zero, if_false]
      split_ifs
      · simp
      · congr 2; ring
  have hg : XGrid xs (r.1.map (unpacked kind floor r.2)).length := ⟨hs, by simp [hlen r hr], by simpa [hlen r hr] using h2⟩
  obtain ⟨y, c, hn, -, hy2, -⟩ := (C12_interp_normalises xs _ hg).2 (ha r hr)
  simp only [packedEval, hr0, hr1, finites_nums, unpack_codes, gx, gp, gf, List.headD_cons, hy, hn, hy2]
  rw [interp_line _ _ ⟨hs, by simp [hlen r hr], by simpa [hlen r hr] using h2⟩, brokenLine_div]

section Splines

variable {K : Type} [Field K] [LinearOrder K] [IsStrictOrderedRing K]

theorem bspl_basis (t : ℕ → K) (n l : ℕ) (ht : Lemmas.Spline.MonoTo t n) (x : K) (h1 : t l ≤ x) (h2 : x < t (l + 1)) (hl : l + 1 < n) : ∀ (d m : ℕ), m + d + 1 < n →
    bspl t l d m x = bBasis t d m x := by
  intro d
  induction d with
  | zero =>
    intro m hm
    simp only [bspl, bBasis]
    by_cases h : m = l
    · subst h; simp [h1, h2]
    · rw [if_neg h, if_neg]
      rintro ⟨a, b⟩
      rcases Nat.lt_or_gt_of_ne h with h | h
      · exact absurd (b.trans_le (ht (m + 1) l (by omega) (by omega))) (not_lt.2 h1)
      · exact absurd (h2.trans_le (ht (l + 1) m (by omega) (by omega))) (not_lt.2 a)
  | succ d ih =>
    intro m hm
    simp only [bspl, bBasis]
    rw [ih m (by omega), ih (m + 1) (by omega)]

/-- **C81: the density is the sum of B-splines** with the stored coefficients, on the base interval. -/
theorem C81_bspline (r : SplRow K) (h : SplOK r) (x : K) (h1 : r.lo ≤ x) (h2 : x < r.hi) : splev r x = bSpline r.t r.c r.k x := by
  obtain ⟨a, b, c, d⟩ := interval_spec h x
  have hsz := h.size
  have hx1 : r.knot (r.interval x) ≤ x := by
    rcases d with d | d
    · exact d
    · rw [d]; exact h1
  have hx2 : x < r.knot (r.interval x + 1) := by
    rcases c with c | c
    · exact c
    · rw [c]; exact h2
  have hl : r.interval x + 1 < r.t.length := by unfold SplRow.last at b; omega
  unfold splev
  rw [piece_eq h _ a b, bSpline, Lemmas.Spline.sum_range]
  apply Finset.sum_congr rfl
  intro m hm
  have hm' : m < r.t.length - r.k - 1 := by simpa using hm
  rw [bspl_basis _ _ _ h.monoTo x hx1 hx2 hl _ _ (by omega)]
  rfl

end Splines

/-- the keyword arguments of `qp.spline(splx=..., sply=..., spln=...)`, for `n` knots per PDF -/
def splArgs (n : ℕ) (rows : List (SplRow ℝ)) : Dict ℝ :=
  [("splx", table n (rows.map (·.t))), ("sply", table n (rows.map (·.c))), ("spln", table 1 (rows.map fun r => [(r.k : ℝ)]))]

/-- **C104: splines.** Between the first and the last knot of a PDF the ensemble evaluates to the sum of B-splines with the given knots, coefficients and
degree, and its CDF to the integral of that sum from the first knot. -/
theorem C104_spline (n : ℕ) (rows : List (SplRow ℝ)) (hne : rows ≠ []) (hn : n ≠ 0) (hok : ∀ r ∈ rows, SplOK r)
    (hlen : ∀ r ∈ rows, r.t.length = n ∧ r.c.length = n) (a : ℝ) (ha : (rows.flatMap (·.t)).min? = some a) :
    ∃ e, mkEns (rowCreate splineCls) (rowCreate splineCls) (splArgs n rows) none = .ok e ∧ e.frozen.npdf = rows.length ∧
      ∀ x : List ℝ, x.Pairwise (· < ·) → ∃ P F : List (List (Option ℝ)),
        ensEval splEval e.frozen x = .ok P ∧ ensEval (splCdfEval a) e.frozen x = .ok F ∧ P.length = rows.length ∧ F.length = rows.length ∧
        ∀ (i j : ℕ) (r : SplRow ℝ) (t : ℝ), rows[i]? = some r → x[j]? = some t →
          (r.lo ≤ t → t < r.hi → P[i]?.bind (·[j]?) = some (some (bSpline r.t r.c r.k t))) ∧
          F[i]?.bind (·[j]?) = some (some (if t ≤ r.lo then 0 else ∫ y in r.lo..(min t r.hi), bSpline r.t r.c r.k y)) := by
  obtain ⟨e, h1, h3, h4⟩ := create_eval rows (fun r => [nums r.t, nums r.c, nums [(r.k : ℝ)]]) (fun r => [nums r.t, nums r.c, nums [(r.k : ℝ)]])
    (c := splineCls (K := ℝ)) names_spline (mo := []) (mo' := [])
    (ws := [n, n, 1]) (ws' := [n, n, 1]) (by simp) (by simp [splineCls])
    (fun r hr => by simp [nums_length, hlen r hr])
    (m := [])
    (by simp [splineCls, pure, Except.pure])
    (data := splArgs n rows)
    (by simp [splArgs, metaDict, storeRows, splineCls, table, Function.comp_def])
    (by intro _; simp only [List.headD_cons]; exact Nat.mul_ne_zero (by simpa using hne) hn)
    (by simp [splineCls])
    (by simp [splineCls])
    (fun r hr => by simp [splineCls, nums, Elem.isText])
    (by simp [splineCls])
    (fun r hr => by simp [nums_length, hlen r hr])
  refine ⟨e, h1, h3, fun x hx => ?_⟩
  have hrow : ∀ r ∈ rows, ∀ row : String → List (Elem ℝ),
      (∀ j (hj : j < (splineCls (K := ℝ)).rowArgs.length), row (splineCls (K := ℝ)).rowArgs[j] = ([nums r.t, nums r.c, nums [(r.k : ℝ)]] : List _).getD j []) →
      splRowOf row = some r := by
    intro r hr row hrow
    have r0 : row "splx" = nums r.t := hrow 0 (by simp [splineCls])
    have r1 : row "sply" = nums r.c := hrow 1 (by simp [splineCls])
    have r2 : row "spln" = nums [(r.k : ℝ)] := hrow 2 (by simp [splineCls])
    simp [splRowOf, r0, r1, r2, finites_nums]
  refine ⟨_, _, h4 splEval (fun r t => some (splev r t)) (fun r hr row h => by funext t; simp [splEval, hrow r hr row h]) x hx,
    h4 (splCdfEval a) (fun r t => some (splint r a t)) (fun r hr row h => by funext t; simp [splCdfEval, hrow r hr row h]) x hx, by simp, by simp, ?_⟩
  intro i j r t hi hj
  have hr := List.mem_of_getElem? hi
  have ok := hok r hr
  constructor
  · intro t1 t2
    simp [hi, hj, C81_bspline r ok t t1 t2]
  · have hale : a ≤ r.lo := by
      obtain ⟨a', ha', hle⟩ := xmin_le rows i r hi ok
      rw [show splXmin rows = some a from ha] at ha'
      obtain rfl := Option.some.inj ha'
      exact hle
    simp only [List.getElem?_map, hi, hj, Option.map_some, Option.bind_some]
    rw [(C81_splint_integral r ok a t hale).2]
    congr 2
    split_ifs with ht
    · rfl
    · apply intervalIntegral.integral_congr_ae
      have : ∀ᵐ y : ℝ, y ≠ r.hi := by simp [ae_iff, measure_singleton]
      filter_upwards [this] with y hy hmem
      have hlh := lo_lt_hi ok
      rw [Set.uIoc_of_le (le_min (not_le.1 ht).le hlh.le)] at hmem
      exact C81_bspline r ok y hmem.1.le (lt_of_le_of_ne (hmem.2.trans (min_le_right _ _)) hy)

/-! ## instances -/

/-- two rows of codes, linear packing -/
example := C104_packed [0, 1, 2] (by norm_num) (by simp) 0 (Or.inl rfl) (-3) [([0, 255, 0], 2), ([51, 51, 255], 1)] (by simp)
  (by
    intro r hr
    simp only [List.mem_cons, List.not_mem_nil, or_false] at hr
    rcases hr with rfl | rfl <;> norm_num [unpacked, area])

/-- the density `4 x³` on `[0, 1]` and the uniform one -/
noncomputable def two : List (SplRow ℝ) := [⟨[0, 0, 0, 0, 1, 1, 1, 1], [0, 0, 0, 4, 0, 0, 0, 0], 3⟩, ⟨[0, 0, 0, 0, 1, 1, 1, 1], [1, 1, 1, 1, 0, 0, 0, 0], 3⟩]

example := C104_spline 8 two (by simp [two]) (by decide)
  (by
    intro r hr
    simp only [two, List.mem_cons, List.not_mem_nil, or_false] at hr
    rcases hr with rfl | rfl
    all_goals
      refine ⟨by simp, by norm_num, fun i h1 h2 => ?_⟩
      have h1 : 3 ≤ i := h1
      have h2 : i ≤ 3 := h2
      obtain rfl : i = 3 := by omega
      norm_num [SplRow.knot])
  (by
    intro r hr
    simp only [two, List.mem_cons, List.not_mem_nil, or_false] at hr
    rcases hr with rfl | rfl <;> simp)
  0 (by simp [two, List.min?])

/-- in the middle the cubic B-splines give `4 x³` -/
example : bSpline [0, 0, 0, 0, 1, 1, 1, 1] [0, 0, 0, 4, 0, 0, 0, 0] 3 (1 / 2 : ℚ) = 1 / 2 := by decide +kernel

end Verif.Props.EndToEndReal
