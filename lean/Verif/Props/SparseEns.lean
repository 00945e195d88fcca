import Verif.Model.SparseEns
import Verif.Props.SliceEval
import Mathlib.Analysis.Complex.ExponentialBounds
import Mathlib.Analysis.Real.Pi.Bounds

/-!
# C95: the densities of sparse ensembles under selection
-/

set_option linter.unusedSectionVars false
set_option autoImplicit false

namespace Verif.Props.SparseEns

open Verif Verif.Np Verif.Model Verif.Spec Verif.Lemmas Verif.Props.SliceEval

section
variable {K : Type} [Field K] [LinearOrder K] [IsStrictOrderedRing K] [FloorRing K]

/-- **C95.** The cut is nowhere among the data of a sparse ensemble, however obtained: whatever is built from them (selections, iteration, updates of the
table, concatenation, files) uses the default. -/
theorem C95_cut_not_stored {e : Ens K} (h : Reach .sparse e) :
    Dict.get? e.frozen.metadata "cut" = none ∧ Dict.get? e.frozen.objdata "cut" = none := by
  obtain ⟨mo, ws, out, hs⟩ := reach_stored h
  obtain ⟨m, hm, hmo, -, -⟩ := hs.fixed.fix
  obtain ⟨x, -, hmo⟩ := bind_ok hmo
  obtain ⟨mu, -, hmo⟩ := bind_ok hmo
  obtain ⟨sg, -, hmo⟩ := bind_ok hmo
  obtain ⟨dm, -, hmo⟩ := bind_ok hmo
  split_ifs at hmo
  obtain rfl := Except.ok.inj hmo
  rw [hs.frozen]
  refine ⟨by simp [frozenOf, classMeta, get?_cons, get?_nil], ?_⟩
  rw [get?_eq_none_iff]
  cases ws with
  | nil => simp [frozenOf, storeRows, Dict.keys]
  | cons w t => simp [frozenOf, storeRows, Dict.keys, RowKind.cls, sparseCls]

/-- **C95.** An ensemble made with the default cut: the densities of a selection, at increasing points, are the selected lines of those of the whole
ensemble, for every profile and norm. Missing from the full claim: another cut (`C95_cut_forgotten`), points that are not increasing
(`C45_unsorted_differs`). -/
theorem C95_selection_partial (profile : K → K → K → K) (nrm : List K → K) {data : Dict K} {anc : Option (Dict K)} {e e' : Ens K}
    (h : Made .sparse data anc e) (hcut : cutOf data = 1 / 100000) (key : Key) (hg : getItem e key = .ok e') (x : List K) (hx : x.Pairwise (· < ·)) :
    ∃ s vals, key.resolve e.frozen.npdf = .ok s ∧ ensEval (sparseEval profile nrm (cutOf data)) e.frozen x = .ok vals ∧
      vals.length = e.frozen.npdf ∧
      ensEval (sparseEval profile nrm (cutOf (e'.frozen.metadata ++ e'.frozen.objdata))) e'.frozen x = .ok ((selRows s).map fun i => vals.getD i []) := by
  have hc : cutOf (e'.frozen.metadata ++ e'.frozen.objdata) = 1 / 100000 := by
    obtain ⟨h1, h2⟩ := C95_cut_not_stored (.select (.made h) hg)
    unfold cutOf
    rw [get?_append, h1, h2]
    rfl
  rw [hcut, hc]
  exact C45_slice_eval_partial .sparse (.made h) key hg _ x hx

/-- one PDF made of one basis function centred on the first of two grid points -/
def oneBasis (a b s c : K) : Dict K :=
  [("xvals", .arr (vec [a, b])), ("mu", .arr (vec [a, b])), ("sig", .arr (vec [s, s])), ("dims", .arr (vec [1, 1, 1, 32001, 1])),
    ("sparse_indices", .arr ⟨[1, 1], nums [0]⟩), ("cut", .py (.num (some c)))]

/-- what it stores -/
def oneFrozen (a b s : K) : Frozen K :=
  frozenOf sparseCls [("xvals", vec [a, b]), ("mu", vec [a, b]), ("sig", vec [s, s]), ("dims", vec [1, 1, 1, 32001, 1])] [1] [[nums [0]]] [1]

theorem one_create (a b s c : K) : rowCreate sparseCls (oneBasis a b s c) = .ok (oneFrozen a b s) := by
  have h : (flat2 (⟨[1, 1], nums [0]⟩ : Arr (Elem K))).row 0 = nums [0] := by simp [flat2, Arr.row, Arr.rowSize, nums]
  simp [rowCreate, oneBasis, oneFrozen, sparseCls, checkInputArg, argVal, rowArr, grid1, get?_cons, get?_nil, Dict.keys, Val.toArr, vec, finites_nums,
    Bind.bind, Except.bind, pure, Except.pure, frozenOf, pdfRows, h, List.range_succ, Arr.size]

theorem one_made (a b s c : K) : Made .sparse (oneBasis a b s c) none ⟨rowCreate sparseCls, rowCreate sparseCls, oneFrozen a b s, none⟩ where
  ok := by
    show mkEns (rowCreate sparseCls) (rowCreate sparseCls) (oneBasis a b s c) none = _
    simp only [mkEns, one_create, Bind.bind, Except.bind, checkArrayShapes]
  plain := trivial
  wf := by
    intro p hp
    simp only [oneBasis, List.mem_cons, List.not_mem_nil, or_false] at hp
    rcases hp with rfl | rfl | rfl | rfl | rfl | rfl <;> simp [Val.toArr, Arr.Wf, vec, nums]

theorem one_eval (profile : K → K → K → K) (nrm : List K → K) (a b s : K) (hab : a < b) (cut : K)
    (hn : 0 < nrm (cutBelow cut [profile 0 s 0, profile (b - a) s 0])) (h0 : cut ≤ profile 0 s 0) (h1 : 0 < profile 0 s 0)
    (h2 : 0 < profile (b - a) s 0) :
    ∃ d, sparseEval profile nrm cut (oneFrozen a b s).metadata (tableRow (oneFrozen a b s) 0) b = some d ∧ 0 ≤ d ∧
      (d = 0 ↔ profile (b - a) s 0 < cut) := by
  have hx : metaGrid (oneFrozen a b s).metadata "xvals" = [a, b] := by
    simp [metaGrid, oneFrozen, frozenOf, classMeta, get?_cons, Val.toArr, vec, Arr.expand0, finites_nums]
  have hmu : metaGrid (oneFrozen a b s).metadata "mu" = [a, b] := by
    simp [metaGrid, oneFrozen, frozenOf, classMeta, get?_cons, Val.toArr, vec, Arr.expand0, finites_nums]
  have hsg : metaGrid (oneFrozen a b s).metadata "sig" = [s, s] := by
    simp [metaGrid, oneFrozen, frozenOf, classMeta, get?_cons, Val.toArr, vec, Arr.expand0, finites_nums]
  have hdm : metaGrid (oneFrozen a b s).metadata "dims" = [1, 1, 1, 32001, 1] := by
    simp [metaGrid, oneFrozen, frozenOf, classMeta, get?_cons, Val.toArr, vec, Arr.expand0, finites_nums]
  have hrow : tableRow (oneFrozen a b s) 0 "sparse_indices" = nums [0] := by
    simp [tableRow, oneFrozen, frozenOf, storeRows, sparseCls, get?_cons, Arr.row, Arr.ofRows, Arr.rowSize, nums]
  set p0 := profile 0 s 0
  set p1 := profile (b - a) s 0
  set N := nrm (cutBelow cut [p0, p1]) with hN
  have hD : sparseDict profile nrm cut (oneFrozen a b s).metadata = [some [p0 / N, (if cut ≤ p1 then p1 else 0) / N]] := by
    have hN0 : N ≠ 0 := ne_of_gt hn
    simp only [sparseDict, hx, hmu, hsg, hdm, dimRange]
    have hcol : sparseCol profile nrm cut [a, b] a s 0 = some [p0 / N, (if cut ≤ p1 then p1 else 0) / N] := by
      simp only [sparseCol, List.map_cons, List.map_nil, sub_self]
      rw [if_neg (show ¬ nrm (cutBelow cut [p0, p1]) = 0 from hN0)]
      show some [(if cut ≤ p0 then p0 else 0) / N, (if cut ≤ p1 then p1 else 0) / N] = _
      rw [if_pos h0]
    simp [Np.linspace, voigtBasis, putColumn, hcol]
  set q1 : K := if cut ≤ p1 then p1 else 0 with hq1
  have hq0 : 0 ≤ q1 := by rw [hq1]; split_ifs <;> linarith
  have hT : trapz [a, b] [p0 / N, q1 / N] = (b - a) * (p0 + q1) / (2 * N) := by
    simp [trapz, trapezoids, Np.sum]
    have : N ≠ 0 := ne_of_gt hn
    field_simp
    ring
  have hTp : 0 < (b - a) * (p0 + q1) / (2 * N) := div_pos (mul_pos (by linarith) (by linarith)) (by linarith)
  refine ⟨q1 / N / ((b - a) * (p0 + q1) / (2 * N)), ?_, div_nonneg (div_nonneg hq0 hn.le) hTp.le, ?_⟩
  · have hdec : decodeRow (K := K) [0] = ([0], [1]) := by
      have : getN 0 = (0, 0) := by decide
      simp [decodeRow, this]
    simp only [sparseEval, hrow, finites_nums, hx, hD]
    simp [hdec, weightedSum, trapzNorm, hT, hTp.ne', interpPdf, interp, npInterpGo]
    intro h
    linarith
  · rw [div_eq_zero_iff, div_eq_zero_iff]
    constructor
    · rintro ((h | h) | h)
      · by_contra hc
        rw [hq1, if_pos (not_lt.1 hc)] at h
        linarith
      · exact absurd h hn.ne'
      · exact absurd h hTp.ne'
    · intro h
      left; left
      rw [hq1, if_neg (not_le.2 h)]

example (profile : K → K → K → K) (nrm : List K → K) {e' : Ens K}
    (hg : getItem ⟨rowCreate sparseCls, rowCreate sparseCls, oneFrozen 0 1 (1 : K), none⟩ (.int 0) = .ok e') :=
  C95_selection_partial profile nrm (one_made 0 1 1 (1 / 100000)) (by simp [cutOf, oneBasis, get?_cons, Val.toArr]) _ hg [0, 1] (by simp)

/-- **C95** is false for another cut than the default, for every profile and norm: when the profile at the second grid point lies between the two cuts,
the density there is zero in the ensemble and positive in the selection of its only PDF. -/
theorem C95_cut_forgotten (profile : K → K → K → K) (nrm : List K → K) (hnrm : ∀ l, (∀ v ∈ l, 0 ≤ v) → (∃ v ∈ l, 0 < v) → 0 < nrm l)
    (a b s c : K) (hab : a < b) (h0 : c ≤ profile 0 s 0) (h1 : 1 / 100000 ≤ profile (b - a) s 0) (h2 : profile (b - a) s 0 < c) :
    ∃ (e e' : Ens K) (d : K), Made .sparse (oneBasis a b s c) none e ∧ getItem e (.int 0) = .ok e' ∧
      ensEval (sparseEval profile nrm (cutOf (oneBasis a b s c))) e.frozen [b] = .ok [[some 0]] ∧
      ensEval (sparseEval profile nrm (cutOf (e'.frozen.metadata ++ e'.frozen.objdata))) e'.frozen [b] = .ok [[some d]] ∧ 0 < d := by
  have hm := one_made a b s c
  obtain ⟨e', hg⟩ : ∃ e', getItem ⟨rowCreate sparseCls, rowCreate sparseCls, oneFrozen a b s, none⟩ (.int 0) = .ok e' := by
    have h := Verif.Props.Select.C32_select_partial .sparse (.made hm) rfl (.int 0)
    have hr : (Key.int 0).resolve (oneFrozen a b s).npdf = .ok (.one 0) := by
      show (Key.int 0).resolve 1 = .ok (.one 0)
      decide
    rw [hr] at h
    simp only [RowKind.cls, sparseCls, Bool.false_eq_true, false_and, if_false] at h
    obtain ⟨e', he', -⟩ := h
    exact ⟨e', he'⟩
  have hp1 : 0 < profile (b - a) s 0 := lt_of_lt_of_le (by norm_num) h1
  have hp0 : 0 < profile 0 s 0 := by linarith
  have hN : ∀ t, t ≤ profile 0 s 0 → 0 < nrm (cutBelow t [profile 0 s 0, profile (b - a) s 0]) := by
    intro t ht
    apply hnrm
    · intro v hv
      simp only [cutBelow, List.map_cons, List.map_nil, List.mem_cons, List.not_mem_nil, or_false] at hv
      rcases hv with rfl | rfl <;> split_ifs <;> linarith
    · exact ⟨profile 0 s 0, by simp [cutBelow, ht], hp0⟩
  obtain ⟨d, hd, -, hd0⟩ := one_eval profile nrm a b s hab c (hN c h0) h0 hp0 hp1
  obtain ⟨d', hd', hpos, hd0'⟩ := one_eval profile nrm a b s hab (1 / 100000) (hN _ (by linarith)) (by linarith) hp0 hp1
  have hE : ∀ t v, sparseEval profile nrm t (oneFrozen a b s).metadata (tableRow (oneFrozen a b s) 0) b = some v →
      ensEval (sparseEval profile nrm t) (oneFrozen a b s) [b] = .ok [[some v]] := by
    intro t v hv
    unfold ensEval
    rw [Evaluation.C01_shared_grid_partial _ _ _ (Or.inl (by simp))]
    show Except.ok [[sparseEval profile nrm t (oneFrozen a b s).metadata (tableRow (oneFrozen a b s) 0) b]] = _
    rw [hv]
  have hc : cutOf (e'.frozen.metadata ++ e'.frozen.objdata) = 1 / 100000 := by
    obtain ⟨h1, h2⟩ := C95_cut_not_stored (.select (.made hm) hg)
    unfold cutOf
    rw [get?_append, h1, h2]
    rfl
  have hcd : cutOf (oneBasis a b s c) = c := by simp [cutOf, oneBasis, get?_cons, Val.toArr]
  refine ⟨_, e', d', hm, hg, ?_, ?_, lt_of_le_of_ne hpos fun h => absurd (hd0'.1 h.symm) (not_lt.2 h1)⟩
  · rw [hcd, hE c d hd, hd0.2 h2]
  · rw [hc]
    obtain ⟨sel, vals, hr, hv, -, hv'⟩ := C45_slice_eval_partial .sparse (.made hm) _ hg (sparseEval profile nrm (1 / 100000)) [b] (by simp)
    have hr0 : (Key.int 0).resolve (oneFrozen a b s).npdf = .ok (.one 0) := by
      show (Key.int 0).resolve 1 = .ok (.one 0)
      decide
    rw [hr0] at hr
    obtain rfl := Except.ok.inj hr
    rw [hE _ _ hd'] at hv
    obtain rfl := Except.ok.inj hv
    exact hv'

end

/-- the profile `scipy.special.voigt_profile(z, s, 0)`, a normal density -/
noncomputable def gaussProfile (z s _g : ℝ) : ℝ := Real.exp (-(z ^ 2) / (2 * s ^ 2)) / (s * Real.sqrt (2 * Real.pi))

/-- the Euclidean norm -/
noncomputable def norm2 (l : List ℝ) : ℝ := Real.sqrt (l.map fun v => v ^ 2).sum

/-- a normal basis function of width 1 on the grid 0, 3, made with `cut=0.01`: the density at 3 is zero, that of `ens[0]` is not -/
theorem C95_normal_wrong : ∃ (e e' : Ens ℝ) (d : ℝ), Made .sparse (oneBasis 0 3 1 (1 / 100)) none e ∧ getItem e (.int 0) = .ok e' ∧
    ensEval (sparseEval gaussProfile norm2 (cutOf (oneBasis 0 3 1 (1 / 100)))) e.frozen [3] = .ok [[some 0]] ∧
    ensEval (sparseEval gaussProfile norm2 (cutOf (e'.frozen.metadata ++ e'.frozen.objdata))) e'.frozen [3] = .ok [[some d]] ∧ 0 < d := by
  have hs1 : 2 < Real.sqrt (2 * Real.pi) := by
    rw [Real.lt_sqrt (by norm_num)]
    have := Real.pi_gt_three
    linarith
  have hs2 : Real.sqrt (2 * Real.pi) < 3 := by
    rw [Real.sqrt_lt' (by norm_num)]
    have := Real.pi_lt_four
    linarith
  have he1 : Real.exp 1 < 3 := lt_trans Real.exp_one_lt_d9 (by norm_num)
  have he2 : (27 / 10 : ℝ) < Real.exp 1 := lt_trans (by norm_num) Real.exp_one_gt_d9
  have hu : Real.exp (9 / 2) < 3 ^ 5 := by
    calc Real.exp (9 / 2) ≤ Real.exp 5 := Real.exp_le_exp.2 (by norm_num)
      _ = Real.exp 1 ^ 5 := by rw [← Real.exp_nat_mul]; norm_num
      _ < 3 ^ 5 := pow_lt_pow_left₀ he1 (Real.exp_pos 1).le (by norm_num)
  have hl : (27 / 10 : ℝ) ^ 4 < Real.exp (9 / 2) := by
    calc (27 / 10 : ℝ) ^ 4 < Real.exp 1 ^ 4 := pow_lt_pow_left₀ he2 (by norm_num) (by norm_num)
      _ = Real.exp 4 := by rw [← Real.exp_nat_mul]; norm_num
      _ ≤ Real.exp (9 / 2) := Real.exp_le_exp.2 (by norm_num)
  have h0 : gaussProfile 0 1 0 = 1 / Real.sqrt (2 * Real.pi) := by
    unfold gaussProfile
    rw [show -((0 : ℝ) ^ 2) / (2 * 1 ^ 2) = 0 by norm_num, Real.exp_zero, one_mul]
  have h3 : gaussProfile (3 - 0) 1 0 = 1 / (Real.exp (9 / 2) * Real.sqrt (2 * Real.pi)) := by
    unfold gaussProfile
    rw [show -((3 - 0 : ℝ) ^ 2) / (2 * 1 ^ 2) = -(9 / 2) by norm_num, Real.exp_neg, one_mul, one_div, mul_inv, div_eq_mul_inv]
  refine C95_cut_forgotten gaussProfile norm2 ?_ 0 3 1 (1 / 100) (by norm_num) ?_ ?_ ?_
  · intro l _ ⟨v, hv, hp⟩
    apply Real.sqrt_pos.2
    apply lt_of_lt_of_le (pow_pos hp 2)
    exact List.single_le_sum (by intro x hx; obtain ⟨y, -, rfl⟩ := List.mem_map.1 hx; positivity) _ (List.mem_map.2 ⟨v, hv, rfl⟩)
  · rw [h0]
    exact one_div_le_one_div_of_le (by linarith) (by linarith)
  · rw [h3]
    refine one_div_le_one_div_of_le (mul_pos (Real.exp_pos _) (by linarith)) ?_
    calc Real.exp (9 / 2) * Real.sqrt (2 * Real.pi) ≤ 3 ^ 5 * 3 := mul_le_mul hu.le hs2.le (by linarith) (by norm_num)
      _ ≤ 100000 := by norm_num
  · rw [h3]
    refine one_div_lt_one_div_of_lt (by norm_num) ?_
    calc (100 : ℝ) < (27 / 10) ^ 4 * 2 := by norm_num
      _ < Real.exp (9 / 2) * Real.sqrt (2 * Real.pi) := mul_lt_mul'' hl hs1 (by norm_num) (by norm_num)

end Verif.Props.SparseEns
