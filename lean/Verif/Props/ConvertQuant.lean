import Verif.Props.ConvertGrid
import Verif.Props.Quant
import Verif.Props.Front
import Verif.Model.QuantEval

/-!
# C84: converting to quantiles keeps the quantiles
-/

set_option linter.unusedSectionVars false
set_option autoImplicit false

namespace Verif.Props.ConvertQuant

open Verif Verif.Np Verif.Model Verif.Spec Verif.Lemmas Verif.Props.Convert Verif.Props.Quant

variable {K : Type} [Field K] [LinearOrder K] [IsStrictOrderedRing K]

/-- what the constructor records beside the locations -/
def quantOut (q : List K) : List (String × Arr (Elem K)) :=
  [("quants", vec q), ("pdf_constructor_name", ⟨[], [.str "piecewise_linear"]⟩), ("check_input", ⟨[], [.bool true]⟩)]

/-- the quantile constructor on explicit rows -/
theorem quant_create (q q' : List K) (s : List ℕ) (hs0 : s.prod ≠ 0) (hq0 : q ≠ []) (L L' : ℕ → List K)
    (hlen : ∀ i < s.prod, (L i).length = q.length) (hm : quantInit q [] true = .ok (q', []))
    (hL : ∀ i < s.prod, quantInit q [L i] true = .ok (q', [L' i])) :
    rowCreate quantCls [("quants", .arr (vec q)), ("locs", .arr ⟨s ++ [q.length], nums ((List.range s.prod).map L).flatten⟩)]
      = .ok (frozenOf quantCls (quantOut q') [q'.length] ((List.range s.prod).map fun i => [nums (L' i)]) s) := by
  set a : Arr (Elem K) := ⟨s ++ [q.length], nums ((List.range s.prod).map L).flatten⟩ with ha
  set m : Dict K := [("quants", .arr (vec q)), ("pdf_constructor_name", .py (.str "piecewise_linear")), ("check_input", .py (.bool true))] with hmdef
  have hma : (quantCls (K := K)).metaArgs.mapM (argVal [("quants", .arr (vec q)), ("locs", .arr a)]) = .ok m := by
    simp [quantCls, checkInputArg, argVal, get?_cons, get?_nil, Bind.bind, Except.bind, pure, Except.pure, hmdef]
  have hr : (quantCls (K := K)).rowArgs.mapM (rowArr [("quants", .arr (vec q)), ("locs", .arr a)]) = .ok [a] := by
    simp [quantCls, rowArr, get?_cons, Bind.bind, Except.bind, pure, Except.pure, ha]
  have hgrid : grid1 m "quants" = .ok q := by
    simp [hmdef, grid1, get?_cons, Val.toArr, vec, finites_nums]
  have htr : truthy m "check_input" = true := by
    simp [hmdef, truthy, argData, get?_cons, Val.toArr]
  have hstr : strArg m "pdf_constructor_name" = .ok "piecewise_linear" := by
    simp [hmdef, strArg, argData, get?_cons, Val.toArr]
  have hqm : quantMeta m = .ok q' := by
    simp [quantMeta, hgrid, htr, hm, Bind.bind, Except.bind]
  have hnorm : (List.range s.prod).mapM (fun i => (quantCls (K := K)).norm m (pdfRows [a] i))
      = .ok ((List.range s.prod).map fun i => [nums (L' i)]) := by
    apply mapM_ok_map
    intro i hi
    have hi := List.mem_range.1 hi
    have hrow : pdfRows [a] i = [nums (L i)] := by
      simp only [pdfRows, List.map_cons, List.map_nil]
      rw [ha, flat2_append, nums_flatten, List.map_map]
      congr 1
      exact row_block s.prod q.length (fun i => nums (L i)) (fun j hj => by simp [nums, hlen j hj]) i hi
    rw [hrow]
    simp only [quantCls, finites_nums]
    simp [quantRow, hgrid, htr, hL i hi, Bind.bind, Except.bind]
  have hkeys : (Dict.keys [("quants", .arr (vec q)), ("locs", .arr a)]).any
      (fun k => k ∉ (quantCls (K := K)).metaArgs.map (·.1) ++ (quantCls (K := K)).rowArgs) = false := by
    simp [Dict.keys, quantCls, checkInputArg]
  have hlead : a.shape.dropLast = s := by simp [ha]
  have hlast : a.shape.getLastD 0 = q.length := by simp [ha]
  have hsize : a.size ≠ 0 := by
    simp only [Arr.size, ha, List.prod_append, List.prod_cons, List.prod_nil, mul_one]
    exact Nat.mul_ne_zero hs0 (by simpa using hq0)
  unfold rowCreate
  rw [if_neg (by rw [hkeys]; simp)]
  rw [hma, hr]
  simp only [Bind.bind, Except.bind, List.headD_cons, hlead]
  rw [if_neg (by simp [hlead]), if_neg (by simp [quantCls]), if_neg (by simp [hsize]), hnorm]
  simp only [List.map_cons, List.map_nil, hlast]
  have hmo : (quantCls (K := K)).metaOut m = .ok (quantOut q') := by
    simp [quantCls, hqm, hstr, htr, Bind.bind, Except.bind, pdfConstructors, quantOut]
  have hws : (quantCls (K := K)).widths m [q.length] = .ok [q'.length] := by
    simp [quantCls, hgrid, hqm, Bind.bind, Except.bind]
  rw [hmo, hws]
  simp [frozenOf]

theorem tableRow_quant (q : List K) (n : ℕ) (L : ℕ → List K) (s : List ℕ) (hlen : ∀ i < n, (L i).length = q.length) (i : ℕ) (hi : i < n) :
    tableRow (frozenOf quantCls (quantOut q) [q.length] ((List.range n).map fun i => [nums (L i)]) s) i "locs" = nums (L i) := by
  unfold tableRow
  have : Dict.get? (frozenOf quantCls (quantOut q) [q.length] ((List.range n).map fun i => [nums (L i)]) s).objdata "locs"
      = some (.arr ⟨[n, q.length], ((List.range n).map fun i => nums (L i)).flatten⟩) := by
    simp [frozenOf, quantCls, storeRows, get?_cons, Arr.ofRows, Function.comp_def]
  rw [this]
  exact row_block n q.length (fun i => nums (L i)) (fun j hj => by simp [nums, hlen j hj]) i hi

theorem metaGrid_quant (q : List K) (ws : List ℕ) (out : List (List (List (Elem K)))) (s : List ℕ) :
    metaGrid (frozenOf quantCls (quantOut q) ws out s).metadata "quants" = q := by
  simp [metaGrid, quantOut, frozenOf, classMeta, get?_cons, Val.toArr, Arr.expand0, vec, finites_nums]

/-- the inverse at the stored quantiles -/
theorem quantPpf_knot (spl : List (K × K) → K → K) (lo hi : K) (quants locs : List K) (hq : quants.Pairwise (· < ·))
    (hspl : ∀ p ∈ quants.zip locs, spl (quants.zip locs) p.1 = p.2) (i : ℕ) (q l : K) (hi' : quants[i]? = some q) (hl : locs[i]? = some l) :
    quantPpf spl lo hi quants locs q = some l := by
  match quants, hq with
  | [], _ => simp at hi'
  | q0 :: t, hq =>
    have hmem : (q, l) ∈ (q0 :: t).zip locs := by
      apply List.mem_of_getElem? (i := i)
      rw [List.getElem?_zip_eq_some]; exact ⟨hi', hl⟩
    have hqm : q ∈ q0 :: t := List.mem_of_getElem? hi'
    have h1 : ¬ q < q0 := by
      rcases List.mem_cons.1 hqm with rfl | h
      · exact lt_irrefl _
      · exact not_lt.2 ((List.pairwise_cons.1 hq).1 q h).le
    have h2 : ¬ (q0 :: t).getLast (by simp) < q := not_lt.2 (Verif.Lemmas.InterpPdf.getLast_max hq _ hqm)
    simp only [quantPpf, h1, if_false, h2]
    rw [hspl _ hmem]

/-- **C19, outside the quantiles** the inverse is the smallest location for probabilities below all quantiles and the largest for probabilities above all,
whatever the interpolant; between them it is the interpolant. -/
theorem C19_ppf_outside (spl : List (K × K) → K → K) (lo hi : K) (quants locs : List K) (hne : quants ≠ []) (p : K) :
    ((∀ q ∈ quants, p < q) → quantPpf spl lo hi quants locs p = some lo) ∧
    ((∀ q ∈ quants, q < p) → quantPpf spl lo hi quants locs p = some hi) ∧
    (quants.Pairwise (· < ·) → (∃ q ∈ quants, q ≤ p) → (∃ q ∈ quants, p ≤ q) →
      quantPpf spl lo hi quants locs p = some (spl (quants.zip locs) p)) := by
  match quants, hne with
  | q0 :: t, _ =>
    refine ⟨fun h => by simp [quantPpf, h q0 (by simp)], fun h => ?_, fun hq ⟨q, hq1, h1⟩ ⟨r, hr1, h2⟩ => ?_⟩
    · have a1 : ¬ p < q0 := not_lt.2 (h q0 (by simp)).le
      have a2 := h _ (List.getLast_mem (l := q0 :: t) (by simp))
      simp only [quantPpf, a1, a2, if_false, if_true]
    · have a1 : ¬ p < q0 := by
        rcases List.mem_cons.1 hq1 with rfl | h
        · exact not_lt.2 h1
        · exact not_lt.2 (((List.pairwise_cons.1 hq).1 q h).le.trans h1)
      have a2 : ¬ (q0 :: t).getLast (by simp) < p := not_lt.2 (h2.trans (Verif.Lemmas.InterpPdf.getLast_max hq _ hr1))
      simp only [quantPpf, a1, a2, if_false]

example := C19_ppf_outside (K := ℚ) (fun _ p => p) 7 9 [1/4, 1/2, 3/4] [0, 1, 2] (by decide) (1/8)

/-- What the conversion to quantiles makes of an ensemble of any class: the rows of quantiles `L i`, padded. -/
theorem quant_conversion (ev : Evals K) (e : Ens K) (q q' : List K) (hs0 : e.frozen.shape.prod ≠ 0) (hq0 : q ≠ []) (L L' : ℕ → List K)
    (hlen : ∀ i < e.frozen.shape.prod, (L i).length = q.length) (hm : quantInit q [] true = .ok (q', []))
    (hppf : ev.ppf e.frozen (.arr (vec q)) = .ok ⟨e.frozen.shape ++ [q.length], nums ((List.range e.frozen.shape.prod).map L).flatten⟩)
    (hL : ∀ i < e.frozen.shape.prod, quantInit q [L i] true = .ok (q', [L' i])) :
    convertTo (quantPy ev) e none [("quants", .arr (vec q))] = .ok ⟨rowCreate quantCls, rowCreate quantCls,
      frozenOf quantCls (quantOut q') [q'.length] ((List.range e.frozen.shape.prod).map fun i => [nums (L' i)]) e.frozen.shape, none⟩ := by
  have hx : extractQuantiles ev e [("quants", .arr (vec q))] = .ok [("quants", .arr (vec q)),
      ("locs", .arr ⟨e.frozen.shape ++ [q.length], nums ((List.range e.frozen.shape.prod).map L).flatten⟩)] := by
    unfold extractQuantiles
    simp only [needKwd, get?_cons, if_true, Bind.bind, Except.bind, hppf]
  unfold convertTo
  simp only [quantPy, get_single, Bind.bind, Except.bind, hx]
  unfold mkEns
  rw [quant_create q q' e.frozen.shape hs0 hq0 L L' hlen hm hL]
  rfl

/-- one padded row -/
theorem pad_row (q r : List K) (hq : q.Pairwise (· < ·)) (h2 : 2 ≤ q.length) (h01 : ∀ p ∈ q, 0 ≤ p ∧ p ≤ 1)
    (hr : r.length = q.length) (hrs : r.Pairwise (· < ·)) :
    ∃ q' r' k, quantInit q [r] true = .ok (q', [r']) ∧ q'.Pairwise (· < ·) ∧ r'.length = q'.length ∧ r'.Pairwise (· < ·) ∧
      (q'.drop k).take q.length = q ∧ (r'.drop k).take q.length = r := by
  obtain ⟨qs, ls, k, hp, hqs, -, -, -, hqt, -, hll, hrow, -⟩ := C18_padding q [r] ⟨hq, h2, h01, by simpa using ⟨hr, hrs⟩⟩
  obtain ⟨r', hr', hrl, hrp, hrt⟩ := hrow 0 r rfl
  obtain ⟨x, rfl⟩ := List.length_eq_one_iff.1 (show ls.length = 1 by simpa using hll)
  obtain rfl : x = r' := by simpa using hr'
  refine ⟨qs, x, k, ?_, hqs, hrl, hrp, hqt, hrt⟩
  simp [quantInit, hp, hrl]

theorem pad_none (q : List K) (hq : q.Pairwise (· < ·)) (h2 : 2 ≤ q.length) (h01 : ∀ p ∈ q, 0 ≤ p ∧ p ≤ 1) :
    ∃ q', quantInit q [] true = .ok (q', []) := by
  obtain ⟨qs, ls, k, hp, -, -, -, -, -, -, hll, -, -⟩ := C18_padding q [] ⟨hq, h2, h01, by simp⟩
  obtain rfl : ls = [] := by simpa using hll
  exact ⟨qs, by simp [quantInit, hp]⟩

private theorem getElem?_window {α : Type} (l w : List α) (k n : ℕ) (h : (l.drop k).take n = w) (j : ℕ) (v : α) (hj : w[j]? = some v) :
    l[k + j]? = some v := by
  subst h
  rw [List.getElem?_take] at hj
  split_ifs at hj
  rwa [List.getElem?_drop] at hj

/-- **C84.** Take an ensemble of *any* class whose quantiles at the increasing probabilities `q` (at least two, strictly between 0 and
1) are finite and distinct for each PDF. Converting it to quantiles at `q` succeeds and keeps the quantiles: the converted ensemble
answers `ppf(q)` with exactly the array that the original answers, also through scipy's front end, and answers `cdf` at the
`p`-quantiles (one per PDF) with `p`. scipy's quadratic interpolant is any function that passes through its knots. -/
theorem C84_quantiles_kept (ev : Evals K) (e : Ens K) (q : List K) (h2 : 2 ≤ q.length) (hq : q.Pairwise (· < ·))
    (h01 : ∀ p ∈ q, 0 < p ∧ p < 1) (Q : ℕ → K → K) (hs0 : e.frozen.shape.prod ≠ 0)
    (hppf : ev.ppf e.frozen (.arr (vec q)) = .ok ⟨e.frozen.shape ++ [q.length],
      nums ((List.range e.frozen.shape.prod).map fun i => q.map (Q i)).flatten⟩)
    (hQ : ∀ i < e.frozen.shape.prod, (q.map (Q i)).Pairwise (· < ·))
    (spl : List (K × K) → K → K) (hspl : ∀ kn : List (K × K), (kn.map Prod.fst).Pairwise (· < ·) → ∀ p ∈ kn, spl kn p.1 = p.2) (xlo xhi : K) :
    ∃ e', convertTo (quantPy ev) e none [("quants", .arr (vec q))] = .ok e' ∧ e'.frozen.shape = e.frozen.shape ∧
      ensArr (quantPpfElem spl xlo xhi) e'.frozen (.arr (vec q)) = ev.ppf e.frozen (.arr (vec q)) ∧
      (let f := fun i => quantPpfRow spl xlo xhi e'.frozen.metadata (tableRow e'.frozen i)
       ensPpf (dispatch f f f) (List.replicate e.frozen.shape.prod q)
        = .ok ((List.range e.frozen.shape.prod).map fun i => q.map fun p => .fin (Q i p))) ∧
      ∀ p ∈ q, ensEvalPer (quantCdfElem spl) e'.frozen ((List.range e.frozen.shape.prod).map fun i => Q i p)
        = .ok ((List.range e.frozen.shape.prod).map fun _ => [.num (some p)]) := by
  set n := e.frozen.shape.prod with hn
  have hu : ∀ p ∈ q, 0 ≤ p ∧ p ≤ 1 := fun p hp => ⟨(h01 p hp).1.le, (h01 p hp).2.le⟩
  obtain ⟨q', hm⟩ := pad_none q hq h2 hu
  have hpad : ∀ i, ∃ r' k, i < n → quantInit q [q.map (Q i)] true = .ok (q', [r']) ∧ q'.Pairwise (· < ·) ∧ r'.length = q'.length ∧
      r'.Pairwise (· < ·) ∧ (q'.drop k).take q.length = q ∧ (r'.drop k).take q.length = q.map (Q i) := by
    intro i
    by_cases hi : i < n
    · obtain ⟨q2, r', k, h1, h2', h3, h4, h5, h6⟩ := pad_row q (q.map (Q i)) hq h2 hu (by simp) (hQ i hi)
      obtain rfl : q' = q2 := (quantInit_spec h1).2.2.2 _ _ _ hm
      exact ⟨r', k, fun _ => ⟨h1, h2', h3, h4, h5, h6⟩⟩
    · exact ⟨[], 0, fun h => absurd h hi⟩
  choose L k hL using hpad
  have hq0 : q ≠ [] := by rintro rfl; simp at h2
  have hlenL : ∀ i < n, (L i).length = q'.length := fun i hi => (hL i hi).2.2.1
  have hconv := quant_conversion ev e q q' hs0 hq0 (fun i => q.map (Q i)) L (fun i _ => by simp) hm hppf (fun i hi => (hL i hi).1)
  refine ⟨_, hconv, rfl, ?_⟩
  simp only
  set fr := frozenOf quantCls (quantOut q') [q'.length] ((List.range n).map fun i => [nums (L i)]) e.frozen.shape with hfr
  have hnp : fr.npdf = n := by simp [hfr, frozenOf]
  have hknot : ∀ i < n, ∀ p ∈ q, ∃ (j : ℕ), q'[j]? = some p ∧ (L i)[j]? = some (Q i p) := by
    intro i hi p hp
    obtain ⟨j, hj⟩ := List.getElem?_of_mem hp
    obtain ⟨-, -, -, -, h5, h6⟩ := hL i hi
    exact ⟨k i + j, getElem?_window _ _ _ _ h5 j p hj, getElem?_window _ _ _ _ h6 j _ (by simp [hj])⟩
  have hP : ∀ i < n, ∀ p ∈ q, quantPpfRow spl xlo xhi fr.metadata (tableRow fr i) p = some (Q i p) := by
    intro i hi p hp
    obtain ⟨j, hj1, hj2⟩ := hknot i hi p hp
    have hqs := (hL i hi).2.1
    unfold quantPpfRow
    rw [hfr, tableRow_quant q' n L _ hlenL i hi, metaGrid_quant, finites_nums]
    simp only [Option.bind_some]
    exact quantPpf_knot spl xlo xhi q' (L i) hqs (hspl _ (by rw [List.map_fst_zip (by rw [hlenL i hi])]; exact hqs)) j p _ hj1 hj2
  have hC : ∀ i < n, ∀ p ∈ q, quantCdfElem spl fr.metadata (tableRow fr i) (Q i p) = .num (some p) := by
    intro i hi p hp
    obtain ⟨j, hj1, hj2⟩ := hknot i hi p hp
    have hls := (hL i hi).2.2.2.1
    unfold quantCdfElem
    rw [hfr, tableRow_quant q' n L _ hlenL i hi, metaGrid_quant, finites_nums]
    simp only [Option.bind_some]
    rw [(C19_knots_partial spl q' (L i) (hspl _ (by rw [List.map_fst_zip (by rw [hlenL i hi])]; exact hls)) (hlenL i hi).symm hls
      (by intro h; rw [h] at hj2; simp at hj2)).1 j _ p hj2 hj1]
  refine ⟨?_, ?_, ?_⟩
  · rw [hppf]
    unfold ensArr
    simp only [Val.toArr]
    rw [show (vec q).data = nums q from rfl, finites_nums]
    simp only [show (vec q).shape = [q.length] from rfl]
    unfold ensEval
    rw [Evaluation.C01_shared_grid_partial _ _ _ (Or.inl hq)]
    simp only [Bind.bind, Except.bind]
    congr 2
    rw [nums_flatten, List.map_map]
    congr 1
    unfold Evaluation.SharedSpec
    rw [hnp]
    apply List.map_congr_left
    intro i hi
    simp only [Function.comp]
    rw [show nums (q.map (Q i)) = q.map fun x => .num (some (Q i x)) by simp [nums]]
    apply List.map_congr_left
    intro p hp
    simp only [quantPpfElem, hP i (List.mem_range.1 hi) p hp]
  · rw [Front.C80_ppf_shared_partial _ _ _ (Or.inl hq)]
    congr 1
    apply List.map_congr_left
    intro i hi
    apply List.map_congr_left
    intro p hp
    have := h01 p hp
    simp only [ppfFront, this.1.ne', this.2.ne, this, if_false, and_self, if_true, hP i (List.mem_range.1 hi) p hp]
    rfl
  · intro p hp
    unfold ensEvalPer
    rw [Evaluation.C02_one_point_per_pdf]
    congr 1
    unfold Evaluation.PerPdfSpec
    apply List.ext_getElem?
    intro i
    by_cases hi : i < n
    · simp [hi, hC i hi p hp]
    · simp [hi]

/-- **C84, limit.** A single probability is not enough: the conversion raises `IndexError`, for every class and every ensemble with at
least one PDF (the padding extrapolates from the first and the last *two* quantiles). -/
theorem C84_one_quantile (ev : Evals K) (e : Ens K) (p : K) (h : p < 1) (l : List (Elem K)) (hs0 : e.frozen.shape.prod ≠ 0)
    (hppf : ev.ppf e.frozen (.arr (vec [p])) = .ok ⟨e.frozen.shape ++ [1], l⟩) :
    (convertTo (quantPy ev) e none [("quants", .arr (vec [p]))]).map (fun _ => ()) = .error .IndexError := by
  have hx : extractQuantiles ev e [("quants", .arr (vec [p]))] = .ok [("quants", .arr (vec [p])),
      ("locs", .arr ⟨e.frozen.shape ++ [1], l⟩)] := by
    unfold extractQuantiles
    simp only [needKwd, get?_cons, if_true, Bind.bind, Except.bind, hppf]
  unfold convertTo
  simp only [quantPy, get_single, Bind.bind, Except.bind, hx]
  unfold mkEns
  set a : Arr (Elem K) := ⟨e.frozen.shape ++ [1], l⟩ with ha
  set m : Dict K := [("quants", .arr (vec [p])), ("pdf_constructor_name", .py (.str "piecewise_linear")), ("check_input", .py (.bool true))] with hmdef
  have hma : (quantCls (K := K)).metaArgs.mapM (argVal [("quants", .arr (vec [p])), ("locs", .arr a)]) = .ok m := by
    simp [quantCls, checkInputArg, argVal, get?_cons, get?_nil, Bind.bind, Except.bind, pure, Except.pure, hmdef]
  have hr : (quantCls (K := K)).rowArgs.mapM (rowArr [("quants", .arr (vec [p])), ("locs", .arr a)]) = .ok [a] := by
    simp [quantCls, rowArr, get?_cons, Bind.bind, Except.bind, pure, Except.pure, ha]
  have hmo : (quantCls (K := K)).metaOut m = .error .IndexError := by
    have hgrid : grid1 m "quants" = .ok [p] := by simp [hmdef, grid1, get?_cons, Val.toArr, vec, finites_nums]
    have htr : truthy m "check_input" = true := by simp [hmdef, truthy, argData, get?_cons, Val.toArr]
    simp [quantCls, quantMeta, hgrid, htr, quantInit, padQuantiles, not_le.2 h, Bind.bind, Except.bind]
  have hkeys : (Dict.keys [("quants", .arr (vec [p])), ("locs", .arr a)]).any
      (fun k => k ∉ (quantCls (K := K)).metaArgs.map (·.1) ++ (quantCls (K := K)).rowArgs) = false := by
    simp [Dict.keys, quantCls, checkInputArg]
  have hc : rowCreate quantCls [("quants", .arr (vec [p])), ("locs", .arr a)] = .error .IndexError := by
    unfold rowCreate
    rw [if_neg (by rw [hkeys]; simp), hma, hr]
    have hlead : a.shape.dropLast = e.frozen.shape := by simp [ha]
    simp only [Bind.bind, Except.bind, List.headD_cons, hlead]
    rw [if_neg (by simp [hlead]), if_neg (by simp [quantCls]), if_neg (by
      rintro ⟨-, h0⟩
      simp only [Arr.size, ha, List.prod_append, List.prod_cons, List.prod_nil, mul_one] at h0
      exact hs0 h0), hmo]
  simp [hc, Bind.bind, Except.bind, Except.map]

/-! ### an instance: two histograms, quartiles -/

/-- any function through the knots will do; this one is defined by the knots alone -/
def lookupSpl (kn : List (K × K)) (x : K) : K := (kn.lookup x).getD 0

theorem lookupSpl_knots (kn : List (K × K)) (h : (kn.map Prod.fst).Pairwise (· < ·)) (p : K × K) (hp : p ∈ kn) : lookupSpl kn p.1 = p.2 := by
  unfold lookupSpl
  induction kn with
  | nil => simp at hp
  | cons a t ih =>
    rw [List.map_cons, List.pairwise_cons] at h
    rcases List.mem_cons.1 hp with rfl | hpt
    · simp [List.lookup]
    · have : p.1 ≠ a.1 := (h.1 p.1 (List.mem_map_of_mem hpt)).ne'
      have hb : (p.1 == a.1) = false := by simpa using this
      obtain ⟨x, y⟩ := a
      simp only at hb
      simp only [List.lookup, hb]
      exact ih h.2 hpt

/-- `ens.ppf` of a histogram -/
def histPpfElem (md : Dict ℚ) (row : String → List (Elem ℚ)) (p : ℚ) : Elem ℚ :=
  .num ((finites (row "pdfs")).bind fun r => histPpf (metaGrid md "bins") r p)

example : ∃ e', convertTo (quantPy ⟨ensArr histCdfElem, ensArr histCdfElem, ensArr histPpfElem⟩)
      (⟨rowCreate histCls, rowCreate histCls, eqFrozen, none⟩ : Ens ℚ) none [("quants", .arr (vec [1/4, 1/2, 3/4]))] = .ok e' ∧
    ensArr (quantPpfElem lookupSpl 0 2) e'.frozen (.arr (vec [1/4, 1/2, 3/4])) = .ok ⟨[2, 3], nums [1/2, 1, 3/2, 1/4, 1/2, 3/4]⟩ ∧
    ensEvalPer (quantCdfElem lookupSpl) e'.frozen [3/2, 3/4] = .ok [[.num (some (3/4))], [.num (some (3/4))]] := by
  obtain ⟨e', h1, -, h3, -, h5⟩ := C84_quantiles_kept ⟨ensArr histCdfElem, ensArr histCdfElem, ensArr histPpfElem⟩
    (⟨rowCreate histCls, rowCreate histCls, eqFrozen, none⟩ : Ens ℚ) [1/4, 1/2, 3/4] (by decide) (by decide +kernel) (by decide +kernel)
    (fun i p => if i = 0 then 2 * p else p) (by decide) (by decide +kernel)
    (by
      intro i hi
      match i, hi with
      | 0, _ => decide +kernel
      | 1, _ => decide +kernel) lookupSpl lookupSpl_knots 0 2
  refine ⟨e', h1, ?_, ?_⟩
  · rw [h3]; decide +kernel
  · have := h5 (3/4) (by decide +kernel)
    simp only [show (eqFrozen.shape.prod) = 2 from rfl] at this
    convert this using 2
    · decide +kernel
    · rfl

example := C84_one_quantile (K := ℚ) ⟨ensArr histCdfElem, ensArr histCdfElem, ensArr histPpfElem⟩
    ⟨rowCreate histCls, rowCreate histCls, eqFrozen, none⟩ (1/2) (by norm_num) (nums [1, 1/2]) (by decide) (by decide +kernel)

end Verif.Props.ConvertQuant
