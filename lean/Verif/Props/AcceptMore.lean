import Verif.Props.Accept

/-!
# C127 (second part): which data quantile, packed, spline and sparse ensembles accept
-/

set_option linter.unusedSectionVars false
set_option autoImplicit false

namespace Verif.Props.Accept

open Verif Verif.Np Verif.Model Verif.Spec Verif.Lemmas

variable {K : Type} [Field K] [LinearOrder K] [IsStrictOrderedRing K]

/-- an array of finite numbers, complete -/
structure Numbers (a : Arr (Elem K)) (l : List K) : Prop where
  data : a.data = nums l
  wf : l.length = a.shape.prod

/-- an argument with a default, as an entry of the dictionary with that name -/
theorem argVal_default (d : Dict K) (k : String) (v0 : Val K) : ∃ v, argVal d (k, some v0) = .ok (k, v) ∧ v = (Dict.get? d k).getD v0 := by
  unfold argVal
  cases h : Dict.get? d k with
  | none => exact ⟨v0, by simp, rfl⟩
  | some v => exact ⟨v, by simp, rfl⟩

/-! ## Quantiles -/

/-- the method of reconstruction asked for -/
def Method (d : Dict K) (s : String) : Prop := ((Dict.get? d "pdf_constructor_name").getD (.py (.str "piecewise_linear"))).toArr.data = [.str s]

/-- input is to be checked, or not -/
def Checked (d : Dict K) (b : Bool) : Prop := ((Dict.get? d "check_input").getD (.py (.bool true))).toArr.data = [.bool b]

/-- a quantile is to be added in front or at the end: the first one is above the smallest float, or the last one below one -/
def Padded (q : List K) : Prop := (∃ a ∈ q.head?, floatEps < a) ∨ ∃ b ∈ q.getLast?, b < 1

/-- the quantiles themselves are fit for use: unchecked, or not empty and with two of them if some are to be added -/
def GoodLevels (b : Bool) (q : List K) : Prop := b = false ∨ (q ≠ [] ∧ (Padded q → 2 ≤ q.length))

theorem pad_none (q : List K) (hq : q ≠ []) (h : ¬ Padded q) (ls : List (List K)) : padQuantiles q ls = .ok (q, ls) := by
  obtain ⟨a, t, rfl⟩ := List.exists_cons_of_ne_nil hq
  unfold Padded at h
  push Not at h
  have h1 : ¬ floatEps < a := not_lt.2 (h.1 a (by simp))
  have h2 : ¬ (a :: t).getLast hq < 1 := not_lt.2 (h.2 _ (by rw [List.getLast?_eq_getLast_of_ne_nil hq]; rfl))
  unfold padQuantiles
  rw [List.head?_cons, List.getLast?_eq_getLast_of_ne_nil hq]
  simp [h1, h2]

theorem pad_some (q : List K) (h2 : 2 ≤ q.length) (h : Padded q) (ls : List (List K)) (hl : ∀ r ∈ ls, r.length = q.length) :
    ∃ q' ls', padQuantiles q ls = .ok (q', ls') ∧ q.length < q'.length ∧ ls'.length = ls.length ∧ ∀ r ∈ ls', r.length = q'.length := by
  obtain ⟨a, t, rfl⟩ : ∃ a t, q = a :: t := List.exists_cons_of_ne_nil (by rintro rfl; simp at h2)
  have hq : a :: t ≠ [] := by simp
  set lo := decide (floatEps < a) with hlo
  set hi := decide ((a :: t).getLast hq < 1) with hhi
  have hp : (!lo && !hi) = false := by
    rcases h with ⟨x, hx, h⟩ | ⟨x, hx, h⟩
    · obtain rfl : a = x := by simpa using hx
      simp [hlo, h]
    · rw [List.getLast?_eq_getLast_of_ne_nil hq] at hx
      obtain rfl : (a :: t).getLast hq = x := by simpa using hx
      have : hi = true := decide_eq_true h
      simp [this]
  have hany : (ls.any fun r => decide (r.length ≠ (a :: t).length ∧ r.length ≠ 1)) = false := by
    rw [List.any_eq_false]
    intro r hr
    simp [hl r hr]
  have hrow : ∀ r : List K, r.length = (a :: t).length → ∃ r', padRow lo hi (a :: t) r = some r' ∧
      r'.length = (a :: t).length + (if lo then 1 else 0) + (if hi then 1 else 0) := by
    intro r hr
    obtain ⟨b, c, u, rfl⟩ : ∃ b c u, r = b :: c :: u := by
      match r, hr with
      | b :: c :: u, _ => exact ⟨b, c, u, rfl⟩
      | [b], hr => rw [List.length_singleton] at hr; omega
      | [], hr => simp at hr
    obtain ⟨d, e, rfl⟩ : ∃ d e, t = d :: e := List.exists_cons_of_ne_nil (by rintro rfl; simp at h2)
    have hlo' : ∃ x, padLo (a :: d :: e) (b :: c :: u) = some x := ⟨_, rfl⟩
    have hhi' : ∃ x, padHi (a :: d :: e).reverse (b :: c :: u).reverse = some x := by
      have e1 : ∃ x y z, (a :: d :: e).reverse = x :: y :: z := by
        match hx : (a :: d :: e).reverse with
        | x :: y :: z => exact ⟨x, y, z, rfl⟩
        | [x] => have := congrArg List.length hx; simp at this
        | [] => simp at hx
      have e2 : ∃ x y z, (b :: c :: u).reverse = x :: y :: z := by
        match hx : (b :: c :: u).reverse with
        | x :: y :: z => exact ⟨x, y, z, rfl⟩
        | [x] => have := congrArg List.length hx; simp at this
        | [] => simp at hx
      obtain ⟨x, y, z, hx⟩ := e1
      obtain ⟨x', y', z', hx'⟩ := e2
      rw [hx, hx']
      exact ⟨_, rfl⟩
    obtain ⟨x, hx⟩ := hlo'
    obtain ⟨y, hy⟩ := hhi'
    unfold padRow
    rw [hx, hy]
    rcases lo <;> rcases hi <;> simp at hr ⊢ <;> omega
  obtain ⟨ls', h1, h4, h3⟩ : ∃ ls', ls.mapM (padRow lo hi (a :: t)) = some ls' ∧ ls'.length = ls.length ∧ ∀ r ∈ ls', r.length = (a :: t).length + (if lo then 1 else 0) + (if hi then 1 else 0) := by
    clear hany
    induction ls with
    | nil => exact ⟨[], rfl, rfl, by simp⟩
    | cons r ls ih =>
      obtain ⟨ls', e1, e5, e2⟩ := ih fun r hr => hl r (by simp [hr])
      obtain ⟨r', e3, e4⟩ := hrow r (hl r (by simp))
      refine ⟨r' :: ls', by simp [List.mapM_cons, e1, e3], by simp [e5], ?_⟩
      intro s hs
      rcases List.mem_cons.1 hs with rfl | hs
      · exact e4
      · exact e2 s hs
  refine ⟨(if lo then [0] else []) ++ (a :: t) ++ (if hi then [1] else []), ls', ?_, ?_, h4, ?_⟩
  · unfold padQuantiles
    rw [List.head?_cons, List.getLast?_eq_getLast_of_ne_nil hq]
    simp only [← hlo, ← hhi]
    rw [if_neg (by rw [hp]; simp), if_neg (by rw [hany]; simp), if_neg (by omega), h1]
  · rcases lo <;> rcases hi <;> simp at hp ⊢
  · intro r hr
    rw [h3 r hr]
    rcases lo <;> rcases hi <;> simp

theorem pad_short (q : List K) (h : Padded q) (h2 : q.length < 2) : padQuantiles q [] = .error .IndexError := by
  have hq : q ≠ [] := by
    rintro rfl
    rcases h with ⟨x, hx, -⟩ | ⟨x, hx, -⟩ <;> simp at hx
  obtain ⟨a, t, rfl⟩ := List.exists_cons_of_ne_nil hq
  have hp : (!(decide (floatEps < a)) && !(decide ((a :: t).getLast hq < 1))) = false := by
    rcases h with ⟨x, hx, h⟩ | ⟨x, hx, h⟩
    · obtain rfl : a = x := by simpa using hx
      simp [h]
    · rw [List.getLast?_eq_getLast_of_ne_nil hq] at hx
      obtain rfl : (a :: t).getLast hq = x := by simpa using hx
      rw [decide_eq_true h]
      simp
  unfold padQuantiles
  rw [List.head?_cons, List.getLast?_eq_getLast_of_ne_nil hq]
  simp only
  rw [if_neg (by rw [hp]; simp), if_neg (by simp), if_pos h2]

/-- **C127: quantiles.** With one line of probabilities `q`, locations that are numbers (at least one axis), a method of reconstruction and `check_input`, an ensemble is built
exactly when there are locations, one for each probability, the method is known, and, if the input is checked, there is a probability, and there are two if
quantiles 0 or 1 have to be added. One thing wrong: `ValueError` for no locations and for a wrong number, `IndexError` for too few probabilities and for a single location if
quantiles are added, `KeyError` for an unknown method.
Missing: as in `C127_hist_partial`. -/
theorem C127_quantiles_partial (d : Dict K) (q l : List K) (a : Arr (Elem K)) (s : String) (b : Bool) (hq : IsGrid d "quants" q) (ha : Dict.get? d "locs" = some (.arr a)) (hn : Numbers a l)
    (hs : a.shape ≠ []) (hme : Method d s) (hch : Checked d b) (hk : Only d ["quants", "pdf_constructor_name", "check_input", "locs"]) :
    let known := s ∈ ["piecewise_linear", "piecewise_constant", "cdf_spline_derivative", "dual_spline_average"]
    let width := a.shape.getLastD 0
    ((∃ fr, rowCreate quantCls d = .ok fr) ↔ l ≠ [] ∧ width = q.length ∧ known ∧ GoodLevels b q) ∧
    (l = [] → rowCreate quantCls d = .error .ValueError) ∧
    (l ≠ [] → width = q.length → known → ¬ GoodLevels b q → rowCreate quantCls d = .error .IndexError) ∧
    (l ≠ [] → width = q.length → GoodLevels b q → ¬ known → rowCreate quantCls d = .error .KeyError) ∧
    (l ≠ [] → GoodLevels b q → known → width ≠ q.length → (width = 1 ∧ b = true ∧ Padded q → rowCreate quantCls d = .error .IndexError) ∧
      (¬ (width = 1 ∧ b = true ∧ Padded q) → rowCreate quantCls d = .error .ValueError)) := by
  intro known width
  obtain ⟨v, hqv, hv⟩ := hq
  obtain ⟨v1, e1, f1⟩ := argVal_default d "pdf_constructor_name" (.py (.str "piecewise_linear"))
  obtain ⟨v2, e2, f2⟩ := argVal_default d "check_input" (.py (.bool true))
  unfold Method at hme
  unfold Checked at hch
  rw [← f1] at hme
  rw [← f2] at hch
  set m : Dict K := [("quants", v), ("pdf_constructor_name", v1), ("check_input", v2)] with hmdef
  have hm : (quantCls (K := K)).metaArgs.mapM (argVal d) = .ok m := by
    have e0 : argVal d ("quants", none) = .ok ("quants", v) := by unfold argVal; simp only [hqv]
    simp only [quantCls, checkInputArg, mapM_cons, e0, e1, e2]
    rfl
  have hrs : (quantCls (K := K)).rowArgs.mapM (rowArr d) = .ok [a] := by
    have : rowArr d "locs" = .ok a := by unfold rowArr; rw [ha]; simp [hs]
    simp only [quantCls, mapM_cons, this]
    rfl
  have hg : grid1 m "quants" = .ok q := grid1_of (v := v) (by simp [hmdef, get?_cons]) hv
  have ht : truthy m "check_input" = b := by
    unfold truthy argData
    simp [hmdef, get?_cons, hch]
  have hst : strArg m "pdf_constructor_name" = .ok s := by
    unfold strArg argData
    simp [hmdef, get?_cons, hme]
  have hlook : (pdfConstructors.lookup s).isSome = true ↔ known := by
    show _ ↔ s ∈ ["piecewise_linear", "piecewise_constant", "cdf_spline_derivative", "dual_spline_average"]
    simp only [pdfConstructors, List.lookup, List.mem_cons, List.not_mem_nil, or_false]
    split <;> [skip; split] <;> [skip; skip; split] <;> [skip; skip; skip; split] <;> simp_all
  have e := create_eq (quantCls (K := K)) d (by simpa [quantCls, checkInputArg] using hk) hm hrs
  have hsize : a.size = l.length := by rw [hn.wf]; rfl
  simp only [List.any_cons, List.any_nil, List.headD_cons, ne_eq, not_true_eq_false, decide_false, Bool.or_false, Bool.false_eq_true, if_false, List.map_cons, List.map_nil] at e
  rw [if_neg (by simp [quantCls])] at e
  have hl0 : ((quantCls (K := K)).needsRows = true ∧ a.size = 0) ↔ l = [] := by
    rw [hsize, List.length_eq_zero_iff]
    simp [quantCls]
  have c1 : l = [] → rowCreate quantCls d = .error .ValueError := fun h => by rw [e, if_pos (hl0.2 h)]
  have hmeta : ∀ {q' : List K}, quantMeta m = .ok q' → ¬ (l = []) → rowCreate quantCls d =
      (if (pdfConstructors.lookup s).isSome then (do
        let ws ← (quantCls (K := K)).widths m [width]
        let out ← (List.range a.shape.dropLast.prod).mapM fun i => (quantCls (K := K)).norm m (pdfRows [a] i)
        .ok { metadata := classMeta "quant" 0 ++ [("quants", vec q'), ("pdf_constructor_name", ⟨[], [.str s]⟩), ("check_input", ⟨[], [.bool b]⟩)].map fun p => (p.1, .arr p.2.expand0)
              objdata := storeRows ["locs"] ws out
              npdf := a.shape.dropLast.prod
              shape := a.shape.dropLast }) else .error .KeyError) := by
    intro q' hq' hl
    rw [e, if_neg (fun h => hl (hl0.1 h))]
    have : (quantCls (K := K)).metaOut m = if (pdfConstructors.lookup s).isSome then
      .ok [("quants", vec q'), ("pdf_constructor_name", ⟨[], [.str s]⟩), ("check_input", ⟨[], [.bool b]⟩)] else .error .KeyError := by
      simp only [quantCls, hq', hst, ht, Bind.bind, Except.bind]
    rw [this]
    split_ifs
    · rfl
    · rfl
  -- what becomes of the probabilities
  have hlev : (GoodLevels b q → ∃ q', quantMeta m = .ok q' ∧ (q'.length ≠ q.length ↔ b = true ∧ Padded q) ∧
      ∀ r : List K, r.length = q.length → ∃ r', quantRow m r = .ok (q', r')) ∧ (¬ GoodLevels b q → quantMeta m = .error .IndexError) := by
    unfold quantMeta quantRow
    simp only [hg, ht, Bind.bind, Except.bind]
    constructor
    · rintro (rfl | ⟨h1, h2⟩)
      · exact ⟨q, by simp [quantInit], by simp, fun r hr => ⟨r, by simp [quantInit, hr]⟩⟩
      · cases b with
        | false => exact ⟨q, by simp [quantInit], by simp, fun r hr => ⟨r, by simp [quantInit, hr]⟩⟩
        | true =>
          by_cases hp : Padded q
          · obtain ⟨q', ls', k1, k2, k3, -⟩ := pad_some q (h2 hp) hp [] (by simp)
            obtain rfl : ls' = [] := List.length_eq_zero_iff.1 k3
            refine ⟨q', by simp [quantInit, k1], by simp [hp, k2.ne'], ?_⟩
            intro r hr
            obtain ⟨q2, ls2, j1, j2, j3, j4⟩ := pad_some q (h2 hp) hp [r] (by simpa using hr)
            obtain rfl := (padQuantiles_spec k1).2.2 _ _ _ j1
            obtain ⟨r', rfl⟩ := List.length_eq_one_iff.1 j3
            exact ⟨r', by simp [quantInit, j1, j4 r' (by simp)]⟩
          · refine ⟨q, by simp [quantInit, pad_none q h1 hp], by simp [hp], fun r hr => ⟨r, by simp [quantInit, pad_none q h1 hp, hr]⟩⟩
    · intro hb
      unfold GoodLevels at hb
      push Not at hb
      obtain ⟨hb1, hb2⟩ := hb
      obtain rfl : b = true := by simpa using hb1
      by_cases hq0 : q = []
      · subst hq0
        simp [quantInit, padQuantiles]
      · obtain ⟨hp, hlt⟩ := hb2 hq0
        simp [quantInit, pad_short q hp hlt]
  -- the rows
  have hwf : a.Wf := by unfold Arr.Wf; rw [hn.data]; simpa [nums] using hn.wf
  have hrow : ∀ i < a.shape.dropLast.prod, ∃ r : List K, (flat2 a).row i = nums r ∧ r.length = width := by
    intro i hi
    have hall : ∀ z ∈ (flat2 a).row i, ∃ x : K, z = .num (some x) := by
      intro z hz
      have := (mem_rows hwf hs z).2 ⟨i, hi, hz⟩
      rw [hn.data] at this
      obtain ⟨x, -, rfl⟩ := List.mem_map.1 this
      exact ⟨x, rfl⟩
    have hlen := Arr.length_row (flat2 a) (flat2_wf hwf hs) i (by simpa [flat2, Arr.nrows] using hi)
    have hlen' : ((flat2 a).row i).length = width := by
      rw [hlen]
      show List.prod [a.shape.getLastD 0] = _
      rw [List.prod_singleton]
    have : ∀ z : List (Elem K), (∀ y ∈ z, ∃ x : K, y = .num (some x)) → ∃ r : List K, z = nums r := by
      intro z
      induction z with
      | nil => intro _; exact ⟨[], rfl⟩
      | cons y z ih =>
        intro h
        obtain ⟨x, rfl⟩ := h y (by simp)
        obtain ⟨r, rfl⟩ := ih fun y hy => h y (by simp [hy])
        exact ⟨x :: r, rfl⟩
    obtain ⟨r, hr⟩ := this _ hall
    exact ⟨r, hr, by rw [← hlen', hr]; simp [nums]⟩
  have hwid : ∀ {q' : List K}, quantMeta m = .ok q' → (quantCls (K := K)).widths m [width] =
      if width = q.length then .ok [q'.length] else if width = 1 ∧ q'.length ≠ q.length then .error .IndexError else .error .ValueError := by
    intro q' hq'
    simp only [quantCls, hg, hq', Bind.bind, Except.bind, List.cons.injEq, and_true]
  have c3 : l ≠ [] → ¬ GoodLevels b q → rowCreate quantCls d = .error .IndexError := by
    intro hl hb
    rw [e, if_neg (fun h => hl (hl0.1 h))]
    simp only [quantCls, hlev.2 hb, Bind.bind, Except.bind]
  have c4 : l ≠ [] → GoodLevels b q → ¬ known → rowCreate quantCls d = .error .KeyError := by
    intro hl hb hk
    obtain ⟨q', h1, -, -⟩ := hlev.1 hb
    rw [hmeta h1 hl, if_neg (fun h => hk (hlook.1 h))]
  have c5 : l ≠ [] → GoodLevels b q → known → width ≠ q.length → (width = 1 ∧ b = true ∧ Padded q → rowCreate quantCls d = .error .IndexError) ∧
      (¬ (width = 1 ∧ b = true ∧ Padded q) → rowCreate quantCls d = .error .ValueError) := by
    intro hl hb hk hw
    obtain ⟨q', h1, h2, -⟩ := hlev.1 hb
    rw [hmeta h1 hl, if_pos (hlook.2 hk), hwid h1, if_neg hw]
    constructor
    · rintro ⟨g1, g2⟩
      rw [if_pos ⟨g1, h2.2 g2⟩]
      rfl
    · intro g
      rw [if_neg (fun h => g ⟨h.1, h2.1 h.2⟩)]
      rfl
  have c6 : l ≠ [] → width = q.length → known → GoodLevels b q → ∃ fr, rowCreate quantCls d = .ok fr := by
    intro hl hw hk hb
    obtain ⟨q', h1, h2, h3⟩ := hlev.1 hb
    rw [hmeta h1 hl, if_pos (hlook.2 hk), hwid h1, if_pos hw]
    obtain ⟨out, hout⟩ := mapM_range_ok a.shape.dropLast.prod (fun i => (quantCls (K := K)).norm m (pdfRows [a] i)) (fun i hi => by
      obtain ⟨r, hr, hrl⟩ := hrow i hi
      obtain ⟨r', hr'⟩ := h3 r (by rw [hrl, hw])
      exact ⟨[nums r'], by simp only [quantCls, pdfRows, List.map_cons, List.map_nil, hr, finites_nums, hr', Bind.bind, Except.bind]⟩)
    simp only [Bind.bind, Except.bind, hout]
    exact ⟨_, rfl⟩
  refine ⟨⟨?_, fun ⟨h1, h2, h3, h4⟩ => c6 h1 h2 h3 h4⟩, c1, fun h _ _ hb => c3 h hb, fun h _ hb hk => c4 h hb hk, c5⟩
  rintro ⟨fr, hfr⟩
  have hl : l ≠ [] := fun h => by rw [c1 h] at hfr; simp at hfr
  have hb : GoodLevels b q := by
    by_contra h
    rw [c3 hl h] at hfr; simp at hfr
  have hk : known := by
    by_contra h
    rw [c4 hl hb h] at hfr; simp at hfr
  refine ⟨hl, ?_, hk, hb⟩
  by_contra hw
  by_cases h1 : width = 1 ∧ b = true ∧ Padded q
  · rw [(c5 hl hb hk hw).1 h1] at hfr; simp at hfr
  · rw [(c5 hl hb hk hw).2 h1] at hfr; simp at hfr

/-! ## Packed PDFs -/

theorem isText_iff (e : Elem K) : e.isText = true ↔ IsText e := by cases e <;> simp [Elem.isText, IsText]

/-- **C127: packed PDFs.** With a grid, packed values and maxima of the same leading shape (at least one axis each), a number as packing type and one as floor, an ensemble is built
exactly when there are two grid points, one packed value for each, one maximum for each PDF (or for each value), the packing type is 0 (linear) or 1 (logarithmic), and nothing is
text. One thing wrong: `IndexError` for a short grid, `TypeError` for text, `ValueError` for the rest. Nothing is said about the values: codes above 255 or below 0 are accepted.
Missing: as in `C127_hist_partial`. -/
theorem C127_packed_partial (d : Dict K) (xs : List K) (a z : Arr (Elem K)) (p f : K) (hx : IsGrid d "xvals" xs) (ha : Dict.get? d "ypacked" = some (.arr a)) (hz : Dict.get? d "ymax" = some (.arr z))
    (haw : a.Wf) (hzw : z.Wf) (has : a.shape ≠ []) (hzs : z.shape ≠ []) (hlead : z.shape.dropLast = a.shape.dropLast)
    (hp : ((Dict.get? d "packing_type").getD (.py (.num (some 0)))).toArr.data = [.num (some p)])
    (hf : ((Dict.get? d "log_floor").getD (.py (.num (some (-3))))).toArr.data = [.num (some f)])
    (hk : Only d ["xvals", "packing_type", "log_floor", "check_input", "ypacked", "ymax"]) :
    let good := a.shape.getLastD 0 = xs.length ∧ (z.shape.getLastD 0 = 1 ∨ z.shape.getLastD 0 = xs.length)
    let plain := ∀ e ∈ a.data ++ z.data, ¬ IsText e
    ((∃ fr, rowCreate packedCls d = .ok fr) ↔ 2 ≤ xs.length ∧ (p = 0 ∨ p = 1) ∧ good ∧ plain) ∧
    (xs.length < 2 → (p = 0 ∨ p = 1) → good → plain → rowCreate packedCls d = .error .IndexError) ∧
    (2 ≤ xs.length → ¬ ((p = 0 ∨ p = 1) ∧ good) → plain → rowCreate packedCls d = .error .ValueError) ∧
    (2 ≤ xs.length → (p = 0 ∨ p = 1) → good → ¬ plain → rowCreate packedCls d = .error .TypeError) := by
  intro good plain
  obtain ⟨v, hv1, hv2⟩ := hx
  obtain ⟨v1, e1, f1⟩ := argVal_default d "packing_type" (.py (.num (some 0)))
  obtain ⟨v2, e2, f2⟩ := argVal_default d "log_floor" (.py (.num (some (-3))))
  obtain ⟨v3, e3, f3⟩ := argVal_default d "check_input" (.py (.bool true))
  rw [← f1] at hp
  rw [← f2] at hf
  set m : Dict K := [("xvals", v), ("packing_type", v1), ("log_floor", v2), ("check_input", v3)] with hmdef
  have hm : (packedCls (K := K)).metaArgs.mapM (argVal d) = .ok m := by
    have e0 : argVal d ("xvals", none) = .ok ("xvals", v) := by unfold argVal; simp only [hv1]
    simp only [packedCls, checkInputArg, mapM_cons, e0, e1, e2, e3]
    rfl
  have hrs := two_tables_args d ha hz has hzs
  have hg : grid1 m "xvals" = .ok xs := grid1_of (v := v) (by simp [hmdef, get?_cons]) hv2
  have hp' : numArg m "packing_type" = .ok p := by
    unfold numArg argData
    simp [hmdef, get?_cons, hp]
  have hf' : numArg m "log_floor" = .ok f := by
    unfold numArg argData
    simp [hmdef, get?_cons, hf]
  have e := create_eq (packedCls (K := K)) d (by simpa [packedCls, checkInputArg] using hk) hm hrs
  have hany : ([a, z].any fun x => decide (x.shape.dropLast ≠ ([a, z].headD ⟨[], []⟩).shape.dropLast)) = false := by simp [hlead]
  rw [hany] at e
  simp only [Bool.false_eq_true, if_false, List.headD_cons, List.map_cons, List.map_nil] at e
  rw [if_neg (by simp [packedCls]), if_neg (by simp [packedCls])] at e
  have hmo : (packedCls (K := K)).metaOut m = if xs.length < 2 then .error .IndexError else if p ≠ 0 ∧ p ≠ 1 then .error .ValueError
      else .ok [("xvals", vec xs), ("packing_type", ⟨[], [.num (some p)]⟩), ("log_floor", ⟨[], [.num (some f)]⟩)] := by
    simp only [packedCls, hg, hp', hf', Bind.bind, Except.bind]
  have hwi : (packedCls (K := K)).widths m [a.shape.getLastD 0, z.shape.getLastD 0] =
      if a.shape.getLastD 0 = xs.length ∧ (z.shape.getLastD 0 = 1 ∨ z.shape.getLastD 0 = a.shape.getLastD 0) then .ok [a.shape.getLastD 0, z.shape.getLastD 0] else .error .ValueError := by
    simp only [packedCls, hg, Bind.bind, Except.bind]
  have hgood : (a.shape.getLastD 0 = xs.length ∧ (z.shape.getLastD 0 = 1 ∨ z.shape.getLastD 0 = a.shape.getLastD 0)) ↔ good := by
    show _ ↔ a.shape.getLastD 0 = xs.length ∧ (z.shape.getLastD 0 = 1 ∨ z.shape.getLastD 0 = xs.length)
    constructor <;> rintro ⟨h1, h2⟩ <;> [rw [h1] at h2; rw [← h1] at h2] <;> exact ⟨h1, h2⟩
  have c2 : xs.length < 2 → rowCreate packedCls d = .error .IndexError := fun h => by rw [e, hmo, if_pos h]; rfl
  have c3 : 2 ≤ xs.length → ¬ ((p = 0 ∨ p = 1) ∧ good) → rowCreate packedCls d = .error .ValueError := by
    intro h hn
    rw [e, hmo, if_neg (by omega)]
    by_cases h0 : p ≠ 0 ∧ p ≠ 1
    · rw [if_pos h0]; rfl
    · have hpo : p = 0 ∨ p = 1 := by
        by_contra hc
        exact h0 (not_or.1 hc)
      rw [if_neg h0, hwi, if_neg (fun h => hn ⟨hpo, hgood.1 h⟩)]
      rfl
  have hrow : 2 ≤ xs.length → (p = 0 ∨ p = 1) → good → ∃ mo, rowCreate packedCls d = (do
      let out ← (List.range a.shape.dropLast.prod).mapM fun i => (packedCls (K := K)).norm m (pdfRows [a, z] i)
      .ok { metadata := mo, objdata := storeRows ["ypacked", "ymax"] [a.shape.getLastD 0, z.shape.getLastD 0] out
            npdf := a.shape.dropLast.prod, shape := a.shape.dropLast }) := by
    intro h2 hpo hgd
    refine ⟨classMeta "packed_interp" 0 ++ [("xvals", vec xs), ("packing_type", ⟨[], [.num (some p)]⟩), ("log_floor", ⟨[], [.num (some f)]⟩)].map fun q => (q.1, .arr q.2.expand0), ?_⟩
    rw [e, hmo, if_neg (by omega), if_neg (by rintro ⟨h0, h1⟩; exact hpo.elim h0 h1), hwi, if_pos (hgood.2 hgd)]
    rfl
  have hmem : ∀ x, x ∈ a.data ++ z.data ↔ ∃ i < a.shape.dropLast.prod, x ∈ (flat2 a).row i ++ (flat2 z).row i := by
    intro x
    rw [List.mem_append, mem_rows haw has, mem_rows hzw hzs, hlead]
    constructor
    · rintro (⟨i, hi, h⟩ | ⟨i, hi, h⟩)
      · exact ⟨i, hi, by simp [h]⟩
      · exact ⟨i, hi, by simp [h]⟩
    · rintro ⟨i, hi, h⟩
      rcases List.mem_append.1 h with h | h
      · exact Or.inl ⟨i, hi, h⟩
      · exact Or.inr ⟨i, hi, h⟩
  have hnorm : ∀ i, ((∀ x ∈ (flat2 a).row i ++ (flat2 z).row i, ¬ IsText x) → ∃ r, (packedCls (K := K)).norm m (pdfRows [a, z] i) = .ok r) ∧
      ((∃ x ∈ (flat2 a).row i ++ (flat2 z).row i, IsText x) → (packedCls (K := K)).norm m (pdfRows [a, z] i) = .error .TypeError) := by
    intro i
    have hc : ((pdfRows [a, z] i).any (·.any Elem.isText)) = true ↔ ∃ x ∈ (flat2 a).row i ++ (flat2 z).row i, IsText x := by
      simp only [pdfRows, List.map_cons, List.map_nil, List.any_cons, List.any_nil, Bool.or_false, Bool.or_eq_true, List.any_eq_true, isText_iff, List.mem_append]
      constructor
      · rintro (⟨x, h, ht⟩ | ⟨x, h, ht⟩)
        · exact ⟨x, Or.inl h, ht⟩
        · exact ⟨x, Or.inr h, ht⟩
      · rintro ⟨x, h | h, ht⟩
        · exact Or.inl ⟨x, h, ht⟩
        · exact Or.inr ⟨x, h, ht⟩
    simp only [packedCls]
    constructor
    · intro h
      rw [if_neg (fun hh => by obtain ⟨x, hx, ht⟩ := hc.1 hh; exact h x hx ht)]
      exact ⟨_, rfl⟩
    · intro h
      rw [if_pos (hc.2 h)]
  have c4 : 2 ≤ xs.length → (p = 0 ∨ p = 1) → good → ¬ plain → rowCreate packedCls d = .error .TypeError := by
    intro h2 hpo hgd hpl
    obtain ⟨mo, hmo'⟩ := hrow h2 hpo hgd
    have hpl' : ∃ x ∈ a.data ++ z.data, IsText x := by
      by_contra hc
      exact hpl fun x hx ht => hc ⟨x, hx, ht⟩
    obtain ⟨x, hx, ht⟩ := hpl'
    obtain ⟨i, hi, hxi⟩ := (hmem x).1 hx
    rw [hmo', mapM_range_error (e := .TypeError)]
    · rfl
    · intro j hj
      by_cases hall : ∀ x ∈ (flat2 a).row j ++ (flat2 z).row j, ¬ IsText x
      · exact Or.inl ((hnorm j).1 hall)
      · push Not at hall
        exact Or.inr ((hnorm j).2 hall)
    · exact ⟨i, hi, (hnorm i).2 ⟨x, hxi, ht⟩⟩
  refine ⟨⟨?_, ?_⟩, fun h _ _ _ => c2 h, fun h h' _ => c3 h h', c4⟩
  · rintro ⟨fr, hfr⟩
    have h2 : 2 ≤ xs.length := by
      by_contra h
      rw [c2 (by omega)] at hfr; simp at hfr
    have h3 : (p = 0 ∨ p = 1) ∧ good := by
      by_contra h
      rw [c3 h2 h] at hfr; simp at hfr
    refine ⟨h2, h3.1, h3.2, ?_⟩
    by_contra h
    rw [c4 h2 h3.1 h3.2 h] at hfr; simp at hfr
  · rintro ⟨h2, hpo, hgd, hpl⟩
    obtain ⟨mo, hmo'⟩ := hrow h2 hpo hgd
    rw [hmo']
    obtain ⟨out, hout⟩ := mapM_range_ok a.shape.dropLast.prod (fun i => (packedCls (K := K)).norm m (pdfRows [a, z] i))
      (fun i hi => (hnorm i).1 fun x hx => hpl x ((hmem x).2 ⟨i, hi, hx⟩))
    simp only [Bind.bind, Except.bind, hout]
    exact ⟨_, rfl⟩

/-! ## Splines -/

/-- **C127: splines** (knots, coefficients and orders with at least one axis, the orders with the leading shape of the knots) are built exactly when knots and coefficients have the same
shape, there are knots, and no knot is text; otherwise `ValueError` for the first two, and `TypeError` for text among the knots. Nothing is said about the values: knots in any order,
any number of coefficients and orders, and text among these, are accepted.
Missing: as in `C127_hist_partial`, and orders of another leading shape (C145). -/
theorem C127_spline_partial (d : Dict K) (x y n : Arr (Elem K)) (hx : Dict.get? d "splx" = some (.arr x)) (hy : Dict.get? d "sply" = some (.arr y)) (hn : Dict.get? d "spln" = some (.arr n))
    (hxw : x.Wf) (hxs : x.shape ≠ []) (hys : y.shape ≠ []) (hns : n.shape ≠ []) (hnl : n.shape.dropLast = x.shape.dropLast) (hk : Only d ["splx", "sply", "spln"]) :
    let good := x.shape = y.shape ∧ x.size ≠ 0
    let plain := ∀ e ∈ x.data, ¬ IsText e
    ((∃ fr, rowCreate splineCls d = .ok fr) ↔ good ∧ plain) ∧ (¬ good → rowCreate splineCls d = .error .ValueError) ∧
    (good → ¬ plain → rowCreate splineCls d = .error .TypeError) := by
  intro good plain
  have hrs : (splineCls (K := K)).rowArgs.mapM (rowArr d) = .ok [x, y, n] := by
    have e1 : rowArr d "splx" = .ok x := by unfold rowArr; rw [hx]; simp [hxs]
    have e2 : rowArr d "sply" = .ok y := by unfold rowArr; rw [hy]; simp [hys]
    have e3 : rowArr d "spln" = .ok n := by unfold rowArr; rw [hn]; simp [hns]
    simp only [splineCls, mapM_cons, e1, e2, e3]
    rfl
  have hshape : x.shape = y.shape ↔ y.shape.dropLast = x.shape.dropLast ∧ x.shape.getLastD 0 = y.shape.getLastD 0 := by
    constructor
    · intro h; rw [h]; exact ⟨rfl, rfl⟩
    · rintro ⟨h1, h2⟩
      rw [← List.dropLast_append_getLast hxs, ← List.dropLast_append_getLast hys, h1]
      simp only [List.getLastD_eq_getLast?, List.getLast?_eq_getLast_of_ne_nil hxs, List.getLast?_eq_getLast_of_ne_nil hys, Option.getD_some] at h2
      rw [h2]
  have e := create_eq (splineCls (K := K)) d (by simpa [splineCls] using hk) (m := []) rfl hrs
  simp only [List.headD_cons, List.map_cons, List.map_nil] at e
  simp only [List.any_cons, List.any_nil, ne_eq, hnl, not_true_eq_false, decide_false, Bool.or_false, Bool.false_or] at e
  have bad : ¬ good → rowCreate splineCls d = .error .ValueError := by
    intro h
    rw [e]
    split_ifs with h1 h2 h3
    · rfl
    · simp [splineCls] at h2
    · rfl
    · have h1' : y.shape.dropLast = x.shape.dropLast := not_not.1 (fun hc => h1 (@decide_eq_true _ (_) hc))
      have hsz : x.size ≠ 0 := fun h0 => h3 ⟨rfl, h0⟩
      have hw : x.shape.getLastD 0 ≠ y.shape.getLastD 0 := fun hw => h ⟨hshape.2 ⟨h1', hw⟩, hsz⟩
      simp only [splineCls, Bind.bind, Except.bind, if_neg hw]
  have hrow : good → rowCreate splineCls d = (do
      let out ← (List.range x.shape.dropLast.prod).mapM fun i => (splineCls (K := K)).norm [] (pdfRows [x, y, n] i)
      .ok { metadata := classMeta "spline" 0, objdata := storeRows ["splx", "sply", "spln"] [x.shape.getLastD 0, y.shape.getLastD 0, n.shape.getLastD 0] out
            npdf := x.shape.dropLast.prod, shape := x.shape.dropLast }) := by
    rintro ⟨h1, h3⟩
    obtain ⟨h4, h5⟩ := hshape.1 h1
    rw [e, if_neg (by simp [h4]), if_neg (by simp [splineCls]), if_neg (fun h => h3 h.2)]
    have hwi : (splineCls (K := K)).widths [] [x.shape.getLastD 0, y.shape.getLastD 0, n.shape.getLastD 0] = .ok [x.shape.getLastD 0, y.shape.getLastD 0, n.shape.getLastD 0] := by
      simp only [splineCls, if_pos h5]
    rw [hwi]
    have hmo : (splineCls (K := K)).metaOut [] = .ok [] := rfl
    rw [hmo]
    simp only [Bind.bind, Except.bind, List.map_nil, List.append_nil]
    rfl
  have hnorm : ∀ i, ((∀ v ∈ (flat2 x).row i, ¬ IsText v) → ∃ r, (splineCls (K := K)).norm [] (pdfRows [x, y, n] i) = .ok r) ∧
      ((∃ v ∈ (flat2 x).row i, IsText v) → (splineCls (K := K)).norm [] (pdfRows [x, y, n] i) = .error .TypeError) := by
    intro i
    have hc : (((pdfRows [x, y, n] i).headD []).any Elem.isText) = true ↔ ∃ v ∈ (flat2 x).row i, IsText v := by
      simp only [pdfRows, List.map_cons, List.map_nil, List.headD_cons, List.any_eq_true, isText_iff]
    simp only [splineCls]
    constructor
    · intro h
      rw [if_neg (fun hh => by obtain ⟨v, hv, ht⟩ := hc.1 hh; exact h v hv ht)]
      exact ⟨_, rfl⟩
    · intro h
      rw [if_pos (hc.2 h)]
  have htext : good → ¬ plain → rowCreate splineCls d = .error .TypeError := by
    intro hg hpl
    have hpl' : ∃ v ∈ x.data, IsText v := by
      by_contra hc
      exact hpl fun v hv ht => hc ⟨v, hv, ht⟩
    obtain ⟨v, hv, ht⟩ := hpl'
    obtain ⟨i, hi, hvi⟩ := (mem_rows hxw hxs v).1 hv
    rw [hrow hg, mapM_range_error (e := .TypeError)]
    · rfl
    · intro j hj
      by_cases hall : ∀ v ∈ (flat2 x).row j, ¬ IsText v
      · exact Or.inl ((hnorm j).1 hall)
      · push Not at hall
        exact Or.inr ((hnorm j).2 hall)
    · exact ⟨i, hi, (hnorm i).2 ⟨v, hvi, ht⟩⟩
  refine ⟨⟨fun ⟨fr, hfr⟩ => ?_, ?_⟩, bad, htext⟩
  · have hg : good := by
      by_contra h
      rw [bad h] at hfr; simp at hfr
    refine ⟨hg, ?_⟩
    by_contra h
    rw [htext hg h] at hfr; simp at hfr
  · rintro ⟨hg, hpl⟩
    rw [hrow hg]
    obtain ⟨out, hout⟩ := mapM_range_ok x.shape.dropLast.prod (fun i => (splineCls (K := K)).norm [] (pdfRows [x, y, n] i))
      (fun i hi => (hnorm i).1 fun v hv => hpl v ((mem_rows hxw hxs v).2 ⟨i, hi, hv⟩))
    rw [hout]
    exact ⟨_, rfl⟩

/-! ## Examples -/

/-- two PDFs given by their quartiles: accepted, the ends are added -/
example : ∃ fr, rowCreate (quantCls (K := ℚ)) [("quants", .arr (vec [1/4, 1/2, 3/4])), ("locs", .arr ⟨[2, 3], nums [0, 1, 2, 4, 5, 8]⟩)] = .ok fr :=
  (C127_quantiles_partial _ [1/4, 1/2, 3/4] _ _ "piecewise_linear" true ⟨_, rfl, rfl⟩ rfl ⟨rfl, rfl⟩ (by simp) (by unfold Method; rfl) (by unfold Checked; rfl) (by unfold Only Dict.keys; decide)).1.2
    ⟨by simp, rfl, by simp, Or.inr ⟨by simp, fun _ => by simp⟩⟩

/-- a median alone: the ends cannot be added -/
example : rowCreate (quantCls (K := ℚ)) [("quants", .arr (vec [1/2])), ("locs", .arr ⟨[2, 1], nums [1, 5]⟩)] = .error .IndexError :=
  (C127_quantiles_partial _ [1/2] _ _ "piecewise_linear" true ⟨_, rfl, rfl⟩ rfl ⟨rfl, rfl⟩ (by simp) (by unfold Method; rfl) (by unfold Checked; rfl) (by unfold Only Dict.keys; decide)).2.2.1
    (by simp) rfl (by simp) (by
      rintro (h | ⟨-, h⟩)
      · simp at h
      · have := h (Or.inr ⟨1/2, by simp, by norm_num⟩)
        simp at this)

/-- a misspelt method -/
example : rowCreate (quantCls (K := ℚ)) [("quants", .arr (vec [0, 1])), ("locs", .arr ⟨[1, 2], nums [1, 5]⟩), ("pdf_constructor_name", .py (.str "linear"))] = .error .KeyError :=
  (C127_quantiles_partial _ [0, 1] _ _ "linear" true ⟨_, rfl, rfl⟩ rfl ⟨rfl, rfl⟩ (by simp) (by unfold Method; rfl) (by unfold Checked; rfl) (by unfold Only Dict.keys; decide)).2.2.2.1
    (by simp) rfl (Or.inr ⟨by simp, fun _ => by simp⟩) (by simp)

/-- an unknown packing type -/
example : rowCreate (packedCls (K := ℚ)) [("xvals", .arr (vec [0, 1])), ("ypacked", .arr ⟨[1, 2], nums [1, 5]⟩), ("ymax", .arr ⟨[1, 1], nums [1]⟩), ("packing_type", .py (.num (some 2)))] = .error .ValueError :=
  (C127_packed_partial _ [0, 1] ⟨[1, 2], nums [1, 5]⟩ ⟨[1, 1], nums [1]⟩ 2 (-3) ⟨_, rfl, rfl⟩ rfl rfl rfl rfl (by simp) (by simp) rfl rfl rfl (by unfold Only Dict.keys; decide)).2.2.1 (by simp) (by norm_num)
    (by simp [nums, IsText])

/-- three knots, two coefficients -/
example : rowCreate (splineCls (K := ℚ)) [("splx", .arr ⟨[1, 3], nums [0, 1, 2]⟩), ("sply", .arr ⟨[1, 2], nums [1, 5]⟩), ("spln", .arr ⟨[1, 1], nums [1]⟩)] = .error .ValueError :=
  (C127_spline_partial _ ⟨[1, 3], nums [0, 1, 2]⟩ ⟨[1, 2], nums [1, 5]⟩ ⟨[1, 1], nums [1]⟩ rfl rfl rfl rfl (by simp) (by simp) (by simp) rfl (by unfold Only Dict.keys; decide)).2.1 (by simp)

/-- text among the packed values -/
example : rowCreate (packedCls (K := ℚ)) [("xvals", .arr (vec [0, 1])), ("ypacked", .arr ⟨[1, 2], [.str "1", .str "5"]⟩), ("ymax", .arr ⟨[1, 1], nums [1]⟩)] = .error .TypeError :=
  (C127_packed_partial _ [0, 1] ⟨[1, 2], [.str "1", .str "5"]⟩ ⟨[1, 1], nums [1]⟩ 0 (-3) ⟨_, rfl, rfl⟩ rfl rfl rfl rfl (by simp) (by simp) rfl rfl rfl (by unfold Only Dict.keys; decide)).2.2.2
    (by simp) (Or.inl rfl) ⟨rfl, Or.inl rfl⟩ (fun h => h (.str "1") (by simp) trivial)

/-- text among the coefficients of a spline is accepted -/
example : ∃ fr, rowCreate (splineCls (K := ℚ)) [("splx", .arr ⟨[1, 2], nums [0, 1]⟩), ("sply", .arr ⟨[1, 2], [.str "1", .str "5"]⟩), ("spln", .arr ⟨[1, 1], nums [1]⟩)] = .ok fr :=
  (C127_spline_partial _ ⟨[1, 2], nums [0, 1]⟩ ⟨[1, 2], [.str "1", .str "5"]⟩ ⟨[1, 1], nums [1]⟩ rfl rfl rfl rfl (by simp) (by simp) (by simp) rfl (by unfold Only Dict.keys; decide)).1.2
    ⟨⟨rfl, by simp [Arr.size]⟩, by simp [nums, IsText]⟩

end Verif.Props.Accept
