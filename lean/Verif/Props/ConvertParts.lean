import Verif.Props.ConvertSelect
import Verif.Props.Stack

/-!
# C115: conversion in parts
-/

set_option linter.unusedSectionVars false
set_option autoImplicit false

namespace Verif.Props.ConvertParts

open Verif Verif.Np Verif.Model Verif.Spec Verif.Lemmas Verif.Props.ExEns Verif.Props.Convert Verif.Props.ConvertSelect

variable {K : Type} [Field K] [LinearOrder K] [IsStrictOrderedRing K]

/-- where parts of given sizes begin, with the sizes -/
def cuts : ℕ → List ℕ → List (ℕ × ℕ)
  | _, [] => []
  | a, n :: t => (a, n) :: cuts (a + n) t

/-- the key `a : a + n` -/
def cutKey (p : ℕ × ℕ) : Key := .slice (some (p.1 : ℕ)) (some (p.1 + p.2 : ℕ)) none

theorem cuts_le (ns : List ℕ) : ∀ a, ∀ p ∈ cuts a ns, p.1 + p.2 ≤ a + ns.sum := by
  induction ns with
  | nil => intro a p hp; simp [cuts] at hp
  | cons n t ih =>
    intro a p hp
    rcases List.mem_cons.1 hp with rfl | hp
    · simp
    · have := ih _ p hp
      simp only [List.sum_cons]
      omega

theorem cuts_size (ns : List ℕ) : ∀ a, (cuts a ns).map Prod.snd = ns := by
  induction ns with
  | nil => intro a; rfl
  | cons n t ih => intro a; simp [cuts, ih]

/-- the parts put together -/
theorem flatten_cuts (out : List (List (List (Elem K)))) (ns : List ℕ) : ∀ a, a + ns.sum = out.length →
    ((cuts a ns).map fun p => pick out (List.range' p.1 p.2)).flatten = out.drop a := by
  induction ns with
  | nil =>
    intro a h
    simp only [List.sum_nil, add_zero] at h
    simp [cuts, h]
  | cons n t ih =>
    intro a h
    simp only [List.sum_cons] at h
    simp only [cuts, List.map_cons, List.flatten_cons]
    rw [ih (a + n) (by omega)]
    have : pick out (List.range' a n) = (out.drop a).take n := by
      apply List.ext_getElem
      · simp [pick]; omega
      · intro i h1 h2
        have h3 : i < n := by simpa [pick] using h1
        have h4 : a + i < out.length := by omega
        simp [pick, h4]
    rw [this, ← List.drop_drop]
    exact List.take_append_drop n (out.drop a)

/-- taking a part of an ensemble in normal form -/
theorem cut_item {k : RowKind} {e : Ens K} {mo : List (String × Arr (Elem K))} {ws : List ℕ} {out : List (List (List (Elem K)))}
    (hs : Stored k e mo ws out) (hnone : e.ancil = none) (p : ℕ × ℕ) (hp : p.1 + p.2 ≤ out.length) (h0 : p.2 ≠ 0) :
    ∃ e', getItem e (cutKey p) = .ok e' ∧ Stored k e' mo ws (pick out (List.range' p.1 p.2)) ∧ e'.ancil = none := by
  unfold cutKey
  rw [getItem_frozen hs.create hs.frozen hs.fixed hs.w, Select.C32_slice_key _ _ _ (by omega) (by omega), hnone]
  simp only [Except.bind, sliceAncil, checkArrayShapes]
  have hsel : selRows (.many (List.range' p.1 (p.1 + p.2 - p.1))) = List.range' p.1 p.2 := by simp [selRows]
  rw [hsel]
  have hne : List.range' p.1 p.2 ≠ [] := by simpa using h0
  rw [if_neg fun h => hne h.2]
  refine ⟨_, rfl, ⟨hs.create, hs.create, rfl, hs.fixed.sub (pick_mem ?_), hs.w, hs.plain, hs.mwf, ?_⟩, rfl⟩
  · intro i hi
    rw [List.mem_range'_1] at hi
    omega
  · intro _ h
    exact hne (List.map_eq_nil_iff.1 h)

/-- an ensemble without ancillary data and with one index is the concatenation of its parts -/
theorem concat_cuts {k : RowKind} {e : Ens K} (hr : Reach k e) (hnone : e.ancil = none) (hsh : e.frozen.shape = [e.frozen.npdf])
    (ns : List ℕ) (hne : ns ≠ []) (h0 : ∀ n ∈ ns, n ≠ 0) (hsum : ns.sum = e.frozen.npdf) :
    ∃ parts, List.Forall₂ (fun p x => getItem e (cutKey p) = .ok x) (cuts 0 ns) parts ∧ concatenateEns parts = .ok e := by
  obtain ⟨mo, ws, out, hs⟩ := reach_stored hr
  have hn : e.frozen.npdf = out.length := by rw [hs.frozen]; rfl
  have hitem : ∀ p ∈ cuts 0 ns, ∃ x, getItem e (cutKey p) = .ok x ∧ Stored k x mo ws (pick out (List.range' p.1 p.2)) ∧ x.ancil = none := by
    intro p hp
    refine cut_item hs hnone p ?_ ?_
    · have := cuts_le ns 0 p hp
      omega
    · apply h0
      rw [← cuts_size ns 0]
      exact List.mem_map.2 ⟨p, hp, rfl⟩
  obtain ⟨parts, hparts⟩ : ∃ parts, List.Forall₂ (fun p x => getItem e (cutKey p) = .ok x ∧
      Stored k x mo ws (pick out (List.range' p.1 p.2)) ∧ x.ancil = none) (cuts 0 ns) parts := by
    clear hsum
    generalize cuts 0 ns = l at hitem
    induction l with
    | nil => exact ⟨[], .nil⟩
    | cons p t ih =>
      obtain ⟨x, hx⟩ := hitem p (by simp)
      obtain ⟨ps, hps⟩ := ih fun q hq => hitem q (by simp [hq])
      exact ⟨x :: ps, .cons hx hps⟩
  refine ⟨parts, hparts.imp fun p x h => h.1, ?_⟩
  have hst : List.Forall₂ (fun x o => Stored k x mo ws o) parts ((cuts 0 ns).map fun p => pick out (List.range' p.1 p.2)) := by
    rw [List.forall₂_map_right_iff]
    exact (hparts.imp fun p x h => h.2.1).flip
  have hpne : parts ≠ [] := by
    rintro rfl
    cases ns with
    | nil => exact hne rfl
    | cons n t => cases hparts
  rw [concat_stored hpne hst, Stack.allAncil_none]
  · simp only [concatAncils, Except.bind, checkArrayShapes]
    rw [flatten_cuts out ns 0 (by rw [zero_add, hsum, hn]), List.drop_zero]
    congr 1
    have h1 := hs.frozen
    have h2 := hs.create
    have h3 := hs.gen
    rw [hsh, hn] at h1
    obtain ⟨c, g, fr, a⟩ := e
    simp only at h1 h2 h3 hnone
    rw [h1, h2, h3, hnone]
  · obtain ⟨x, hx⟩ := List.exists_mem_of_ne_nil parts hpne
    obtain ⟨p, -, hp⟩ := forall₂_mem_right hparts hx
    exact ⟨x, hx, hp.2.2⟩

/-- the ensemble without its ancillary data -/
def strip (e : Ens K) : Ens K := (setAncil e none).2

theorem strip_facts (e : Ens K) : (strip e).frozen = e.frozen ∧ (strip e).ancil = none ∧ (strip e).create = e.create := by
  simp [strip, setAncil, checkArrayShapes]

/-- the parts of a concatenation are found again by their positions -/
theorem parts_of_concat (k : RowKind) (e0 E : Ens K) (h0 : Reach k e0) (es : List (Ens K))
    (hr : ∀ y ∈ es, Reach k y ∧ y.ancil = none ∧ Compatible e0.frozen y.frozen) (hcat : concatenateEns es = .ok E)
    (hsh : ∀ y ∈ es, y.frozen.shape = [y.frozen.npdf]) : ∀ pre post, es = pre ++ post →
    List.Forall₂ (fun x p => ∃ e', getItem E (cutKey p) = .ok e' ∧ e'.frozen = x.frozen) post
      (cuts (pre.map fun y => y.frozen.npdf).sum (post.map fun y => y.frozen.npdf)) := by
  intro pre post
  induction post generalizing pre with
  | nil => intro _; exact .nil
  | cons x post ih =>
    intro he
    simp only [List.map_cons, cuts]
    refine .cons ?_ ?_
    · subst he
      obtain ⟨e', h1, h2, -⟩ := Stack.C34_slice_part k e0 pre post x hr h0 E hcat
      refine ⟨e', h1, ?_⟩
      rw [h2, ← hsh x (by simp)]
    · have := ih (pre ++ [x]) (by rw [he]; simp)
      simpa using this

/-- a conversion only reads the distribution, not the ancillary data -/
theorem convert_frozen (ev : Evals K) (pack : Val K → List (Elem K) → Except Err (List (Elem K) × Elem K)) (c : PyCls K) (arg : String)
    (hc : (c, arg) ∈ [(histPy ev, "bins"), (interpPy ev, "xvals"), (irrPy ev, "xvals"), (quantPy ev, "quants"), (packedPy pack ev, "xvals")])
    (e e' : Ens K) (h : e'.frozen = e.frozen) (method : Option String) (kwds : Dict K) :
    convertTo c e' method kwds = convertTo c e method kwds := by
  simp only [List.mem_cons, Prod.mk.injEq, List.not_mem_nil, or_false] at hc
  rcases hc with ⟨rfl, rfl⟩ | ⟨rfl, rfl⟩ | ⟨rfl, rfl⟩ | ⟨rfl, rfl⟩ | ⟨rfl, rfl⟩
  · simp only [convertTo, histPy, get_single, extractHistValues, h]
  · simp only [convertTo, interpPy, get_single, extractValsAtX, h]
  · simp only [convertTo, irrPy, get_single, extractXyVals, h]
  · simp only [convertTo, quantPy, get_single, extractQuantiles, h]
  · simp only [convertTo, packedPy, get_single, extractPacked, h]

theorem made_of_commutes {k' : RowKind} {x : Extract K} {name : String} {e e' ce : Ens K} {is : List ℕ} {method : Option String} {kwds : Dict K}
    (hx : Commutes k' x kwds e e' is)
    (h : convertTo ⟨name, rowCreate k'.cls, [(none, rowCreate k'.cls)], [(none, x)]⟩ e method kwds = .ok ce) : ∃ k', Reach k' ce := by
  simp only [convertTo, get_single] at h
  obtain ⟨data, hd, h⟩ := bind_ok h
  obtain ⟨hp, hw, -⟩ := hx data hd
  exact ⟨k', .made ⟨h, hp, hw⟩⟩

/-- the result of a conversion is an ensemble like any other: slicing, appending and so on are covered by the theorems about `Reach` -/
theorem convert_reach (k : RowKind) {e ce : Ens K} (h : Reach k e) (hn0 : e.frozen.npdf ≠ 0)
    (f fc fp : Dict K → (String → List (Elem K)) → K → Elem K)
    (pack : Val K → List (Elem K) → Except Err (List (Elem K) × Elem K)) (hpk : KeepsLength pack) (ev : Evals K)
    (hev : ev = ⟨ensArr f, ensArr fc, ensArr fp⟩) (c : PyCls K) (arg : String)
    (hc : (c, arg) ∈ [(histPy ev, "bins"), (interpPy ev, "xvals"), (irrPy ev, "xvals"), (quantPy ev, "quants"), (packedPy pack ev, "xvals")])
    (method : Option String) (kwds : Dict K) (hkw : ArraysWf kwds) (g : List K) (hinc : g.Pairwise (· < ·)) (h2 : 2 ≤ g.length)
    (hk : Dict.get? kwds arg = some (.arr (vec g))) (hce : convertTo c e method kwds = .ok ce) : ∃ k', Reach k' ce := by
  obtain ⟨mo, ws, out, hs⟩ := reach_stored h
  have hn : e.frozen.npdf = out.length := by rw [hs.frozen]; rfl
  have hf := strip_facts e
  have hs' : Stored k (strip e) mo ws out := stored_frozen hs (setAncil_frozen e none).1 (setAncil_frozen e none).2.1 hf.1
  obtain ⟨e', he', -, -⟩ := cut_item hs' hf.2.1 (0, 1) (by simp; omega) (by simp)
  obtain ⟨s, hr, hse⟩ := selEns k (.setAncil none h : Reach k (strip e)) he'
  have hce' : convertTo c (strip e) method kwds = .ok ce := by rw [← hce]; exact convert_frozen ev pack c arg hc _ _ hf.1 method kwds
  simp only [List.mem_cons, Prod.mk.injEq, List.not_mem_nil, or_false] at hc
  rcases hc with ⟨rfl, rfl⟩ | ⟨rfl, rfl⟩ | ⟨rfl, rfl⟩ | ⟨rfl, rfl⟩ | ⟨rfl, rfl⟩
  · exact made_of_commutes (k' := .hist) (commutes_hist hse fc ev (by rw [hev]) g hinc h2 kwds hk) hce'
  · exact made_of_commutes (k' := .interp) (commutes_interp hse f ev (by rw [hev]) g hinc kwds hk) hce'
  · exact made_of_commutes (k' := .irr) (commutes_irr hse f ev (by rw [hev]) g hinc kwds hk) hce'
  · exact made_of_commutes (k' := .quant) (commutes_quant hse fp ev (by rw [hev]) g hinc h2 kwds hk) hce'
  · exact made_of_commutes (k' := .packed) (commutes_packed hse f ev (by rw [hev]) pack hpk g hinc kwds hkw hk) hce'

/-- **C115.** Converting in parts: if compatible non-empty ensembles (one index each) of a row class are concatenated and the whole
converts on an increasing grid, then each part converts, and concatenating the converted parts gives exactly the converted whole.
Missing from the full claim: the sparse class (`C114_sparse_differs`), other grids, empty parts. -/
theorem C115_convert_parts_partial (k : RowKind) (e0 : Ens K) (t : List (Ens K)) (E cE : Ens K)
    (hr : ∀ y ∈ e0 :: t, Reach k y ∧ y.frozen.npdf ≠ 0 ∧ y.frozen.shape = [y.frozen.npdf])
    (hcomp : ∀ y ∈ t, Compatible e0.frozen y.frozen) (hcat : concatenateEns (e0 :: t) = .ok E)
    (f fc fp : Dict K → (String → List (Elem K)) → K → Elem K)
    (pack : Val K → List (Elem K) → Except Err (List (Elem K) × Elem K)) (hpk : KeepsLength pack) (ev : Evals K)
    (hev : ev = ⟨ensArr f, ensArr fc, ensArr fp⟩) (c : PyCls K) (arg : String)
    (hc : (c, arg) ∈ [(histPy ev, "bins"), (interpPy ev, "xvals"), (irrPy ev, "xvals"), (quantPy ev, "quants"), (packedPy pack ev, "xvals")])
    (method : Option String) (kwds : Dict K) (hkw : ArraysWf kwds) (g : List K) (hinc : g.Pairwise (· < ·)) (h2 : 2 ≤ g.length)
    (hk : Dict.get? kwds arg = some (.arr (vec g))) (hce : convertTo c E method kwds = .ok cE) :
    ∃ ces, List.Forall₂ (fun x cx => convertTo c x method kwds = .ok cx) (e0 :: t) ces ∧ concatenateEns ces = .ok cE := by
  obtain ⟨es, hes⟩ : ∃ es, es = e0 :: t := ⟨_, rfl⟩
  have hr0 : Reach k e0 := (hr e0 (by simp)).1
  -- the same without ancillary data
  have hcomp' : ∀ y ∈ es, Compatible e0.frozen y.frozen := by
    intro y hy
    rw [hes] at hy
    rcases List.mem_cons.1 hy with rfl | hy
    · exact ⟨rfl, rfl⟩
    · exact hcomp y hy
  have hr' : ∀ y ∈ es.map strip, Reach k y ∧ y.ancil = none ∧ Compatible e0.frozen y.frozen := by
    intro y hy
    obtain ⟨x, hx, rfl⟩ := List.mem_map.1 hy
    have hf := strip_facts x
    refine ⟨.setAncil none (hr x (by rw [← hes]; exact hx)).1, hf.2.1, ?_⟩
    rw [hf.1]
    exact hcomp' x hx
  obtain ⟨mo, ws, out, hs0⟩ := reach_stored hr0
  obtain ⟨outs, ho⟩ := stored_compatible hs0 (es := es) (fun y hy => (hr y (by rw [← hes]; exact hy)).1) hcomp'
  have ho' : List.Forall₂ (fun x o => Stored k x mo ws o) (es.map strip) outs := by
    rw [List.forall₂_map_left_iff]
    exact ho.imp fun x o h => stored_frozen h (setAncil_frozen x none).1 (setAncil_frozen x none).2.1 (strip_facts x).1
  have hne : es ≠ [] := by rw [hes]; simp
  have hne' : es.map strip ≠ [] := by simpa using hne
  have hE : E.frozen = frozenOf k.cls mo ws outs.flatten [outs.flatten.length] := by
    rw [← hes, concat_stored hne ho] at hcat
    obtain ⟨anc, -, hcat⟩ := bind_ok hcat
    obtain ⟨_, -, hcat⟩ := bind_ok hcat
    rw [← Except.ok.inj hcat]
  have hcat' : concatenateEns (es.map strip) = .ok ⟨rowCreate k.cls, rowCreate k.cls, E.frozen, none⟩ := by
    rw [concat_stored hne' ho', Stack.allAncil_none, hE]
    · rfl
    · obtain ⟨x, hx⟩ := List.exists_mem_of_ne_nil _ hne'
      exact ⟨x, hx, (hr' x hx).2.1⟩
  obtain ⟨E', hE'⟩ : ∃ E' : Ens K, E' = ⟨rowCreate k.cls, rowCreate k.cls, E.frozen, none⟩ := ⟨_, rfl⟩
  rw [← hE'] at hcat'
  have hEf : E'.frozen = E.frozen := by rw [hE']
  have hER : Reach k E' := .concatenate (fun x hx => (hr' x hx).1) hcat'
  have hce' : convertTo c E' method kwds = .ok cE := by rw [← hce]; exact convert_frozen ev pack c arg hc _ _ hEf method kwds
  -- sizes
  obtain ⟨ns, hns⟩ : ∃ ns, ns = es.map fun y => y.frozen.npdf := ⟨_, rfl⟩
  have hns0 : ∀ n ∈ ns, n ≠ 0 := by
    intro n hn
    rw [hns] at hn
    obtain ⟨y, hy, rfl⟩ := List.mem_map.1 hn
    exact (hr y (by rw [← hes]; exact hy)).2.1
  have hnsne : ns ≠ [] := by rw [hns]; simpa using hne
  have hsum : ns.sum = E'.frozen.npdf := by
    rw [hEf, hE, hns, ← flatten_length_stored ho]
    rfl
  have hE0 : E'.frozen.npdf ≠ 0 := by
    rw [← hsum]
    obtain ⟨n, hn⟩ := List.exists_mem_of_ne_nil _ hnsne
    have := List.le_sum_of_mem hn
    have := hns0 n hn
    omega
  obtain ⟨k', hcR⟩ := convert_reach k hER hE0 f fc fp pack hpk ev hev c arg hc method kwds hkw g hinc h2 hk hce'
  have hnc := C56_npdf ev (by rw [hev]; exact shaped_rows f fc fp) pack c arg hc E' cE (reach_shape hER) method kwds _ g.length hk
    (by simp [Val.toArr, vec]) hce'
  have hcsh : cE.frozen.shape = [cE.frozen.npdf] := by
    rw [hnc.1, hnc.2, hEf, hE]; rfl
  obtain ⟨parts, hparts, hpcat⟩ := concat_cuts hcR (C56_no_ancil c E' cE method kwds hce') hcsh ns hnsne hns0 (by rw [hnc.1, hsum])
  have hpos := parts_of_concat k e0 E' hr0 (es.map strip) hr' hcat' (by
    intro y hy
    obtain ⟨x, hx, rfl⟩ := List.mem_map.1 hy
    rw [(strip_facts x).1]
    exact (hr x (by rw [← hes]; exact hx)).2.2) [] (es.map strip) rfl
  have hcu : (es.map strip).map (fun y => y.frozen.npdf) = ns := by
    rw [hns, List.map_map]
    apply List.map_congr_left
    intro x _
    simp [(strip_facts x).1]
  simp only [List.map_nil, List.sum_nil, hcu] at hpos
  rw [List.forall₂_map_left_iff] at hpos
  refine ⟨parts, ?_, hpcat⟩
  rw [← hes]
  clear hpcat hcu hsum hns0 hnsne hns hne' hne ho' ho hr' hcomp' hes
  generalize cuts 0 ns = l at hparts hpos
  clear hcat'
  induction hpos generalizing parts with
  | nil => cases hparts; exact .nil
  | @cons x p es l hx _ ih =>
    cases hparts with
    | @cons _ q _ ps h1 h2' =>
      refine .cons ?_ (ih ps h2')
      obtain ⟨e', he', hef⟩ := hx
      have := C114_convert_select_partial k hER (cutKey p) he' f fc fp pack hpk ev hev c arg hc method kwds hkw g hinc h2 hk hce'
      rw [h1] at this
      rw [← this]
      exact convert_frozen ev pack c arg hc _ _ (by rw [hef, (strip_facts x).1]) method kwds

/-- three histograms and the same three again, concatenated and converted, against converted and concatenated -/
example : (∀ y ∈ [histEns none, histEns none], Reach .hist y ∧ y.frozen.npdf ≠ 0 ∧ y.frozen.shape = [y.frozen.npdf]) ∧
    Compatible (histEns none).frozen (histEns none).frozen ∧
    (concatenateEns [histEns none, histEns none] >>= fun E => convertTo (histPy exEv) E none [("bins", qarr [3] [0, 1/2, 2])]).map
      (fun e => e.frozen.objdata) = .ok [("pdfs", qarr [6, 2] [1/5, 3/5, 1/2, 1/2, 0, 2/3, 1/5, 3/5, 1/2, 1/2, 0, 2/3])] ∧
    (convertTo (histPy exEv) (histEns none) none [("bins", qarr [3] [0, 1/2, 2])] >>= fun ce => concatenateEns [ce, ce]).map
      (fun e => e.frozen.objdata) = .ok [("pdfs", qarr [6, 2] [1/5, 3/5, 1/2, 1/2, 0, 2/3, 1/5, 3/5, 1/2, 1/2, 0, 2/3])] := by
  refine ⟨?_, ⟨rfl, rfl⟩, by decide +kernel, by decide +kernel⟩
  intro y hy
  simp only [List.mem_cons, List.not_mem_nil, or_false, or_self] at hy
  rw [hy]
  exact ⟨histReach none rfl, by decide +kernel, rfl⟩

end Verif.Props.ConvertParts
