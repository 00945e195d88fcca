import Verif.Model.Sparse
import Mathlib.Tactic.Linarith
import Mathlib.Algebra.Order.Ring.Rat
import Mathlib.Data.Rat.Floor
import Mathlib.Data.List.Nodup

/-!
# C30: the sparse encoding of one PDF and the dictionary shared between the rows
-/

set_option linter.unusedSectionVars false
set_option autoImplicit false

namespace Verif.Props.SparseSearch

open Verif Verif.Np Verif.Model

variable {K : Type} [Field K] [LinearOrder K]

theorem swapAt_length {α : Type} (l : List α) (i j : ℕ) : (swapAt l i j).length = l.length := by
  unfold swapAt; split <;> simp

theorem swapAt_get {α : Type} (l : List α) (i j p : ℕ) (hi : i < l.length) (hj : j < l.length) :
    (swapAt l i j)[p]? = if p = j then l[i]? else if p = i then l[j]? else l[p]? := by
  unfold swapAt
  rw [List.getElem?_eq_getElem hi, List.getElem?_eq_getElem hj]
  simp only
  by_cases h1 : p = j
  · subst h1; rw [List.getElem?_set_self (by simpa using hj), if_pos rfl]
  · rw [List.getElem?_set_ne (Ne.symm h1), if_neg h1]
    by_cases h2 : p = i
    · subst h2; rw [List.getElem?_set_self hi, if_pos rfl]
    · rw [List.getElem?_set_ne (Ne.symm h2), if_neg h2]

theorem argmax_lt : ∀ (l : List K) (j : ℕ), Np.argmax l = some j → j < l.length := by
  intro l
  induction l with
  | nil => intro j h; simp [Np.argmax] at h
  | cons a t ih =>
    intro j h
    unfold Np.argmax at h
    cases ht : Np.argmax t with
    | none => rw [ht] at h; simp at h; subst h; simp
    | some k =>
      rw [ht] at h
      have hk := ih k ht
      simp only [List.getElem?_eq_getElem hk] at h
      split at h
      · simp at h; subst h; simp; omega
      · simp at h; subst h; simp

/-- what the search keeps true: column `p` is the original column `idxs[p]`, the indices are distinct, and a position
from `a` on still holds its own column unless that column has been selected. -/
structure Inv (orig : List (List K)) (a : ℕ) (st : SearchState K) : Prop where
  clen : st.cols.length = orig.length
  ilen : st.idxs.length = orig.length
  cols : ∀ (p k : ℕ), st.idxs[p]? = some k → st.cols[p]? = orig[k]?
  dist : st.idxs.Nodup
  bound : ∀ (p k : ℕ), st.idxs[p]? = some k → k < orig.length
  rest : ∀ (p : ℕ), a ≤ p → p < orig.length → st.idxs[p]? = some p ∨ ∃ j, j < a ∧ st.idxs[j]? = some p

theorem inv_swap (orig : List (List K)) (a lam : ℕ) (st st' : SearchState K) (h : Inv orig a st)
    (hlam : lam < orig.length) (ha : a ≤ lam) (hc : st'.cols = swapAt st.cols a lam) (hi : st'.idxs = swapAt st.idxs a lam) :
    Inv orig (a + 1) st' := by
  have hal : a < orig.length := by omega
  have gi : ∀ p, st'.idxs[p]? = if p = lam then st.idxs[a]? else if p = a then st.idxs[lam]? else st.idxs[p]? := by
    intro p; rw [hi]; exact swapAt_get _ _ _ _ (by rw [h.ilen]; omega) (by rw [h.ilen]; omega)
  have gc : ∀ p, st'.cols[p]? = if p = lam then st.cols[a]? else if p = a then st.cols[lam]? else st.cols[p]? := by
    intro p; rw [hc]; exact swapAt_get _ _ _ _ (by rw [h.clen]; omega) (by rw [h.clen]; omega)
  refine ⟨by rw [hc, swapAt_length, h.clen], by rw [hi, swapAt_length, h.ilen], ?_, ?_, ?_, ?_⟩
  · intro p k hk
    rw [gi] at hk; rw [gc]
    split_ifs at hk ⊢ <;> exact h.cols _ _ hk
  · -- nodup
    rw [List.nodup_iff_getElem?_ne_getElem?]
    intro p q hpq hq heq
    have hlen : st'.idxs.length = st.idxs.length := by rw [hi, swapAt_length]
    have inj : ∀ x y, x < st.idxs.length → y < st.idxs.length → st.idxs[x]? = st.idxs[y]? → x = y := by
      intro x y hx hy hxy
      by_contra hne
      rcases Nat.lt_or_gt_of_ne hne with hlt | hlt
      · exact (List.nodup_iff_getElem?_ne_getElem?.1 h.dist) x y hlt hy hxy
      · exact (List.nodup_iff_getElem?_ne_getElem?.1 h.dist) y x hlt hx hxy.symm
    rw [gi, gi] at heq
    rw [hlen] at hq
    have hil := h.ilen
    split_ifs at heq <;> (have := inj _ _ (by omega) (by omega) heq; omega)
  · intro p k hk
    rw [gi] at hk
    split_ifs at hk <;> exact h.bound _ _ hk
  · intro p hap hp
    rcases h.rest p (by omega) hp with hself | ⟨j, hj, hjp⟩
    · by_cases hpl : p = lam
      · right
        refine ⟨a, by omega, ?_⟩
        rw [gi]
        subst hpl
        by_cases hla : a = p
        · omega
        · rw [if_neg hla, if_pos rfl]; exact hself
      · left
        rw [gi, if_neg hpl, if_neg (by omega)]; exact hself
    · right
      refine ⟨j, by omega, ?_⟩
      rw [gi, if_neg (by omega), if_neg (by omega)]; exact hjp

theorem finish_inv {orig : List (List K)} {a n : ℕ} {st : SearchState K} (_ : Inv orig a st) (_ : a ≤ n)
    {dind : List ℕ} {dval : List K} {cols : List (List K)} (hf : searchFinish n st = .ok (dind, dval, cols)) :
    cols = st.cols ∧ dind = st.idxs.take n := by
  unfold searchFinish at hf
  split at hf
  · simp at hf
  · split at hf
    · simp only [Except.ok.injEq, Prod.mk.injEq] at hf
      exact ⟨hf.2.2.symm, hf.1.symm⟩
    · simp at hf

private theorem go_spec (ops : SearchOps K) (q : List K) (tol : K) (orig : List (List K)) : ∀ (fuel a : ℕ) (st : SearchState K),
    Inv orig a st → ∀ dind dval cols, searchGo ops q tol fuel a st = .ok (dind, dval, cols) →
    ∃ n a' st', Inv orig a' st' ∧ a' ≤ n ∧ cols = st'.cols ∧ dind = st'.idxs.take n := by
  intro fuel
  induction fuel with
  | zero =>
    intro a st h dind dval cols hr
    exact ⟨a, a, st, h, le_rfl, finish_inv h le_rfl hr⟩
  | succ fuel ih =>
    intro a st h dind dval cols hr
    unfold searchGo at hr
    split at hr
    · simp at hr
    next lam hlam =>
    have hl : lam < orig.length := by have := argmax_lt _ _ hlam; simpa [h.clen] using this
    split at hr
    · exact ⟨a, a, st, h, le_rfl, finish_inv h le_rfl hr⟩
    next hbr =>
    have hal : a ≤ lam := by by_contra hc; exact hbr (Or.inl (by omega))
    split at hr
    · exact ⟨a + 1, a, st, h, by omega, finish_inv h (by omega) hr⟩
    simp only at hr
    have hinv := fun st' hc hi => inv_swap orig a lam st st' h hl hal hc hi
    split at hr
    · exact ⟨a + 1, a + 1, _, hinv _ rfl rfl, le_rfl, finish_inv (hinv _ rfl rfl) le_rfl hr⟩
    · exact ih _ _ (hinv _ rfl rfl) _ _ _ hr

private theorem swapBack_get {γ : Type} (dind : List ℕ) : ∀ (vals acc : List γ), dind.Nodup → dind.length ≤ vals.length →
    (∀ d ∈ dind, d < acc.length) →
    ∀ p : ℕ, (∀ j : ℕ, dind[j]? = some p → ((dind.zip vals).foldl (fun acc p => acc.set p.1 p.2) acc)[p]? = vals[j]?) ∧
      (p ∉ dind → ((dind.zip vals).foldl (fun acc p => acc.set p.1 p.2) acc)[p]? = acc[p]?) := by
  induction dind with
  | nil => intro vals acc _ _ _ p; simp
  | cons d t ih =>
    intro vals acc hnd hlen hb p
    cases vals with
    | nil => simp at hlen
    | cons v vs =>
      simp only [List.zip_cons_cons, List.foldl_cons]
      have hnd' := List.nodup_cons.1 hnd
      obtain ⟨h1, h2⟩ := ih vs (acc.set d v) hnd'.2 (by simpa using hlen) (by intro x hx; simpa using hb x (by simp [hx])) p
      constructor
      · intro j hj
        cases j with
        | zero =>
          simp at hj; subst hj
          rw [h2 hnd'.1, List.getElem?_set_self (hb d (by simp))]; simp
        | succ j => simpa using h1 j (by simpa using hj)
      · intro hp
        rw [List.mem_cons, not_or] at hp
        rw [h2 hp.2, List.getElem?_set_ne (Ne.symm hp.1)]

/-- **C30, exact state.** After a PDF has been encoded with the basis indices `dind`, the shared dictionary has at every position its
original column, except at the positions below `len(dind)` that were not selected: position `p` of those now holds the
column selected `p`-th, and its own column is gone. -/
theorem C30_dictionary_after_row (ops : SearchOps K) (nSparse : ℕ) (tol : K) (dict : List (List K)) (pdf : List K)
    (dind : List ℕ) (dval : List K) (cols : List (List K))
    (h : sparseBasis ops dict pdf nSparse tol = .ok (dind, dval, cols)) :
    dind.Nodup ∧ (∀ d ∈ dind, d < dict.length) ∧ (swapBack cols dind).length = dict.length ∧
    ∀ p : ℕ, (swapBack cols dind)[p]? =
      if p ∉ dind then (match dind[p]? with | some k => dict[k]? | none => dict[p]?) else dict[p]? := by
  unfold sparseBasis at h
  split at h
  · simp at h
  have hinit : Inv dict 0 ⟨dict, dict.map fun c => dot c pdf, List.range dict.length, pdf, none⟩ := by
    have hr : ∀ (p k : ℕ), (List.range dict.length)[p]? = some k → p = k ∧ k < dict.length := by
      intro p k hk
      obtain ⟨h1, h2⟩ := List.getElem?_eq_some_iff.1 hk
      simp at h1 h2; omega
    refine ⟨rfl, by simp, ?_, List.nodup_range, ?_, ?_⟩
    · intro p k hk; rw [(hr p k hk).1]
    · intro p k hk; exact (hr p k hk).2
    · intro p _ hp; left; simp [hp]
  obtain ⟨n, a, st, hinv, han, rfl, rfl⟩ := go_spec ops pdf tol dict _ _ _ hinit _ _ _ h
  have hnd : (st.idxs.take n).Nodup := hinv.dist.sublist (List.take_sublist _ _)
  have hb : ∀ d ∈ st.idxs.take n, d < dict.length := by
    intro d hd
    obtain ⟨i, hi⟩ := List.getElem?_of_mem (List.mem_of_mem_take hd)
    exact hinv.bound i d hi
  have hlen : (st.idxs.take n).length ≤ st.cols.length := by rw [hinv.clen, ← hinv.ilen]; simp
  have hsl : (swapBack st.cols (st.idxs.take n)).length = dict.length := by
    rw [← hinv.clen]
    unfold swapBack
    have : ∀ (l : List (ℕ × List K)) (acc : List (List K)), (l.foldl (fun acc p => acc.set p.1 p.2) acc).length = acc.length := by
      intro l
      induction l with
      | nil => intro acc; rfl
      | cons x t ih => intro acc; rw [List.foldl_cons, ih]; simp
    exact this _ _
  refine ⟨hnd, hb, hsl, ?_⟩
  intro p
  obtain ⟨h1, h2⟩ := swapBack_get (st.idxs.take n) st.cols st.cols hnd hlen (fun d hd => by rw [hinv.clen]; exact hb d hd) p
  by_cases hp : p ∈ st.idxs.take n
  · rw [if_neg (not_not.2 hp)]
    obtain ⟨j, hj⟩ := List.getElem?_of_mem hp
    rw [show (swapBack st.cols (st.idxs.take n))[p]? = st.cols[j]? from h1 j hj]
    have hjn : st.idxs[j]? = some p := by
      have := hj
      rw [List.getElem?_take] at this
      split at this
      · exact this
      · simp at this
    exact hinv.cols j p hjn
  · rw [if_pos hp]
    rw [show (swapBack st.cols (st.idxs.take n))[p]? = st.cols[p]? from h2 hp]
    by_cases hpl : p < dict.length
    · have hpi : p < st.idxs.length := by rw [hinv.ilen]; exact hpl
      by_cases hpn : p < n
      · rw [List.getElem?_take, if_pos hpn, List.getElem?_eq_getElem hpi]
        exact hinv.cols p _ (List.getElem?_eq_getElem hpi)
      · rw [List.getElem?_take, if_neg hpn]
        rcases hinv.rest p (by omega) hpl with hs | ⟨j, hj, hjp⟩
        · exact hinv.cols p p hs
        · exfalso; apply hp
          rw [List.mem_iff_getElem?]
          exact ⟨j, by rw [List.getElem?_take, if_pos (by omega)]; exact hjp⟩
    · have h3 : st.cols[p]? = none := List.getElem?_eq_none (by rw [hinv.clen]; omega)
      have h4 : (st.idxs.take n)[p]? = none := List.getElem?_eq_none (by rw [List.length_take, hinv.ilen]; omega)
      rw [h3, h4, List.getElem?_eq_none (by omega)]

variable [IsStrictOrderedRing K] [FloorRing K]

/-- the indices selected for a PDF are, as a set, the first `len` positions of the dictionary -/
def SelectsPrefix (ops : SearchOps K) (nSparse : ℕ) (tol : K) (dict : List (List K)) (pdf : List K) : Prop :=
  ∀ dind dval cols, sparseBasis ops dict pdf nSparse tol = .ok (dind, dval, cols) → ∀ p < dind.length, p ∈ dind

private theorem step_dict (ops : SearchOps K) (nSparse : ℕ) (tol : K) (dict : List (List K)) (pdf : List K)
    (hs : SelectsPrefix ops nSparse tol dict pdf) (row : List ℤ) (dict' : List (List K))
    (h : encodeStep ops nSparse tol dict pdf = .ok (row, dict')) : dict' = dict := by
  unfold encodeStep at h
  cases hb : sparseBasis ops dict pdf nSparse tol with
  | error e => rw [hb] at h; simp [bind, Except.bind] at h
  | ok r =>
    obtain ⟨dind, dval, cols⟩ := r
    rw [hb] at h
    simp only [bind, Except.bind] at h
    obtain ⟨_, _, hlen, hget⟩ := C30_dictionary_after_row ops nSparse tol dict pdf dind dval cols hb
    have hpre := hs dind dval cols hb
    have key : swapBack cols dind = dict := by
      apply List.ext_getElem?
      intro p
      rw [hget p]
      split_ifs with hp
      · rfl
      · have : dind[p]? = none := by
          rw [List.getElem?_eq_none_iff]
          by_contra hc
          exact hp (hpre p (by omega))
        rw [this]
    split at h
    next hl0 =>
      simp only [Except.ok.injEq, Prod.mk.injEq] at h
      have : dind = [] := List.length_eq_zero_iff.1 (by omega)
      subst this
      rw [← h.2]
      simpa [swapBack] using key
    next =>
      cases hc : coefIndex dind.length dval with
      | error e => rw [hc] at h; simp at h
      | ok idx =>
        rw [hc] at h
        simp only [Except.ok.injEq, Prod.mk.injEq] at h
        rw [← h.2]; exact key

/-- **C30 (partial).** If each PDF of the batch selects, in some order, exactly the first columns of the dictionary, then the encoding of
every row is the encoding of that row alone. Missing: all other batches; there the dictionary is left changed
(`C30_dictionary_after_row`) and later rows can be encoded differently (`C30_neighbour_changes_encoding`). -/
theorem C30_independent_partial (ops : SearchOps K) (nSparse : ℕ) (tol : K) (dict : List (List K)) (pdfs : List (List K))
    (hs : ∀ p ∈ pdfs, SelectsPrefix ops nSparse tol dict p) (rows : List (List ℤ))
    (h : encodeAll ops nSparse tol dict pdfs = .ok rows) :
    rows.length = pdfs.length ∧ ∀ (k : ℕ) p r, pdfs[k]? = some p → rows[k]? = some r → encodeAll ops nSparse tol dict [p] = .ok [r] := by
  induction pdfs generalizing rows with
  | nil => simp [encodeAll] at h; subst h; simp
  | cons q rest ih =>
    unfold encodeAll at h
    cases hq : encodeStep ops nSparse tol dict q with
    | error e => rw [hq] at h; simp [bind, Except.bind] at h
    | ok r =>
      obtain ⟨row, dict'⟩ := r
      rw [hq] at h
      have hd := step_dict ops nSparse tol dict q (hs q (by simp)) row dict' hq
      subst hd
      simp only [bind, Except.bind] at h
      cases hr : encodeAll ops nSparse tol dict' rest with
      | error e => rw [hr] at h; simp at h
      | ok rs =>
        rw [hr] at h
        obtain rfl : row :: rs = rows := by simpa using h
        obtain ⟨i1, i2⟩ := ih (fun p hp => hs p (by simp [hp])) rs hr
        refine ⟨by simp [i1], ?_⟩
        intro k p r hp hrk
        cases k with
        | zero =>
          simp at hp hrk; subst hp; subst hrk
          unfold encodeAll
          rw [hq]; rfl
        | succ k => exact i2 k p r (by simpa using hp) (by simpa using hrk)

/-- **C30: the first row never depends on its neighbours.** -/
theorem C30_first_row (ops : SearchOps K) (nSparse : ℕ) (tol : K) (dict : List (List K)) (p : List K) (rest : List (List K))
    (rows : List (List ℤ)) (h : encodeAll ops nSparse tol dict (p :: rest) = .ok rows) :
    ∃ r t, rows = r :: t ∧ encodeAll ops nSparse tol dict [p] = .ok [r] := by
  unfold encodeAll at h
  cases hq : encodeStep ops nSparse tol dict p with
  | error e => rw [hq] at h; simp [bind, Except.bind] at h
  | ok r =>
    obtain ⟨row, dict'⟩ := r
    rw [hq] at h
    simp only [bind, Except.bind] at h
    cases hr : encodeAll ops nSparse tol dict' rest with
    | error e => rw [hr] at h; simp at h
    | ok rs =>
      rw [hr] at h
      refine ⟨row, rs, by simpa using h.symm, ?_⟩
      unfold encodeAll
      rw [hq]; rfl

/-- the search with one coefficient: the Gram matrix is 1, so the coefficient is the projection -/
def oneStep : SearchOps ℚ := ⟨fun _ alphas => alphas, fun _ _ => false, 1 / 4503599627370496⟩

/-- **C30 is violated**: with dictionary columns `e0`, `e1` and one basis function per PDF, encoding `e1` twice gives index 1 for the first
and index 0 for the second; alone, each gives index 1. Decoded with the dictionary, index 0 is `e0`. -/
theorem C30_neighbour_changes_encoding :
    encodeAll oneStep 1 (1/10000000000) [[1, 0], [0, 1]] [[0, 1], [0, 1]] =
      .ok [[combineInt 32000 1], [combineInt 32000 0]] ∧
    encodeAll oneStep 1 (1/10000000000) [[1, 0], [0, 1]] [[0, 1]] = .ok [[combineInt 32000 1]] := by
  decide +kernel

/-- A PDF that is orthogonal to the whole dictionary (for instance identically zero) makes the encoding of the whole batch fail with
`UnboundLocalError`, although the code has a branch for it. -/
theorem C30_zero_pdf_fails : encodeAll oneStep 1 (1/10000000000) [[1, 0], [0, 1]] [[0, 0]] = .error .UnboundLocalError := by
  decide +kernel

example : SelectsPrefix oneStep 1 (1/10000000000) [[1, 0], [0, 1]] [2, 0] := by
  intro dind dval cols h p hp
  have h2 : sparseBasis oneStep [[1, 0], [0, 1]] [2, 0] 1 (1/10000000000) = .ok ([0], [2], [[1, 0], [0, 1]]) := by decide +kernel
  rw [h2] at h
  simp only [Except.ok.injEq, Prod.mk.injEq] at h
  obtain ⟨rfl, _, _⟩ := h
  simp at hp; simp [hp]

end Verif.Props.SparseSearch
