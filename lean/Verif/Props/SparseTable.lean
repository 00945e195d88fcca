import Verif.Model.SparseTable
import Verif.Spec.SparseTable
import Verif.Props.SparsePdf

/-!
# C144: which tables of sparse codes can be used, and what they mean
-/

set_option linter.unusedSectionVars false
set_option autoImplicit false

namespace Verif.Props.SparseTable

open Verif Verif.Np Verif.Model Verif.Spec Verif.Props.SparsePdf

variable {K : Type} [Field K] [LinearOrder K] [IsStrictOrderedRing K]

theorem decode_nil : decodeRow (K := K) [] = ([], []) := rfl

theorem decode_cons (c : ℤ) (rest : List ℤ) :
    decodeRow (K := K) (c :: rest) = ((c :: rest).map (fun d => d % 65536), 1 :: rest.map codeWeight) := by
  unfold decodeRow
  simp only [List.map_cons, List.set_cons_zero, List.map_map]
  congr 1
  · simp [Sparse.getN_eq, Function.comp_def]
  · congr 1
    refine List.map_congr_left fun d _ => ?_
    simp only [Function.comp, Sparse.getN_eq, codeWeight, nCoef]
    norm_num
    ring

theorem mapM_ok_iff {α β : Type} (f : α → Except Err β) (g : α → β) (p : α → Prop) [DecidablePred p] (e : Err)
    (h : ∀ a, f a = if p a then .ok (g a) else .error e) : ∀ l : List α,
    l.mapM f = if ∀ a ∈ l, p a then .ok (l.map g) else .error e := by
  intro l
  induction l with
  | nil => simp [pure, Except.pure]
  | cons a l ih =>
    rw [List.mapM_cons, ih, h a]
    by_cases ha : p a
    · by_cases hl : ∀ b ∈ l, p b
      · rw [if_pos ha, if_pos hl, if_pos (by simpa using ⟨ha, hl⟩)]; rfl
      · rw [if_pos ha, if_neg hl, if_neg (by intro hh; exact hl fun b hb => hh b (List.mem_cons_of_mem _ hb))]; rfl
    · rw [if_neg ha, if_neg (c := ∀ b ∈ a :: l, p b) (by intro hh; exact ha (hh a List.mem_cons_self))]; rfl

theorem pick_eq (A : List (List K)) (idx : List ℤ) :
    pickColumns A idx = if ∀ i ∈ idx, i.toNat < A.length then .ok (idx.map fun i => A.getD i.toNat []) else .error .IndexError := by
  refine mapM_ok_iff _ _ _ _ (fun i => ?_) idx
  unfold getColumn
  by_cases h : i.toNat < A.length
  · rw [if_pos h, List.getElem?_eq_getElem h, List.getD_eq_getElem _ _ h]
  · rw [if_neg h, List.getElem?_eq_none (by omega)]

theorem foldl_get (n : ℕ) : ∀ (l : List (List K × K)) (acc : List K), acc.length = n → (∀ p ∈ l, p.1.length = n) →
    l.foldl (fun acc p => List.zipWith (fun a b => a + p.2 * b) acc p.1) acc =
      (List.range n).map fun j => acc.getD j 0 + (l.map fun p => p.2 * p.1.getD j 0).sum := by
  intro l
  induction l with
  | nil =>
    intro acc h _
    simp only [List.foldl_nil, List.map_nil, List.sum_nil, add_zero]
    subst h
    refine List.ext_getElem (by simp) fun i h1 h2 => ?_
    simp [h1]
  | cons p l ih =>
    intro acc h hl
    have hp := hl p List.mem_cons_self
    rw [List.foldl_cons, ih _ (by simp [h, hp]) (fun q hq => hl q (List.mem_cons_of_mem _ hq))]
    refine List.map_congr_left fun j hj => ?_
    rw [List.mem_range] at hj
    rw [List.getD_eq_getElem _ _ (by simp [h, hp, hj]), List.getElem_zipWith, List.getD_eq_getElem acc _ (by omega), List.map_cons, List.sum_cons,
      List.getD_eq_getElem p.1 _ (by omega)]
    ring

theorem ordinates_eq (A : List (List K)) (x : List K) (hA : ∀ c ∈ A, c.length = x.length) (row : List ℤ) :
    sparseOrdinates A x row =
      if ∀ c ∈ row, codeColumn c < A.length then .ok (trapzNorm x ((List.range x.length).map (blend A row))) else .error .IndexError := by
  unfold sparseOrdinates
  cases row with
  | nil =>
    rw [decode_nil]
    simp only [pick_eq]
    simp only [List.not_mem_nil, false_implies, implies_true, if_true, List.map_nil, bind, Except.bind]
    congr 2
    unfold weightedSum
    rw [List.zip_nil_left, foldl_get x.length _ _ (by simp) (by simp)]
    refine List.map_congr_left fun j hj => ?_
    rw [List.mem_range] at hj
    rw [List.getD_eq_getElem _ _ (by simpa using hj)]
    simp [blend]
  | cons c rest =>
    rw [decode_cons]
    simp only [pick_eq]
    have hiff : (∀ i ∈ (c :: rest).map (fun d => d % 65536), i.toNat < A.length) ↔ ∀ d ∈ c :: rest, codeColumn d < A.length := by
      simp [codeColumn]
    by_cases h : ∀ d ∈ c :: rest, codeColumn d < A.length
    · rw [if_pos h, if_pos (hiff.2 h)]
      simp only [bind, Except.bind]
      congr 2
      unfold weightedSum
      rw [foldl_get x.length _ _ (by simp)]
      · refine List.map_congr_left fun j hj => ?_
        rw [List.mem_range] at hj
        rw [List.getD_eq_getElem _ _ (by simpa using hj)]
        simp only [List.getElem_replicate, zero_add, List.map_cons, List.zip_cons_cons, List.sum_cons, one_mul, blend, entry, codeColumn]
        congr 2
        rw [List.map_map, List.zip_map', List.map_map]
        rfl
      · intro p hp
        have := (List.of_mem_zip hp).1
        simp only [List.mem_map] at this
        obtain ⟨i, ⟨d, hd, rfl⟩, he⟩ := this
        rw [← he]
        have hlt := h d hd
        unfold codeColumn at hlt
        rw [List.getD_eq_getElem _ _ hlt]
        exact hA _ (List.getElem_mem _)
    · rw [if_neg h, if_neg (fun hh => h (hiff.1 hh))]
      rfl

/-- **C144: which tables are accepted, and what they are.** For a dictionary of columns over the grid and a table with at least one row and one
column, the ensemble is created exactly if every code of every row names a column of the dictionary, and then each PDF has the mixture described by
its own codes, normalised (`nan` if its integral is zero). A single code outside the dictionary is an `IndexError`, whatever the other rows are. -/
theorem C144_accepts (A : List (List K)) (x : List K) (hA : ∀ c ∈ A, c.length = x.length) (rows : List (List ℤ)) (k : ℕ) (hn : rows ≠ []) (hk : 0 < k)
    (hr : ∀ r ∈ rows, r.length = k) :
    ((∀ r ∈ rows, ∀ c ∈ r, codeColumn c < A.length) →
      sparseTable A x (.table rows) = .ok (rows.map fun r => trapzNorm x ((List.range x.length).map (blend A r)))) ∧
    (∀ r ∈ rows, ∀ c ∈ r, A.length ≤ codeColumn c → sparseTable A x (.table rows) = .error .IndexError) := by
  have key : sparseTable A x (.table rows) = if ∀ r ∈ rows, ∀ c ∈ r, codeColumn c < A.length
      then .ok (rows.map fun r => trapzNorm x ((List.range x.length).map (blend A r))) else .error .IndexError := by
    cases rows with
    | nil => exact absurd rfl hn
    | cons r rs =>
      have : r ≠ [] := by
        intro h
        have := hr r List.mem_cons_self
        rw [h] at this
        simp at this; omega
      simp only [sparseTable, if_neg this]
      exact mapM_ok_iff _ _ _ _ (ordinates_eq A x hA) _
  refine ⟨fun h => by rw [key, if_pos h], fun r hr' c hc hle => ?_⟩
  rw [key, if_neg]
  intro h
  have := h r hr' c hc
  omega

example : sparseTable (K := ℚ) [[1, 1], [0, 2]] [0, 1] (.table [[0, 65536 * 16000 + 1], [1, 0]]) = .ok [some [2 / 3, 4 / 3], some [0, 2]] ∧
    sparseTable (K := ℚ) [[1, 1], [0, 2]] [0, 1] (.table [[0, 65536 * 16000 + 1], [1, 2]]) = .error .IndexError := by decide +kernel

/-- **C144: the dictionary of the class.** With the dictionary made from `n_mu` means, `n_sig` widths and `n_v` shapes, a table is accepted exactly if the
remainder modulo `2^16` of each code is below `n_mu * n_sig * n_v`. -/
theorem C144_dimensions [FloorRing K] (zero : List K) (col : K → K → K → List K) (means sigs gammas x : List K) (hcol : ∀ m s g : K, (col m s g).length = x.length)
    (rows : List (List ℤ)) (k : ℕ) (hn : rows ≠ []) (hk : 0 < k) (hr : ∀ r ∈ rows, r.length = k) :
    (∃ ys, sparseTable (voigtBasis zero col means sigs gammas) x (.table rows) = .ok ys) ↔
      ∀ r ∈ rows, ∀ c ∈ r, c % 65536 < means.length * sigs.length * gammas.length := by
  have hlen := (Sparse.C29_index_addresses_column zero col means sigs gammas 0).1
  have hA : ∀ c ∈ voigtBasis zero col means sigs gammas, c.length = x.length := by
    intro c hc
    obtain ⟨b, hb, rfl⟩ := List.getElem_of_mem hc
    obtain ⟨m, s, g, -, e⟩ := (Sparse.C29_index_addresses_column zero col means sigs gammas b).2.1 (by omega)
    rw [List.getElem?_eq_getElem hb, Option.some.injEq] at e
    rw [e, hcol]
  have h := C144_accepts _ x hA rows k hn hk hr
  rw [hlen] at h
  constructor
  · rintro ⟨ys, hy⟩ r hr' c hc
    by_contra hle
    have h2 : ((means.length * sigs.length * gammas.length : ℕ) : ℤ) ≤ ((c % 65536).toNat : ℤ) := by push Not at hle; push_cast; omega
    have := h.2 r hr' c hc (by unfold codeColumn; exact_mod_cast h2)
    rw [this] at hy
    cases hy
  · intro hh
    refine ⟨_, h.1 fun r hr' c hc => ?_⟩
    have := hh r hr' c hc
    unfold codeColumn
    have h2 : ((c % 65536).toNat : ℤ) < ((means.length * sigs.length * gammas.length : ℕ) : ℤ) := by push_cast; omega
    exact_mod_cast h2

/-- **C144: arrays of another shape.** A table without rows or without columns, a list of codes, and a single code cannot be used. -/
theorem C144_shapes (A : List (List K)) (x : List K) (c : ℤ) (cs : List ℤ) (n : ℕ) :
    sparseTable A x (.single c) = .error .TypeError ∧ sparseTable A x (.flat cs) = .error .IndexError ∧
      sparseTable A x (.table []) = .error .IndexError ∧ sparseTable A x (.table (List.replicate (n + 1) [])) = .error .IndexError :=
  ⟨rfl, rfl, rfl, rfl⟩

/-- **C144: large dictionaries.** A dictionary of `2^16` or more columns accepts every table, and the columns from `2^16` on are never used. -/
theorem C144_large (A : List (List K)) (x : List K) (hA : ∀ c ∈ A, c.length = x.length) (hl : 65536 ≤ A.length) (rows : List (List ℤ)) (k : ℕ)
    (hn : rows ≠ []) (hk : 0 < k) (hr : ∀ r ∈ rows, r.length = k) :
    (∃ ys, sparseTable A x (.table rows) = .ok ys) ∧ sparseTable A x (.table rows) = sparseTable (A.take 65536) x (.table rows) := by
  have hc : ∀ c : ℤ, codeColumn c < 65536 := by intro c; unfold codeColumn; omega
  have h1 := (C144_accepts A x hA rows k hn hk hr).1 fun r _ c _ => lt_of_lt_of_le (hc c) hl
  have h2 := (C144_accepts (A.take 65536) x (fun c h => hA c (List.mem_of_mem_take h)) rows k hn hk hr).1
    fun r _ c _ => by rw [List.length_take]; exact lt_of_lt_of_le (hc c) (by omega)
  refine ⟨⟨_, h1⟩, ?_⟩
  rw [h1, h2]
  congr 1
  refine List.map_congr_left fun r _ => ?_
  congr 2
  funext j
  have he : ∀ d : ℤ, entry (A.take 65536) (codeColumn d) j = entry A (codeColumn d) j := by
    intro d
    unfold entry
    congr 1
    simp [hc d]
  cases r with
  | nil => rfl
  | cons c rest => simp only [blend, he]

theorem blend_congr (A : List (List K)) (x : List K) (hA : ∀ c ∈ A, c.length = x.length) (r r' : List ℤ) (hb : ∀ j : ℕ, blend A r j = blend A r' j)
    (hi : (∀ c ∈ r, codeColumn c < A.length) ↔ ∀ c ∈ r', codeColumn c < A.length) : sparseOrdinates A x r = sparseOrdinates A x r' := by
  rw [ordinates_eq A x hA, ordinates_eq A x hA, show blend A r = blend A r' from funext hb]
  by_cases h : ∀ c ∈ r, codeColumn c < A.length
  · rw [if_pos h, if_pos (hi.1 h)]
  · rw [if_neg h, if_neg fun hh => h (hi.2 hh)]

/-- the ensemble of one row -/
theorem single_row (A : List (List K)) (x : List K) (r r' : List ℤ) (h : r ≠ []) (h' : r' ≠ []) (he : sparseOrdinates A x r = sparseOrdinates A x r') (u v : List (List ℤ))
    (hu : ∀ q ∈ u, q ≠ []) : sparseTable A x (.table (u ++ r :: v)) = sparseTable A x (.table (u ++ r' :: v)) := by
  cases u with
  | nil => simp only [List.nil_append, sparseTable, if_neg h, if_neg h', List.mapM_cons, he]
  | cons q u =>
    have hq := hu q List.mem_cons_self
    simp only [List.cons_append, sparseTable, if_neg hq, List.mapM_cons, List.mapM_append, he]

/-- **C144: the weight in the first code is not used.** Replacing the first code of a PDF by any code of the same column changes nothing. -/
theorem C144_first (A : List (List K)) (x : List K) (hA : ∀ c ∈ A, c.length = x.length) (c c' : ℤ) (rest : List ℤ) (h : c % 65536 = c' % 65536)
    (u v : List (List ℤ)) (hu : ∀ q ∈ u, q ≠ []) :
    sparseTable A x (.table (u ++ (c :: rest) :: v)) = sparseTable A x (.table (u ++ (c' :: rest) :: v)) := by
  have hc : codeColumn c = codeColumn c' := by unfold codeColumn; rw [h]
  refine single_row A x _ _ (by simp) (by simp) (blend_congr A x hA _ _ (fun j => ?_) ?_) u v hu
  · simp only [blend, hc]
  · simp only [List.forall_mem_cons, hc]

/-- **C144: the order of the other codes is not used.** -/
theorem C144_order (A : List (List K)) (x : List K) (hA : ∀ c ∈ A, c.length = x.length) (c : ℤ) (rest rest' : List ℤ) (h : rest.Perm rest')
    (u v : List (List ℤ)) (hu : ∀ q ∈ u, q ≠ []) :
    sparseTable A x (.table (u ++ (c :: rest) :: v)) = sparseTable A x (.table (u ++ (c :: rest') :: v)) := by
  refine single_row A x _ _ (by simp) (by simp) (blend_congr A x hA _ _ (fun j => ?_) ?_) u v hu
  · simp only [blend]
    rw [(h.map _).sum_eq]
  · simp only [List.forall_mem_cons, h.mem_iff]

/-- the order of the first code is used: exchanging it with another gives another PDF -/
theorem C144_order_first : ∃ (A : List (List ℚ)) (x : List ℚ) (c d : ℤ),
    (∀ a ∈ A, a.length = x.length) ∧ codeColumn c < A.length ∧ codeColumn d < A.length ∧
      sparseTable A x (.table [[c, d]]) ≠ sparseTable A x (.table [[d, c]]) :=
  ⟨[[1, 1], [0, 2]], [0, 1], 65536 * 32000, 65536 * 16000 + 1, by decide +kernel⟩

/-- **C144: repeated columns add up.** Two codes (not the first) of one column with weights `m` and `n` steps are the same as one code with weight
`m + n` and one unused slot. -/
theorem C144_repeated (A : List (List K)) (x : List K) (hA : ∀ c ∈ A, c.length = x.length) (c : ℤ) (m n b : ℤ) (hb : 0 ≤ b ∧ b < 65536) (rest : List ℤ)
    (h0 : A ≠ []) (u v : List (List ℤ)) (hu : ∀ q ∈ u, q ≠ []) :
    sparseTable A x (.table (u ++ (c :: (65536 * m + b) :: (65536 * n + b) :: rest) :: v)) =
      sparseTable A x (.table (u ++ (c :: (65536 * (m + n) + b) :: 0 :: rest) :: v)) := by
  have hq : ∀ k : ℤ, (65536 * k + b) / 65536 = k := by intro k; omega
  have hm : ∀ k : ℤ, (65536 * k + b) % 65536 = b := by intro k; omega
  have hc : ∀ k : ℤ, codeColumn (65536 * k + b) = b.toNat := by intro k; unfold codeColumn; rw [hm]
  have hA0 : codeColumn 0 < A.length := by
    have := List.length_pos_of_ne_nil h0
    simpa [codeColumn] using this
  refine single_row A x _ _ (by simp) (by simp) (blend_congr A x hA _ _ (fun j => ?_) ?_) u v hu
  · simp only [blend, List.map_cons, List.sum_cons, hc, codeWeight, hq]
    push_cast
    simp
    ring
  · simp only [List.forall_mem_cons, hc]
    tauto

example : sparseTable (K := ℚ) [[1, 1], [0, 2]] [0, 1] (.table [[0, 65536 * 100 + 1, 65536 * 300 + 1]]) =
    sparseTable [[1, 1], [0, 2]] [0, 1] (.table [[0, 65536 * 400 + 1, 0]]) :=
  C144_repeated _ _ (by decide) 0 100 300 1 (by decide) [] (by decide) [] [] (by simp)

/-- **C144: negative codes.** A code and the code plus `2^32` (the same pattern read as a signed or as an unsigned 32-bit number) name the same column,
but different weights: they differ by `65536/32000`. -/
theorem C144_signed (b c : ℤ) : (decodeRow (K := K) [b, c + 2 ^ 32]).1 = (decodeRow (K := K) [b, c]).1 ∧
    ∃ w : K, (decodeRow [b, c]).2 = [1, w] ∧ (decodeRow [b, c + 2 ^ 32]).2 = [1, w + 65536 / 32000] := by
  rw [decode_cons, decode_cons]
  refine ⟨by simp only [List.map_cons, List.map_nil]; congr 2; omega, codeWeight c, rfl, ?_⟩
  simp only [List.map_cons, List.map_nil, codeWeight]
  rw [show (c + 2 ^ 32) / 65536 = c / 65536 + 65536 by omega]
  push_cast
  congr 2
  ring

end Verif.Props.SparseTable
