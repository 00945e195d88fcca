import Verif.Model.SparsePdf
import Verif.Props.Sparse
import Verif.Props.InterpPdf
import Mathlib.Algebra.Order.Ring.Rat
import Mathlib.Data.Rat.Floor

/-!
# C83: densities of sparse PDFs
-/

set_option linter.unusedSectionVars false
set_option autoImplicit false

namespace Verif.Props.SparsePdf

open Verif Verif.Np Verif.Model Verif.Spec Verif.Props.InterpPdf

variable {K : Type} [Field K] [LinearOrder K] [IsStrictOrderedRing K]

/-- addressing columns and addressing shape parameters succeed and fail together -/
theorem pick_shapes [FloorRing K] (zero : List K) (col : K → K → K → List K) (means sigs gammas : List K) : ∀ idx : List ℤ,
    pickColumns (voigtBasis zero col means sigs gammas) idx =
      (idx.mapM fun b => indexShape means sigs gammas b.toNat).map fun sh => sh.map fun s => col s.1 s.2.1 s.2.2 := by
  intro idx
  unfold pickColumns
  induction idx with
  | nil => rfl
  | cons b idx ih =>
    rw [List.mapM_cons, List.mapM_cons, ih]
    obtain ⟨hlen, h1, h2⟩ := Sparse.C29_index_addresses_column zero col means sigs gammas b.toNat
    by_cases hb : b.toNat < means.length * sigs.length * gammas.length
    · obtain ⟨m, s, g, e1, e2⟩ := h1 hb
      rw [e1, getColumn, e2]
      simp only [bind, Except.bind]
      cases idx.mapM fun b => indexShape means sigs gammas b.toNat <;> rfl
    · rw [h2 (by omega), getColumn, List.getElem?_eq_none (by omega)]
      rfl

/-- **C83: decoding to shape parameters and decoding to a density agree**, for every dictionary, every encoded row and every cut: the density made
from the Voigt parameters of the row is the density made from the dictionary, and both fail for an index outside the dictionary. -/
theorem C83_shapes_agree [FloorRing K] (zero : List K) (col : K → K → K → List K) (means sigs gammas : List K) (cut : K) (x : List K) (row : List ℤ) :
    pdfFromSparse cut (voigtBasis zero col means sigs gammas) x row =
      (rowShapes means sigs gammas nCoef row).map fun s => shapes2pdf cut col x s.1 s.2 := by
  unfold pdfFromSparse rowShapes decodeRow shapes2pdf
  simp only [pick_shapes, bind, Except.bind]
  cases ((row.map getN).map Prod.snd).mapM fun b => indexShape means sigs gammas b.toNat <;> rfl

/-- **C83 (partial): the class and the decoding function agree** when no ordinate of the sum is lost to the cut. Missing: sums with positive ordinates
below the cut or negative ones, see `C83_negative_wrong`. -/
theorem C83_class_agrees_partial (cut : K) (A : List (List K)) (x : List K) (row : List ℤ)
    (h : ∀ cols, pickColumns A (decodeRow (K := K) row).1 = .ok cols → ∀ v ∈ weightedSum x.length cols (decodeRow row).2, cut ≤ v ∨ v = 0) :
    sparseOrdinates A x row = pdfFromSparse cut A x row := by
  unfold sparseOrdinates pdfFromSparse
  cases hc : pickColumns A (decodeRow (K := K) row).1 with
  | error e => simp only [hc, bind, Except.bind]
  | ok cols =>
    have : cutBelow cut (weightedSum x.length cols (decodeRow row).2) = weightedSum x.length cols (decodeRow row).2 := by
      unfold cutBelow
      conv_rhs => rw [← List.map_id (weightedSum x.length cols (decodeRow row).2)]
      apply List.map_congr_left
      intro v hv
      rcases h cols hc v hv with h | h
      · rw [if_pos h]; rfl
      · subst h; simp
    simp only [hc, bind, Except.bind]
    rw [this]

theorem wsum_length (n : ℕ) : ∀ (cols : List (List K)) (w acc : List K), acc.length = n → (∀ c ∈ cols, c.length = n) →
    ((cols.zip w).foldl (fun acc p => List.zipWith (fun a b => a + p.2 * b) acc p.1) acc).length = n := by
  intro cols
  induction cols with
  | nil => intro w acc h _; simpa using h
  | cons c cols ih =>
    intro w acc h hc
    cases w with
    | nil => simpa using h
    | cons w ws =>
      simp only [List.zip_cons_cons, List.foldl_cons]
      exact ih ws _ (by rw [List.length_zipWith, h, hc c (by simp)]; simp) (fun c' h' => hc c' (by simp [h']))

theorem pick_mem {A : List (List K)} : ∀ {idx : List ℤ} {cols : List (List K)}, pickColumns A idx = .ok cols → cols.length = idx.length ∧ ∀ c ∈ cols, c ∈ A := by
  intro idx
  unfold pickColumns
  induction idx with
  | nil => intro cols h; cases h; simp
  | cons i idx ih =>
    intro cols h
    rw [List.mapM_cons] at h
    cases ha : A[i.toNat]? with
    | none => rw [getColumn, ha] at h; cases h
    | some c =>
      rw [getColumn, ha] at h
      simp only [bind, Except.bind] at h
      cases hm : idx.mapM (getColumn A) with
      | error e => rw [hm] at h; cases h
      | ok cs =>
        rw [hm] at h
        cases h
        obtain ⟨h1, h2⟩ := ih hm
        refine ⟨by simp [h1], ?_⟩
        intro c' hc'
        rcases List.mem_cons.1 hc' with rfl | hc'
        · exact List.mem_of_getElem? ha
        · exact h2 c' hc'

/-- **C83: normalised.** On an increasing grid the ordinates of a sparse PDF enclose area 1, and the interpolated class they are handed to keeps
them as they are. -/
theorem C83_normalised (A : List (List K)) (x : List K) (hx : x.Pairwise (· < ·)) (h2 : 2 ≤ x.length) (hA : ∀ c ∈ A, c.length = x.length)
    (row : List ℤ) (ys : List K) (h : sparseOrdinates A x row = .ok (some ys)) :
    ys.length = x.length ∧ area x ys = 1 ∧ ∃ c, interpNormRow x ys = .ok (some (ys, c)) := by
  unfold sparseOrdinates at h
  cases hc : pickColumns A (decodeRow (K := K) row).1 with
  | error e => simp only [hc, bind, Except.bind] at h; cases h
  | ok cols =>
    simp only [hc, bind, Except.bind, Except.ok.injEq] at h
    set y := weightedSum x.length cols (decodeRow (K := K) row).2 with hy
    have hlen : y.length = x.length := wsum_length x.length cols _ _ (by simp) (fun c hcm => hA c ((pick_mem hc).2 c hcm))
    have htr : trapz x y = area x y := Lemmas.InterpPdf.sum_trapezoids x y
    unfold trapzNorm at h
    rw [htr] at h
    by_cases h0 : area x y = 0
    · rw [if_pos h0] at h; cases h
    · rw [if_neg h0] at h
      obtain ⟨ys', c, h3, h4, h5, h6⟩ := (C12_interp_normalises x y ⟨hx, hlen.symm, by omega⟩).2 h0
      have : ys' = ys := by rw [h5]; exact Option.some.inj h
      subst this
      exact ⟨by rw [h5]; simpa using hlen, h4, c, h6⟩

/-- **C83: unused slots.** Filling the row with zeros, as the encoder does, does not change the density. -/
theorem C83_padding (A : List (List K)) (x : List K) (a0 : List K) (h0 : A[0]? = some a0) (hA : ∀ c ∈ A, c.length = x.length) (i : ℤ) (row : List ℤ) (n : ℕ) :
    sparseOrdinates A x (i :: row ++ List.replicate n 0) = sparseOrdinates A x (i :: row) := by
  have hz : getN 0 = (0, 0) := by decide
  have hd1 : (decodeRow (K := K) (i :: row ++ List.replicate n 0)).1 = (decodeRow (K := K) (i :: row)).1 ++ List.replicate n 0 := by
    simp [decodeRow, hz]
  have hd2 : (decodeRow (K := K) (i :: row ++ List.replicate n 0)).2 = (decodeRow (K := K) (i :: row)).2 ++ List.replicate n 0 := by
    simp [decodeRow, hz]
  have hp : ∀ n : ℕ, pickColumns A (List.replicate n (0 : ℤ)) = .ok (List.replicate n a0) := by
    intro n
    induction n with
    | zero => rfl
    | succ n ih =>
      unfold pickColumns at ih ⊢
      rw [List.replicate_succ, List.mapM_cons, ih]
      simp [getColumn, h0, bind, Except.bind, List.replicate_succ, pure, Except.pure]
  have happ : pickColumns A ((decodeRow (K := K) (i :: row)).1 ++ List.replicate n 0) = (pickColumns A (decodeRow (K := K) (i :: row)).1).map (· ++ List.replicate n a0) := by
    have hp' := hp n
    unfold pickColumns at hp' ⊢
    rw [List.mapM_append, hp']
    cases (decodeRow (K := K) (i :: row)).1.mapM (getColumn A) <;> rfl
  unfold sparseOrdinates
  rw [show decodeRow (K := K) (i :: row ++ List.replicate n 0) = ((decodeRow (K := K) (i :: row)).1 ++ List.replicate n 0, (decodeRow (K := K) (i :: row)).2 ++ List.replicate n 0) from
    Prod.ext hd1 hd2]
  simp only [happ]
  cases hc : pickColumns A (decodeRow (K := K) (i :: row)).1 with
  | error e => rfl
  | ok cols =>
    simp only [Except.map, bind, Except.bind]
    congr 2
    have hlw : cols.length = (decodeRow (K := K) (i :: row)).2.length := by rw [(pick_mem hc).1]; simp [decodeRow]
    unfold weightedSum
    rw [List.zip_append hlw, List.foldl_append]
    have hlen := wsum_length x.length cols (decodeRow (K := K) (i :: row)).2 (List.replicate x.length 0) (by simp) (fun c hcm => hA c ((pick_mem hc).2 c hcm))
    generalize List.foldl (fun acc p => List.zipWith (fun a b => a + p.2 * b) acc p.1) (List.replicate x.length 0) (cols.zip (decodeRow (K := K) (i :: row)).2) = acc at hlen
    have ha0 : a0.length = x.length := hA a0 (List.mem_of_getElem? h0)
    have hstep : List.zipWith (fun a b => a + (0 : K) * b) acc a0 = acc := by
      have : ∀ (u v : List K), u.length = v.length → List.zipWith (fun a b => a + (0 : K) * b) u v = u := by
        intro u
        induction u with
        | nil => intro v _; simp
        | cons a u ih =>
          intro v hv
          cases v with
          | nil => simp at hv
          | cons b v => rw [List.zipWith_cons_cons, ih v (by simpa using hv), zero_mul, add_zero]
      exact this acc a0 (by rw [hlen, ha0])
    clear happ hd1 hd2 hp
    induction n with
    | zero => simp
    | succ n ih =>
      rw [List.replicate_succ, List.replicate_succ, List.zip_cons_cons, List.foldl_cons]
      simp only [hstep]
      exact ih

/-- **C83 (partial): sign.** Non-negative weights and columns give non-negative densities. Missing: the encoder also produces negative weights. -/
theorem C83_nonneg_partial (A : List (List K)) (x : List K) (hx : x.Pairwise (· < ·)) (hA : ∀ c ∈ A, ∀ v ∈ c, 0 ≤ v)
    (row : List ℤ) (hw : ∀ i ∈ row, 0 ≤ (getN i).1) (ys : List K) (h : sparseOrdinates A x row = .ok (some ys)) : ∀ v ∈ ys, 0 ≤ v := by
  unfold sparseOrdinates at h
  cases hc : pickColumns A (decodeRow (K := K) row).1 with
  | error e => simp only [hc, bind, Except.bind] at h; cases h
  | ok cols =>
    simp only [hc, bind, Except.bind, Except.ok.injEq] at h
    have hw' : ∀ w ∈ (decodeRow (K := K) row).2, 0 ≤ w := by
      intro w hwm
      unfold decodeRow at hwm
      simp only at hwm
      rcases List.mem_or_eq_of_mem_set hwm with hwm | rfl
      · obtain ⟨p, hp, rfl⟩ := List.mem_map.1 hwm
        obtain ⟨i, hi, rfl⟩ := List.mem_map.1 hp
        have : (0 : K) ≤ ((getN i).1 : K) := by exact_mod_cast hw i hi
        have hn : (0 : K) ≤ 1 / ((nCoef : K) - 1) := by norm_num [nCoef]
        exact mul_nonneg this hn
      · exact zero_le_one
    have hsum : ∀ (cols : List (List K)) (w acc : List K), (∀ c ∈ cols, ∀ v ∈ c, 0 ≤ v) → (∀ v ∈ w, 0 ≤ v) → (∀ v ∈ acc, 0 ≤ v) →
        ∀ v ∈ (cols.zip w).foldl (fun acc p => List.zipWith (fun a b => a + p.2 * b) acc p.1) acc, 0 ≤ v := by
      intro cols
      induction cols with
      | nil => intro w acc _ _ h; simpa using h
      | cons c cols ih =>
        intro w acc h1 h2 h3
        cases w with
        | nil => simpa using h3
        | cons w ws =>
          simp only [List.zip_cons_cons, List.foldl_cons]
          refine ih ws _ (fun c' hc' => h1 c' (by simp [hc'])) (fun v hv => h2 v (by simp [hv])) ?_
          intro v hv
          rw [List.mem_iff_getElem] at hv
          obtain ⟨n, hn, rfl⟩ := hv
          rw [List.getElem_zipWith]
          exact add_nonneg (h3 _ (List.getElem_mem _)) (mul_nonneg (h2 w (by simp)) (h1 c (by simp) _ (List.getElem_mem _)))
    have hy := hsum cols (decodeRow (K := K) row).2 (List.replicate x.length 0) (fun c hcm => hA c ((pick_mem hc).2 c hcm)) hw'
      (fun v hv => by rw [List.eq_of_mem_replicate hv])
    have hy' : ∀ v ∈ weightedSum x.length cols (decodeRow (K := K) row).2, 0 ≤ v := hy
    generalize weightedSum x.length cols (decodeRow (K := K) row).2 = y at h hy'
    have htr : 0 ≤ trapz x y := by
      rw [show trapz x y = area x y from Lemmas.InterpPdf.sum_trapezoids x y]
      clear h hy
      induction x generalizing y with
      | nil => simp [area]
      | cons a x ih =>
        cases x with
        | nil => simp [area]
        | cons b x =>
          match y, hy' with
          | [], _ => simp [area]
          | [_], _ => simp [area]
          | u :: v :: y, hy' =>
            simp only [area]
            have hab : a < b := (List.pairwise_cons.1 hx).1 b (by simp)
            have := ih (List.pairwise_cons.1 hx).2 (v :: y) (fun w hw => hy' w (by simp at hw ⊢; tauto))
            have hu := hy' u (by simp)
            have hv := hy' v (by simp)
            have : 0 ≤ (b - a) * (u + v) / 2 := div_nonneg (mul_nonneg (by linarith) (by linarith)) (by norm_num)
            linarith
    unfold trapzNorm at h
    split at h
    · cases h
    · cases h
      intro v hv
      obtain ⟨u, hu, rfl⟩ := List.mem_map.1 hv
      exact div_nonneg (hy' u hu) htr

/-! ## cases -/

/-- a dictionary of three columns; the row encodes column 0 with weight 1 and column 2 with coefficient -16000 (weight -1/2) -/
def basis3 : List (List ℚ) := [[4, 4, 4], [0, 1, 0], [0, 0, 2]]

/-- **C83 is violated**: a negative coefficient is kept by the class, so the density is negative somewhere, while the decoding function cuts it off. -/
theorem C83_negative_wrong :
    (sparseOrdinates basis3 [0, 1, 2] [combineInt 32000 0, combineInt (-80000) 2]).toOption = some (some [8/11, 8/11, -2/11]) ∧
    (pdfFromSparse (1/100000) basis3 [0, 1, 2] [combineInt 32000 0, combineInt (-80000) 2]).toOption = some (some [2/3, 2/3, 0]) := by
  constructor <;> decide +kernel

example : (sparseOrdinates basis3 [0, 1, 2] [combineInt 32000 0, combineInt 16000 2]).toOption = some (some [8/17, 8/17, 10/17]) := by decide +kernel
example : (sparseOrdinates basis3 [0, 1, 2] [combineInt 32000 0, combineInt 16000 2, 0, 0]).toOption = some (some [8/17, 8/17, 10/17]) := by decide +kernel

end Verif.Props.SparsePdf
