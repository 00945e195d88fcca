import Verif.Model.Mixmod
import Verif.Props.Evaluation
import Mathlib.Tactic.Linarith
import Mathlib.Tactic.Positivity
import Mathlib.Tactic.FieldSimp
import Mathlib.Algebra.Order.Ring.Rat

/-!
# C23, C24: Gaussian mixtures
-/

set_option linter.unusedSectionVars false
set_option autoImplicit false

namespace Verif.Props.Mixmod

open Verif Verif.Np Verif.Model Verif.Props.Evaluation

variable {K : Type*} [Field K] [LinearOrder K] [IsStrictOrderedRing K]

/-! ## C23 -/

private theorem sum_eq (l : List K) : Np.sum l = l.sum := rfl

private theorem sum_div (l : List K) (s : K) : (l.map (· / s)).sum = l.sum / s := by
  induction l with
  | nil => simp
  | cons a t ih => simp only [List.map_cons, List.sum_cons, ih]; rw [add_div]

private theorem sum_nonneg' (l : List K) (h : ∀ v ∈ l, 0 ≤ v) : 0 ≤ l.sum := List.sum_nonneg h

private theorem norm_zero {r : List K} (h : r.sum = 0) : mixNormRow r = none := if_pos h
private theorem norm_ne {r : List K} (h : r.sum ≠ 0) : mixNormRow r = some (r.map (· / r.sum)) := if_neg h

/-- **C23: validation.** Construction fails, with `ValueError`, exactly when some weight is negative. -/
theorem C23_rejects_negative (weights : List (List K)) :
    ((∃ r ∈ weights, ∃ w ∈ r, w < 0) → mixInit weights = .error .ValueError) ∧
    ((∀ r ∈ weights, ∀ w ∈ r, 0 ≤ w) → ∃ ws, mixInit weights = .ok ws ∧ ws.length = weights.length) := by
  constructor
  · rintro ⟨r, hr, w, hw, h⟩
    unfold mixInit
    rw [if_pos]
    rw [List.any_eq_true]
    exact ⟨r, hr, by rw [List.any_eq_true]; exact ⟨w, hw, by simpa using h⟩⟩
  · intro h
    refine ⟨weights.map mixNormRow, ?_, by simp⟩
    unfold mixInit
    rw [if_neg]
    rw [List.any_eq_true]
    rintro ⟨r, hr, h2⟩
    rw [List.any_eq_true] at h2
    obtain ⟨w, hw, h3⟩ := h2
    exact absurd (h r hr w hw) (not_le.2 (by simpa using h3))

/-- **C23: normalisation.** When construction succeeds, row `i` of the stored weights is the given row divided by its sum, it is
non-negative and sums to one (a row that sums to zero becomes non-finite); constructing again from stored weights
changes nothing, and neither does rescaling each row by its own positive factor. -/
theorem C23_normalises (weights : List (List K)) (ws : List (Option (List K))) (h : mixInit weights = .ok ws)
    (i : ℕ) (r : List K) (hr : weights[i]? = some r) :
    (r.sum = 0 → ws[i]? = some none) ∧
    (r.sum ≠ 0 → ∃ w, ws[i]? = some (some w) ∧ w = r.map (· / r.sum) ∧ w.sum = 1 ∧ (∀ v ∈ w, 0 ≤ v) ∧
      mixInit [w] = .ok [some w] ∧ ∀ k, 0 < k → mixInit [r.map (k * ·)] = .ok [some w]) := by
  unfold mixInit at h
  split at h
  · simp at h
  next hany =>
  have hnn : ∀ r ∈ weights, ∀ w ∈ r, 0 ≤ w := by
    intro r hr w hw
    by_contra hc
    apply hany
    rw [List.any_eq_true]
    exact ⟨r, hr, by rw [List.any_eq_true]; exact ⟨w, hw, by simpa using hc⟩⟩
  obtain rfl : weights.map mixNormRow = ws := by simpa using h
  have hr0 := hnn r (List.mem_of_getElem? hr)
  have init1 : ∀ l : List K, (∀ v ∈ l, 0 ≤ v) → mixInit [l] = .ok [mixNormRow l] := by
    intro l hl
    unfold mixInit
    rw [if_neg]
    · rfl
    · rw [List.any_eq_true]
      rintro ⟨r, hr, h2⟩
      rw [List.mem_singleton] at hr; subst hr
      rw [List.any_eq_true] at h2
      obtain ⟨w, hw, h3⟩ := h2
      exact absurd (hl w hw) (not_le.2 (by simpa using h3))
  constructor
  · intro h0
    rw [List.getElem?_map, hr]
    rw [Option.map_some, norm_zero h0]
  · intro h0
    have hsum1 : (r.map (· / r.sum)).sum = 1 := by rw [sum_div, div_self h0]
    have hpos : 0 ≤ r.sum := List.sum_nonneg hr0
    have hwn : ∀ v ∈ r.map (· / r.sum), 0 ≤ v := by
      intro v hv
      obtain ⟨u, hu, rfl⟩ := List.mem_map.1 hv
      exact div_nonneg (hr0 u hu) hpos
    refine ⟨r.map (· / r.sum), ?_, rfl, hsum1, hwn, ?_, ?_⟩
    · rw [List.getElem?_map, hr]
      rw [Option.map_some, norm_ne h0]
    · rw [init1 _ hwn]
      rw [norm_ne (by rw [hsum1]; exact one_ne_zero), hsum1]
      simp
    · intro k hk
      have hks : (r.map (k * ·)).sum = k * r.sum := by
        clear * -
        induction r with
        | nil => simp
        | cons a t ih => simp only [List.map_cons, List.sum_cons, ih]; rw [mul_add]
      rw [init1]
      · rw [norm_ne (by rw [hks]; exact mul_ne_zero hk.ne' h0), hks]
        simp only [List.map_map]
        congr 4
        funext a
        simp only [Function.comp]
        rw [mul_div_mul_left _ _ hk.ne']
      · intro v hv
        obtain ⟨u, hu, rfl⟩ := List.mem_map.1 hv
        exact mul_nonneg hk.le (hr0 u hu)

/-- **C23: validity.** With non-negative weights summing to one, a mixture of non-negative densities is non-negative, and a mixture
of distribution functions is non-decreasing and within [0,1]. -/
theorem C23_valid (w : List K) (hw : ∀ v ∈ w, 0 ≤ v) (h1 : w.sum = 1) (pdfs cdfs : List (K → K))
    (hl : w.length = cdfs.length)
    (hp : ∀ f ∈ pdfs, ∀ x, 0 ≤ f x) (hc : ∀ F ∈ cdfs, (∀ x y, x ≤ y → F x ≤ F y) ∧ ∀ x, 0 ≤ F x ∧ F x ≤ 1) :
    (∀ x, 0 ≤ mixEval w pdfs x) ∧
    (∀ x y, x ≤ y → mixEval w cdfs x ≤ mixEval w cdfs y) ∧
    (∀ x, 0 ≤ mixEval w cdfs x ∧ mixEval w cdfs x ≤ 1) := by
  have nonneg : ∀ (w : List K) (fs : List (K → K)) (x : K), (∀ v ∈ w, 0 ≤ v) → (∀ f ∈ fs, 0 ≤ f x) → 0 ≤ mixEval w fs x := by
    intro w
    induction w with
    | nil => intro fs x _ _; simp [mixEval, Np.sum]
    | cons a t ih =>
      intro fs x hw hf
      cases fs with
      | nil => simp [mixEval, Np.sum]
      | cons f fs =>
        have := ih fs x (fun v hv => hw v (by simp [hv])) (fun g hg => hf g (by simp [hg]))
        have h2 := mul_nonneg (hw a (by simp)) (hf f (by simp))
        simp only [mixEval, Np.sum, List.zipWith_cons_cons, List.foldr_cons] at this ⊢
        linarith
  have mono : ∀ (w : List K) (fs : List (K → K)) (x y : K), (∀ v ∈ w, 0 ≤ v) → (∀ f ∈ fs, f x ≤ f y) →
      mixEval w fs x ≤ mixEval w fs y := by
    intro w
    induction w with
    | nil => intro fs x y _ _; simp [mixEval, Np.sum]
    | cons a t ih =>
      intro fs x y hw hf
      cases fs with
      | nil => simp [mixEval, Np.sum]
      | cons f fs =>
        have := ih fs x y (fun v hv => hw v (by simp [hv])) (fun g hg => hf g (by simp [hg]))
        have h2 := mul_le_mul_of_nonneg_left (hf f (by simp)) (hw a (by simp))
        simp only [mixEval, Np.sum, List.zipWith_cons_cons, List.foldr_cons] at this ⊢
        linarith
  have upper : ∀ (w : List K) (fs : List (K → K)) (x : K), w.length = fs.length → (∀ v ∈ w, 0 ≤ v) → (∀ f ∈ fs, f x ≤ 1) →
      mixEval w fs x ≤ w.sum := by
    intro w
    induction w with
    | nil => intro fs x _ _ _; simp [mixEval, Np.sum]
    | cons a t ih =>
      intro fs x hl hw hf
      cases fs with
      | nil => simp at hl
      | cons f fs =>
        have := ih fs x (by simpa using hl) (fun v hv => hw v (by simp [hv])) (fun g hg => hf g (by simp [hg]))
        have h2 := mul_le_mul_of_nonneg_left (hf f (by simp)) (hw a (by simp))
        simp only [mixEval, Np.sum, List.zipWith_cons_cons, List.foldr_cons, List.sum_cons] at this ⊢
        linarith
  refine ⟨fun x => nonneg w pdfs x hw (fun f hf => hp f hf x),
    fun x y hxy => mono w cdfs x y hw (fun F hF => (hc F hF).1 x y hxy), fun x => ⟨?_, ?_⟩⟩
  · exact nonneg w cdfs x hw (fun F hF => ((hc F hF).2 x).1)
  · rw [← h1]; exact upper w cdfs x hl hw (fun F hF => ((hc F hF).2 x).2)

example : (mixInit ([[1, 3], [2, 2]] : List (List ℚ))).toOption = some [some [1/4, 3/4], some [1/2, 1/2]] := by
  decide +kernel
example : mixInit ([[1, 3], [2, -2]] : List (List ℚ)) = .error .ValueError := by decide +kernel

/-! ## C24 -/

private theorem sequenceIdx_some {γ : Type*} (l : List γ) : sequenceIdx (l.map some) = .ok l := by
  unfold sequenceIdx
  have : (l.map some).mapM id = some l := by
    induction l with
    | nil => rfl
    | cons a t ih => simp [List.mapM_cons, ih]
  rw [this]

private theorem flatRows_replicate_get {α : Type*} (x : List α) (hx : x ≠ []) : ∀ (n s i : ℕ), i < n →
    (flatRows s (List.replicate n x))[i]? = some (s + i / x.length) := by
  have hpos : 0 < x.length := List.length_pos_of_ne_nil hx
  have gen : ∀ (n s i : ℕ), i < n * x.length → (flatRows s (List.replicate n x))[i]? = some (s + i / x.length) := by
    intro n
    induction n with
    | zero => intro s i h; simp at h
    | succ n ih =>
      intro s i h
      rw [List.replicate_succ]
      simp only [flatRows]
      by_cases hi : i < x.length
      · rw [List.getElem?_append_left (by simpa using hi), Nat.div_eq_of_lt hi]
        simp [hi]
      · have hi := not_lt.1 hi
        rw [List.getElem?_append_right (by simpa using hi), List.length_map, ih (s+1) (i - x.length) (by
          rw [Nat.add_mul, Nat.one_mul] at h; omega)]
        congr 1
        have : i / x.length = (i - x.length) / x.length + 1 := by
          rw [Nat.div_eq_sub_div hpos hi]
        omega
  intro n s i h
  exact gen n s i (lt_of_lt_of_le h (Nat.le_mul_of_pos_right n hpos))

/-- **C24, exact behaviour of mixture quantiles.** For a list `q` of probabilities (each strictly between 0 and 1, the others
never reach the class) the answer for PDF `i` is computed from mixture `i` when the probabilities are distinct (in sorted
order of the probabilities when there are several PDFs, see C01), but from mixture `i / len(q)` when some probability is
repeated. -/
theorem C24_ppf_exact {γ : Type*} (inv : ℕ → K → γ) (npdf : ℕ) (q : List K) :
    evalShared (mixPpf inv) npdf q =
      .ok (SharedSpec (fun i v => inv (if q.Nodup then i else i / q.length) v) npdf
        (if 2 ≤ npdf ∧ q.Nodup then q.insertionSort (· ≤ ·) else q)) := by
  apply scipyEval_of_core
  swap
  · have : (if 2 ≤ npdf ∧ q.Nodup then q.insertionSort (· ≤ ·) else q).length = q.length := by
      split <;> simp
    simp only [SharedSpec, List.map_map, List.map_replicate]
    rw [List.eq_replicate_iff]
    simp [this]
  intro hne
  have hx : q ≠ [] := by rintro rfl; simp at hne
  have hn : npdf ≠ 0 := by rintro rfl; simp at hne
  have hnx : q.length ≠ 0 := by simpa using hx
  set X := List.replicate npdf q with hX
  have hlen : X.flatten.length = npdf * q.length := by simp [hX]
  have hrl : (flatRows 0 X).length = npdf * q.length := by rw [flatRows_length, hlen]
  have hux : unique X.flatten = unique q := unique_congr (mem_flatten_replicate hn)
  have hur : unique (flatRows 0 X) = List.range npdf := unique_flatRows_replicate hx npdf
  -- the lookup table that is used
  have main : ∀ (table : List ℕ) (T : ℕ → ℕ), (∀ i, i < npdf → table[i]? = some (T i)) →
      (dispatch (fun r v => (table[r]?).map fun p => inv p v) (fun r v => (table[r]?).map fun p => inv p v)
        (fun r v => (table[r]?).map fun p => inv p v) (.vec X.flatten) (.vec (flatRows 0 X)) >>= sequenceIdx) =
      .ok (SharedSpec (fun i v => inv (T i) v) npdf (if 2 ≤ npdf ∧ q.Nodup then sort q else q)).flatten := by
    intro table T hT
    rw [hX, shared_core _ npdf q hne]
    have : (SharedSpec (fun r v => (table[r]?).map fun p => inv p v) npdf
        (if 2 ≤ npdf ∧ q.Nodup then sort q else q)).flatten =
        ((SharedSpec (fun i v => inv (T i) v) npdf (if 2 ≤ npdf ∧ q.Nodup then sort q else q)).flatten).map some := by
      rw [List.map_flatten]
      congr 1
      simp only [SharedSpec, List.map_map]
      apply List.map_congr_left
      intro i hi
      simp only [Function.comp, List.map_map]
      apply List.map_congr_left
      intro v _
      rw [hT i (List.mem_range.1 hi)]; rfl
    rw [this]
    exact sequenceIdx_some _
  have hflat : ∀ i, i < npdf → (flatRows 0 X)[i]? = some (i / q.length) := by
    intro i hi
    have := flatRows_replicate_get q hx npdf 0 i hi
    rwa [Nat.zero_add] at this
  unfold mixPpf
  simp only
  rw [getEvalCase_vec, hlen, hrl, hux, hur, List.length_range]
  by_cases h1 : npdf * q.length = 1
  · rw [if_pos (Or.inl h1)]
    simp only
    refine main _ _ ?_
    intro i hi
    rw [hflat i hi]
    have hn1 : npdf = 1 := Nat.eq_one_of_mul_eq_one_right h1
    have : i = 0 := by omega
    subst this; simp
  by_cases hnd : q.Nodup
  swap
  · rw [if_pos]
    · simp only [if_neg hnd]
      exact main _ _ hflat
    · refine Or.inr (Or.inr fun hc => hnd ?_)
      rw [Nat.mul_comm] at hc
      exact (length_unique_eq_iff q).1 (Nat.eq_of_mul_eq_mul_left (by omega) hc)
  · have hu : (unique q).length = q.length := (length_unique_eq_iff q).2 hnd
    rw [if_neg]
    · simp only [if_pos hnd]
      refine main _ _ ?_
      intro i hi
      split
      · next hc =>
        have hq1 : q.length = 1 := by
          have : npdf * 1 = npdf * q.length := by omega
          exact (Nat.eq_of_mul_eq_mul_left (by omega) this).symm
        rw [hflat i hi, hq1, Nat.div_one]
      · simp [hi]
    · rintro (h | h | h)
      · exact h1 h
      · exact h1 h
      · apply h; rw [hu, Nat.mul_comm]

/-- **C24 (partial).** Mixture quantiles are right for increasing probabilities and for a single mixture. Missing: repeated
probabilities (wrong mixture, `C24_repeated_probability_wrong`), unsorted probabilities (C01), one probability per PDF
with some of them 0 or 1 (`C24_masked_rows_fail`), and sampling (`C24_sampling_fails`). -/
theorem C24_ppf_partial {γ : Type*} (inv : ℕ → K → γ) (npdf : ℕ) (q : List K) (h : q.Pairwise (· < ·) ∨ npdf ≤ 1) :
    evalShared (mixPpf inv) npdf q = .ok (SharedSpec inv npdf q) := by
  rw [C24_ppf_exact]
  rcases h with h | h
  · have hnd : q.Nodup := nodup_of_strict h
    simp only [if_pos hnd]
    rw [show q.insertionSort (· ≤ ·) = q from (h.imp le_of_lt).insertionSort_eq]
    simp
  · rw [if_neg (by omega)]
    congr 1
    unfold SharedSpec
    apply List.map_congr_left
    intro i hi
    have : i = 0 := by have := List.mem_range.1 hi; omega
    subst this; simp

/-- **C24 is violated** when a probability is repeated: the quantiles reported for the second mixture are those of the first. -/
theorem C24_repeated_probability_wrong {γ : Type*} (inv : ℕ → ℚ → γ) :
    evalShared (mixPpf inv) 2 [1/2, 1/2, 7/10] =
      .ok [[inv 0 (1/2), inv 0 (1/2), inv 0 (7/10)], [inv 0 (1/2), inv 0 (1/2), inv 0 (7/10)]] := by
  rw [C24_ppf_exact]
  have : ¬ ([1/2, 1/2, 7/10] : List ℚ).Nodup := by decide +kernel
  simp only [this, if_false, and_false]
  rfl

/-- **C24 is violated** when scipy drops rows: one probability per mixture, the first one being 0: the call fails with
`IndexError`. -/
theorem C24_masked_rows_fail {γ : Type*} (inv : ℕ → ℚ → γ) :
    reduceProb ([[0], [1/2]] : List (List ℚ)) = ([1/2], [1]) ∧
    mixPpf inv (.vec [1/2]) (.vec [1]) = .error .IndexError := by
  constructor
  · decide +kernel
  · rfl

/-- **C24 is violated for sampling**: `rvs` passes a matrix of draws and a column of row numbers, and mixtures always raise
`ValueError` for those. -/
theorem C24_sampling_fails {γ : Type*} (inv : ℕ → K → γ) (U : List (List K)) (rows : List (List ℕ)) :
    mixPpf inv (.mat U) (.mat rows) = .error .ValueError := by
  simp [mixPpf, getEvalCase]

example : (evalShared (mixPpf fun r (v : ℚ) => (r : ℚ) + v) 2 [1/4, 1/2]).toOption =
    some [[1/4, 1/2], [5/4, 3/2]] := by decide +kernel

end Verif.Props.Mixmod
