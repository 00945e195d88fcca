import Verif.Model.Front
import Verif.Props.Evaluation
import Verif.Props.Hist
import Verif.Props.InterpPdf
import Mathlib.Algebra.Order.Ring.Rat

/-!
# C80: quantiles, medians, intervals and survival functions of an ensemble

`f i` is the quantile function (`_ppf`) of PDF `i`, evaluated through the same dispatcher as all row classes use.
-/

set_option linter.unusedSectionVars false
set_option autoImplicit false

namespace Verif.Props.Front

open Verif Verif.Np Verif.Model Verif.Lemmas Verif.Props.Evaluation

variable {K : Type*} [Field K] [LinearOrder K] [IsStrictOrderedRing K] {β γ : Type*}

/-- distinct increasing row numbers: every point is evaluated on its own row -/
theorem dispatch_rows (f : ℕ → K → β) (x : List K) (rows : List ℕ) (hl : rows.length = x.length) (hs : rows.Pairwise (· < ·)) :
    dispatch f f f (.vec x) (.vec rows) = .ok (List.zipWith (fun r v => f r v) rows x) := by
  have hnd : rows.Nodup := hs.imp (fun h => h.ne)
  have hflat : evalFlat f x rows = .ok (List.zipWith (fun r v => f r v) rows x) := by
    unfold evalFlat; rw [if_pos hl.symm]
  have hr : (unique rows).length = x.length := by rw [(length_unique_eq_iff _).2 hnd, hl]
  rw [dispatch_vec, hr, hl]
  by_cases h1 : x.length = 1
  · rw [if_pos (Or.inl h1), hflat]
  by_cases hc : (unique x).length * x.length ≠ x.length
  · rw [if_pos (Or.inr (Or.inr hc)), hflat]
  rw [if_neg (by simp only [h1, hc, or_self, not_false_eq_true])]
  simp only [ne_eq, not_not] at hc
  rw [if_pos rfl]
  by_cases h0 : x.length = 0
  · have : x = [] := List.length_eq_zero_iff.1 h0
    subst this
    have : rows = [] := List.length_eq_zero_iff.1 (by simpa using hl)
    subst this; simp [evalProduct]
  have hu : (unique x).length = 1 := Nat.eq_of_mul_eq_mul_right (Nat.pos_of_ne_zero h0) (by omega)
  rw [hu, if_neg (fun h => h1 h.symm)]
  obtain ⟨a, ha⟩ := List.length_eq_one_iff.1 hu
  have hall : ∀ v ∈ x, v = a := by
    intro v hv
    have := (mem_unique (l := x)).2 hv
    rw [ha] at this; simpa using this
  rw [ha]
  congr 1
  clear hs hnd hflat hr h1 hc h0 hu ha
  unfold evalProduct
  induction x generalizing rows with
  | nil => have : rows = [] := List.length_eq_zero_iff.1 (by simpa using hl); subst this; rfl
  | cons b x ih =>
    cases rows with
    | nil => simp at hl
    | cons r rows =>
      have hb := hall b (by simp)
      rw [List.flatMap_cons, ih rows (by simpa using hl) (fun v hv => hall v (by simp [hv])), List.zipWith_cons_cons, hb]
      rfl

/-- what a row should contain: the class's value for ordinary entries, scipy's own answer for the others -/
theorem fillRow_filter (good : K → Bool) (other : K → γ) (wrap : β → γ) (g : K → β) (q : List K) :
    fillRow good other wrap q ((q.filter good).map g) = q.map fun v => if good v then wrap (g v) else other v := by
  induction q with
  | nil => rfl
  | cons v q ih =>
    by_cases h : good v
    · simp [fillRow, h, ih]
    · simp [fillRow, h, ih]

/-- one entry per PDF through the front end -/
theorem front_per_pdf (good : K → Bool) (other : K → γ) (wrap : β → γ) (core : Pts K → Pts ℕ → Except Err (List β)) (f : ℕ → K → β)
    (hcore : ∀ (x : List K) (rows : List ℕ), rows.length = x.length → rows.Pairwise (· < ·) → core (.vec x) (.vec rows) = .ok (List.zipWith (fun r v => f r v) rows x))
    (x : List K) :
    frontEval good other wrap core (x.map fun v => [v]) = .ok (x.zipIdx.map fun p => [if good p.1 then wrap (f p.2 p.1) else other p.1]) := by
  have hX : (x.map fun v => [v]).map (·.filter good) = x.map fun v => if good v then [v] else [] := by
    rw [List.map_map]
    apply List.map_congr_left
    intro v _
    by_cases h : good v <;> simp [h]
  have hcases : ∀ (x : List K) (s : ℕ), ∃ (xs : List K) (rs : List ℕ), (x.map fun v => if good v then [v] else []).flatten = xs ∧
      flatRows s (x.map fun v => if good v then [v] else []) = rs ∧ rs.length = xs.length ∧ rs.Pairwise (· < ·) ∧ (∀ r ∈ rs, s ≤ r) ∧
      List.zipWith (fun r v => f r v) rs xs = ((x.zipIdx s).map fun p => if good p.1 then [f p.2 p.1] else []).flatten := by
    intro x
    induction x with
    | nil => intro s; exact ⟨[], [], rfl, rfl, rfl, List.Pairwise.nil, by simp, rfl⟩
    | cons v x ih =>
      intro s
      obtain ⟨xs, rs, h1, h2, h3, h4, h5, h6⟩ := ih (s + 1)
      by_cases h : good v
      · refine ⟨v :: xs, s :: rs, by simp [h, h1], by simp [flatRows, h, h2], by simp [h3], ?_, ?_, ?_⟩
        · exact List.pairwise_cons.2 ⟨fun r hr => by have := h5 r hr; omega, h4⟩
        · intro r hr
          rcases List.mem_cons.1 hr with rfl | hr
          · exact le_rfl
          · have := h5 r hr; omega
        · simp [h, h6, List.zipIdx_cons]
      · refine ⟨xs, rs, by simp [h, h1], by simp [flatRows, h, h2], h3, h4, fun r hr => by have := h5 r hr; omega, ?_⟩
        simp [h, h6, List.zipIdx_cons]
  obtain ⟨xs, rs, h1, h2, h3, h4, -, h6⟩ := hcases x 0
  have hev : scipyEval core ((x.map fun v => [v]).map (·.filter good)) = .ok (x.zipIdx.map fun p => if good p.1 then [f p.2 p.1] else []) := by
    rw [hX]
    apply scipyEval_of_core
    · intro _
      rw [h1, h2, hcore xs rs h3 h4, h6]
    · have : ∀ (x : List K) (s : ℕ), ((x.zipIdx s).map fun p => if good p.1 then [f p.2 p.1] else []).map List.length =
          (x.map fun v => if good v then [v] else []).map List.length := by
        intro x
        induction x with
        | nil => intro s; rfl
        | cons v x ih => intro s; by_cases h : good v <;> simpa [h, List.zipIdx_cons] using ih (s + 1)
      exact this x 0
  unfold frontEval
  rw [hev]
  simp only
  congr 1
  have : ∀ (x : List K) (s : ℕ), List.zipWith (fillRow good other wrap) (x.map fun v => [v]) ((x.zipIdx s).map fun p => if good p.1 then [f p.2 p.1] else []) =
      (x.zipIdx s).map fun p => [if good p.1 then wrap (f p.2 p.1) else other p.1] := by
    intro x
    induction x with
    | nil => intro s; rfl
    | cons v x ih =>
      intro s
      simp only [List.map_cons, List.zipIdx_cons, List.zipWith_cons_cons, ih (s + 1)]
      by_cases h : good v <;> simp [h, fillRow]
  exact this x 0

theorem prob_front (g : K → Option K) (q : K) : (if isProb q then Ext.ofOption (g q) else ppfOther q) = ppfFront g q := by
  unfold isProb ppfOther ppfFront
  by_cases h0 : q = 0
  · subst h0; simp
  by_cases h1 : q = 1
  · subst h1; simp
  by_cases h : 0 < q ∧ q < 1 <;> simp [h0, h1, h]

theorem isf_front (g : K → Option K) (q : K) : (if isProb q then Ext.ofOption (g (1 - q)) else isfOther q) = ppfFront g (1 - q) := by
  unfold isProb isfOther ppfFront
  have e1 : (1 - q = 0) ↔ q = 1 := by rw [sub_eq_zero, eq_comm]
  have e2 : (1 - q = 1) ↔ q = 0 := by simp
  have e3 : (0 < 1 - q ∧ 1 - q < 1) ↔ (0 < q ∧ q < 1) := by constructor <;> rintro ⟨h1, h2⟩ <;> constructor <;> linarith
  by_cases h0 : q = 0
  · subst h0; simp
  by_cases h1 : q = 1
  · subst h1; simp
  by_cases h : 0 < q ∧ q < 1
  · simp [e1, h1, h0, h]
  · rw [if_neg (by simpa using h), if_neg h1, if_neg h0, if_neg (by rw [e1]; exact h1), if_neg (by rw [e2]; exact h0), if_neg (by rw [e3]; exact h)]

/-- **C80: one probability per PDF.** Entry `i` is the quantile of PDF `i` at its own probability; 0 and 1 give `-inf` and `+inf`, other numbers
`nan`, whatever the other entries are. -/
theorem C80_ppf_per_pdf (f : ℕ → K → Option K) (x : List K) :
    ensPpf (dispatch f f f) (x.map fun v => [v]) = .ok (x.zipIdx.map fun p => [ppfFront (f p.2) p.1]) := by
  unfold ensPpf
  rw [front_per_pdf isProb ppfOther Ext.ofOption _ f (fun x rows => dispatch_rows f x rows) x]
  simp only [prob_front]

example : (ensPpf (dispatch (fun i q => some ((i : ℚ) + q)) (fun i q => some ((i : ℚ) + q)) (fun i q => some ((i : ℚ) + q))) [[1/2], [0], [1/2], [2]]).toOption =
    some [[.fin (1/2)], [.negInf], [.fin (5/2)], [.nan]] := by decide +kernel

/-- the same for the inverse survival function -/
theorem C80_isf_per_pdf (f : ℕ → K → Option K) (x : List K) :
    ensIsf (dispatch f f f) (x.map fun v => [v]) = .ok (x.zipIdx.map fun p => [ppfFront (f p.2) (1 - p.1)]) := by
  unfold ensIsf
  rw [front_per_pdf isProb isfOther Ext.ofOption _ (fun i v => f i (1 - v))]
  · congr 1
    apply List.map_congr_left
    intro p _
    rw [← isf_front]
  · intro x rows hl hs
    have := dispatch_rows f (x.map (1 - ·)) rows (by simpa using hl) hs
    simp only [oneMinus]
    rw [this, List.zipWith_map_right]

/-! ### the same probabilities for all PDFs -/

theorem filter_replicate (good : K → Bool) (n : ℕ) (q : List K) : (List.replicate n q).map (·.filter good) = List.replicate n (q.filter good) := by simp

theorem zip_replicate (n : ℕ) (q : List K) (h : List K → List β → List γ) (g : ℕ → List β) :
    List.zipWith h (List.replicate n q) ((List.range n).map g) = (List.range n).map fun i => h q (g i) := by
  apply List.ext_getElem
  · simp
  · intro i h1 h2; simp

/-- **C80, exact behaviour** for a list of probabilities shared by all PDFs: the ordinary probabilities are used in increasing order when there are
at least two PDFs and they are distinct. -/
theorem C80_ppf_shared_exact (f : ℕ → K → Option K) (n : ℕ) (q : List K) :
    ensPpf (dispatch f f f) (List.replicate n q) = .ok ((List.range n).map fun i => fillRow isProb ppfOther Ext.ofOption q
      ((if 2 ≤ n ∧ (q.filter isProb).Nodup then (q.filter isProb).insertionSort (· ≤ ·) else q.filter isProb).map (f i))) := by
  unfold ensPpf frontEval
  rw [filter_replicate]
  have := C01_shared_grid_exact f n (q.filter isProb)
  unfold evalShared at this
  rw [this]
  simp only [SharedSpec]
  rw [zip_replicate]

/-- **C80 (partial)**: increasing probabilities. Missing: other orders, which the evaluation rearranges (see C01). -/
theorem C80_ppf_shared_partial (f : ℕ → K → Option K) (n : ℕ) (q : List K) (hq : q.Pairwise (· < ·) ∨ n ≤ 1) :
    ensPpf (dispatch f f f) (List.replicate n q) = .ok ((List.range n).map fun i => q.map (ppfFront (f i))) := by
  rw [C80_ppf_shared_exact]
  have hs : (if 2 ≤ n ∧ (q.filter isProb).Nodup then (q.filter isProb).insertionSort (· ≤ ·) else q.filter isProb) = q.filter isProb := by
    split
    · next h =>
      rcases hq with hq | hq
      · exact ((hq.filter _).imp le_of_lt).insertionSort_eq
      · omega
    · rfl
  rw [hs]
  congr 1
  apply List.map_congr_left
  intro i _
  rw [fillRow_filter]
  apply List.map_congr_left
  intro v _
  exact prob_front (f i) v

theorem isf_shared_exact (f : ℕ → K → Option K) (n : ℕ) (q : List K) :
    ensIsf (dispatch f f f) (List.replicate n q) = .ok ((List.range n).map fun i => fillRow isProb isfOther Ext.ofOption q
      ((if 2 ≤ n ∧ ((q.filter isProb).map (1 - ·)).Nodup then ((q.filter isProb).map (1 - ·)).insertionSort (· ≤ ·) else (q.filter isProb).map (1 - ·)).map (f i))) := by
  unfold ensIsf frontEval
  rw [filter_replicate]
  set q' := q.filter isProb with hq'
  have hflat : (List.replicate n q').flatten.map (1 - ·) = (List.replicate n (q'.map (1 - ·))).flatten := by
    rw [List.map_flatten, List.map_replicate]
  have hrows : ∀ n s, flatRows s (List.replicate n q') = flatRows s (List.replicate n (q'.map (1 - ·))) := by
    intro n
    induction n with
    | zero => intro s; rfl
    | succ n ih =>
      intro s
      simp only [List.replicate_succ, flatRows, ih (s + 1), List.map_map]
      congr 1
  have := scipyEval_of_core (X := List.replicate n q') (core := fun x row => dispatch f f f (oneMinus x) row)
    (V := SharedSpec f n (if 2 ≤ n ∧ (q'.map (1 - ·)).Nodup then (q'.map (1 - ·)).insertionSort (· ≤ ·) else q'.map (1 - ·))) (by
      intro h
      simp only [oneMinus]
      rw [hflat, hrows n 0]
      apply shared_core f n (q'.map (1 - ·))
      rw [← hflat]; simpa using h) (by
      have : (if 2 ≤ n ∧ (q'.map (1 - ·)).Nodup then (q'.map (1 - ·)).insertionSort (· ≤ ·) else q'.map (1 - ·)).length = q'.length := by
        split <;> simp
      simp only [SharedSpec, List.map_map, List.map_replicate]
      rw [List.eq_replicate_iff]
      simp [this])
  rw [this]
  simp only [SharedSpec]
  rw [zip_replicate]

/-- **C80 (partial)**: the inverse survival function for decreasing probabilities. -/
theorem C80_isf_shared_partial (f : ℕ → K → Option K) (n : ℕ) (q : List K) (hq : q.Pairwise (· > ·) ∨ n ≤ 1) :
    ensIsf (dispatch f f f) (List.replicate n q) = .ok ((List.range n).map fun i => q.map fun v => ppfFront (f i) (1 - v)) := by
  rw [isf_shared_exact]
  have hs : (if 2 ≤ n ∧ ((q.filter isProb).map (1 - ·)).Nodup then ((q.filter isProb).map (1 - ·)).insertionSort (· ≤ ·) else (q.filter isProb).map (1 - ·)) =
      (q.filter isProb).map (1 - ·) := by
    split
    · next h =>
      rcases hq with hq | hq
      · refine List.Pairwise.insertionSort_eq ?_
        rw [List.pairwise_map]
        exact (hq.filter _).imp (fun h => by linarith)
      · omega
    · rfl
  rw [hs]
  congr 1
  apply List.map_congr_left
  intro i _
  rw [List.map_map, fillRow_filter]
  apply List.map_congr_left
  intro p _
  exact isf_front (f i) p

/-- **C80 is violated by `isf`**: with at least two PDFs and *increasing* probabilities strictly between 0 and 1, every row comes back reversed. -/
theorem C80_isf_reversed (f : ℕ → K → Option K) (n : ℕ) (hn : 2 ≤ n) (q : List K) (hq : q.Pairwise (· < ·)) (hp : ∀ v ∈ q, 0 < v ∧ v < 1) :
    ensIsf (dispatch f f f) (List.replicate n q) = .ok ((List.range n).map fun i => (q.map fun v => ppfFront (f i) (1 - v)).reverse) := by
  rw [isf_shared_exact]
  have hf : q.filter isProb = q := by
    rw [List.filter_eq_self]
    intro v hv; simp [isProb, hp v hv]
  have hdec : (q.map (1 - ·)).Pairwise (· > ·) := by
    rw [List.pairwise_map]; exact hq.imp (fun h => by linarith)
  have hnd : (q.map (1 - ·)).Nodup := hdec.imp (fun h => ne_of_gt h)
  have hs : (q.map (1 - ·)).insertionSort (· ≤ ·) = (q.map (1 - ·)).reverse := by
    have h1 : ((q.map (1 - ·)).reverse).Pairwise (· ≤ ·) := by
      rw [List.pairwise_reverse]; exact hdec.imp (fun h => le_of_lt h)
    have h2 := (List.perm_insertionSort (· ≤ ·) (q.map (1 - ·))).trans (List.reverse_perm (q.map (1 - ·))).symm
    exact h2.eq_of_pairwise (fun a b _ _ h h' => le_antisymm h h') (List.pairwise_insertionSort (· ≤ ·) _) h1
  rw [hf, if_pos ⟨hn, hnd⟩, hs]
  congr 1
  apply List.map_congr_left
  intro i _
  have hfill : ∀ (q : List K) (vals : List (Option K)), (∀ v ∈ q, 0 < v ∧ v < 1) → q.length = vals.length → fillRow isProb isfOther Ext.ofOption q vals = vals.map Ext.ofOption := by
    intro q
    induction q with
    | nil => intro vals _ hl; have : vals = [] := List.length_eq_zero_iff.1 (by simpa using hl.symm); subst this; rfl
    | cons v q ih =>
      intro vals hp hl
      cases vals with
      | nil => simp at hl
      | cons w vals => simp [fillRow, isProb, hp v (by simp), ih vals (fun u hu => hp u (by simp [hu])) (by simpa using hl)]
  rw [hfill q _ hp (by simp), ← List.map_reverse, ← List.map_reverse, List.map_map, List.map_map]
  apply List.map_congr_left
  intro v hv
  have hv' := hp v (by simpa using hv)
  simp only [Function.comp]
  rw [← isf_front]; simp [isProb, hv']

/-- the smallest instance: two PDFs, `isf([0.1, 0.2])` -/
example : (ensIsf (dispatch (fun i q => some ((i : ℚ) + q)) (fun i q => some ((i : ℚ) + q)) (fun i q => some ((i : ℚ) + q))) (List.replicate 2 [1/10, 2/10])).toOption =
    some [[.fin (8/10), .fin (9/10)], [.fin (18/10), .fin (19/10)]] := by decide +kernel

/-! ### medians and intervals -/

theorem single (f : ℕ → K → Option K) (n : ℕ) (q : K) :
    ensPpf (dispatch f f f) (List.replicate n [q]) = .ok ((List.range n).map fun i => [ppfFront (f i) q]) := by
  have := C80_ppf_shared_partial f n [q] (Or.inl (by simp))
  simpa using this

theorem interval_ok (f : ℕ → K → Option K) (n : ℕ) (alpha : K) :
    ensInterval (dispatch f f f) n alpha = if alpha < 0 ∨ 1 < alpha then .error .ValueError else
      .ok ((List.range n).map fun i => [ppfFront (f i) ((1 - alpha) / 2)], (List.range n).map fun i => [ppfFront (f i) ((1 + alpha) / 2)]) := by
  unfold ensInterval
  rw [single, single]
  by_cases h : alpha < 0 ∨ 1 < alpha
  · rw [if_pos h, if_pos h.symm]
  · rw [if_neg h, if_neg (fun h' => h h'.symm)]; rfl

/-- what a quantile function and a CDF of the same PDF owe each other: quantiles exist, have the right probability, and increase -/
structure Inverse (F : K → Option K) (Q : K → Option K) : Prop where
  cdf_ppf : ∀ q, 0 < q → q < 1 → ∃ x, Q q = some x ∧ F x = some q
  mono : ∀ q q', 0 < q → q ≤ q' → q' < 1 → ∀ x y, Q q = some x → Q q' = some y → x ≤ y

/-- histograms (C08, C09) -/
theorem inverse_hist (edges p : List K) (hg : Hist.Grid edges p.length) (h1 : Spec.totalMass edges p = 1) (hp : ∀ v ∈ p, 0 ≤ v) :
    Inverse (histCdf edges p) (histPpf edges p) where
  cdf_ppf q h0 hq := by
    obtain ⟨x, hx, hx', -⟩ := Hist.C09_cdf_ppf edges p hg h1 hp q h0.le hq.le
    exact ⟨x, hx, hx'⟩
  mono q q' h0 hqq hq' x y hx hy := by
    obtain ⟨x', y', hx', hy', h⟩ := Hist.C09_ppf_mono edges p hg h1 q q' h0.le hqq hq'.le
    rw [hx] at hx'; rw [hy] at hy'
    cases hx'; cases hy'; exact h

/-- per-row interpolated PDFs (C13, C77) -/
theorem inverse_irregular (lo hi : K) (xs row ys : List K) (hg : InterpPdf.XGrid xs row.length) (hn : irrNormRow xs row = some ys) (hrow : ∀ v ∈ row, 0 ≤ v) :
    Inverse (irrCdf xs ys) (irrPpf lo hi xs ys) where
  cdf_ppf q h0 hq := by
    obtain ⟨⟨x, hx, hx', -⟩, -⟩ := InterpPdf.C77_irregular_ppf lo hi xs row ys hg hn hrow q h0.le hq.le
    exact ⟨x, hx, hx'⟩
  mono q q' h0 hqq hq' x y hx hy := by
    obtain ⟨-, h, -⟩ := InterpPdf.C77_irregular_ppf lo hi xs row ys hg hn hrow q h0.le (hqq.trans hq'.le)
    obtain ⟨x', y', hx', hy', h⟩ := h q' hqq hq'.le
    rw [hx] at hx'; rw [hy] at hy'
    cases hx'; cases hy'; exact h

/-- **C80: medians.** PDF `i`'s median is a point with CDF 1/2. -/
theorem C80_median (f F : ℕ → K → Option K) (n : ℕ) (h : ∀ i < n, Inverse (F i) (f i)) :
    ∃ m : ℕ → K, ensMedian (dispatch f f f) n = .ok ((List.range n).map fun i => [.fin (m i)]) ∧ ∀ i < n, F i (m i) = some (1 / 2) := by
  have h2 : (0 : K) < 1 / 2 := by norm_num
  have h3 : (1 / 2 : K) < 1 := by norm_num
  choose! m hm using fun i hi => (h i hi).cdf_ppf (1 / 2) h2 h3
  refine ⟨m, ?_, fun i hi => (hm i hi).2⟩
  unfold ensMedian
  rw [single]
  congr 1
  apply List.map_congr_left
  intro i hi
  unfold ppfFront
  rw [if_neg h2.ne', if_neg h3.ne, if_pos ⟨h2, h3⟩, (hm i (by simpa using hi)).1]
  rfl

/-- **C80: intervals.** For `0 ≤ alpha < 1` the interval of each PDF leaves probability `(1 - alpha) / 2` on either side, so it contains probability
`alpha`, it contains the median, and a larger `alpha` gives a larger interval. -/
theorem C80_interval (f F : ℕ → K → Option K) (n : ℕ) (h : ∀ i < n, Inverse (F i) (f i)) :
    ∃ (lo hi : K → ℕ → K) (m : ℕ → K),
      (∀ alpha, 0 ≤ alpha → alpha < 1 → ensInterval (dispatch f f f) n alpha =
        .ok ((List.range n).map fun i => [.fin (lo alpha i)], (List.range n).map fun i => [.fin (hi alpha i)])) ∧
      ensMedian (dispatch f f f) n = .ok ((List.range n).map fun i => [.fin (m i)]) ∧
      ∀ alpha, 0 ≤ alpha → alpha < 1 → ∀ i < n,
        (∃ u v, F i (lo alpha i) = some u ∧ F i (hi alpha i) = some v ∧ u = (1 - alpha) / 2 ∧ 1 - v = (1 - alpha) / 2 ∧ v - u = alpha) ∧
        lo alpha i ≤ m i ∧ m i ≤ hi alpha i ∧ ∀ beta, alpha ≤ beta → beta < 1 → lo beta i ≤ lo alpha i ∧ hi alpha i ≤ hi beta i := by
  have pl : ∀ alpha : K, 0 ≤ alpha → alpha < 1 → 0 < (1 - alpha) / 2 ∧ (1 - alpha) / 2 < 1 := by
    intro a h0 h1; constructor <;> linarith
  have ph : ∀ alpha : K, 0 ≤ alpha → alpha < 1 → 0 < (1 + alpha) / 2 ∧ (1 + alpha) / 2 < 1 := by
    intro a h0 h1; constructor <;> linarith
  choose! X hX using fun i hi => (h i hi).cdf_ppf
  have hfin : ∀ q, 0 < q → q < 1 → ((List.range n).map fun i => [ppfFront (f i) q]) = (List.range n).map fun i => [Ext.fin (X i q)] := by
    intro q h0 h1
    apply List.map_congr_left
    intro i hi
    unfold ppfFront
    rw [if_neg h0.ne', if_neg h1.ne, if_pos ⟨h0, h1⟩, (hX i (by simpa using hi) q h0 h1).1]
    rfl
  have h2 : (0 : K) < 1 / 2 := by norm_num
  have h3 : (1 / 2 : K) < 1 := by norm_num
  refine ⟨fun a i => X i ((1 - a) / 2), fun a i => X i ((1 + a) / 2), fun i => X i (1 / 2), ?_, ?_, ?_⟩
  · intro a h0 h1
    rw [interval_ok, if_neg (by push Not; exact ⟨h0, h1.le⟩), hfin _ (pl a h0 h1).1 (pl a h0 h1).2, hfin _ (ph a h0 h1).1 (ph a h0 h1).2]
  · unfold ensMedian
    rw [single, hfin _ h2 h3]
  · intro a h0 h1 i hi
    have mon : ∀ q q', 0 < q → q ≤ q' → q' < 1 → X i q ≤ X i q' := fun q q' a b c =>
      (h i hi).mono q q' a b c _ _ (hX i hi q a (lt_of_le_of_lt b c)).1 (hX i hi q' (lt_of_lt_of_le a b) c).1
    refine ⟨⟨_, _, (hX i hi _ (pl a h0 h1).1 (pl a h0 h1).2).2, (hX i hi _ (ph a h0 h1).1 (ph a h0 h1).2).2, rfl, by ring, by ring⟩, ?_, ?_, ?_⟩
    · exact mon _ _ (pl a h0 h1).1 (by linarith) h3
    · exact mon _ _ h2 (by linarith) (ph a h0 h1).2
    · intro b hab hb
      exact ⟨mon _ _ (pl b (h0.trans hab) hb).1 (by linarith) (pl a h0 h1).2, mon _ _ (ph a h0 h1).1 (by linarith) (ph b (h0.trans hab) hb).2⟩

/-- **C80: the ends of the range of `alpha`.** Outside `[0, 1]` the request is refused; `alpha = 1` gives the whole line. -/
theorem C80_interval_ends (f : ℕ → K → Option K) (n : ℕ) :
    (∀ alpha, alpha < 0 ∨ 1 < alpha → ensInterval (dispatch f f f) n alpha = .error .ValueError) ∧
    ensInterval (dispatch f f f) n 1 = .ok (List.replicate n [.negInf], List.replicate n [.posInf]) := by
  constructor
  · intro a ha
    rw [interval_ok, if_pos ha]
  · rw [interval_ok, if_neg (by push Not; exact ⟨zero_le_one, le_rfl⟩)]
    have e : ((1 : K) + 1) / 2 = 1 := by norm_num
    simp only [sub_self, zero_div, e, ppfFront, if_true, one_ne_zero, if_false]
    have hc : ∀ c : List (Ext K), ((List.range n).map fun _ => c) = List.replicate n c := by
      intro c; rw [List.eq_replicate_iff]; simp
    rw [hc, hc]

/-- **C80: survival functions.** Row `i` of `sf` is 1 minus row `i` of `cdf`, for points of any shape. -/
theorem C80_sf (core : Pts K → Pts ℕ → Except Err (List (Option K))) (X : List (List K)) :
    ensSf core X = (scipyEval core X).map fun V => V.map fun row => row.map fun o => o.map (1 - ·) := by
  have hun : ∀ (X : List (List K)) (v : List (Option K)) (g : Option K → Option K), unflatten X (v.map g) = (unflatten X v).map (·.map g) := by
    intro X
    induction X with
    | nil => intro v g; rfl
    | cons r X ih => intro v g; simp [unflatten, ← ih, List.map_take, List.map_drop]
  unfold ensSf scipyEval
  split
  · simp [Except.map]
  · simp only
    cases core (.vec X.flatten) (.vec (flatRows 0 X)) with
    | error e => rfl
    | ok v =>
      simp only [Except.map, List.length_map]
      split
      · rfl
      · rw [hun]

/-- **C80: `sf` undoes `isf`**, one probability per PDF. -/
theorem C80_sf_isf (f F : ℕ → K → Option K) (q : List K) (h : ∀ i < q.length, Inverse (F i) (f i)) (hq : ∀ v ∈ q, 0 < v ∧ v < 1) :
    ∃ x : List K, ensIsf (dispatch f f f) (q.map fun v => [v]) = .ok (x.map fun v => [.fin v]) ∧
      ensSf (dispatch F F F) (x.map fun v => [v]) = .ok (q.map fun v => [some v]) := by
  choose! X hX using fun i hi => (h i hi).cdf_ppf
  have hmem : ∀ p ∈ q.zipIdx, p.2 < q.length ∧ 0 < p.1 ∧ p.1 < 1 := by
    intro p hp
    obtain ⟨-, h2, h3⟩ := List.mem_zipIdx hp
    refine ⟨by omega, ?_⟩
    rw [h3]; exact hq _ (List.getElem_mem _)
  refine ⟨q.zipIdx.map fun p => X p.2 (1 - p.1), ?_, ?_⟩
  · rw [C80_isf_per_pdf, List.map_map]
    congr 1
    apply List.map_congr_left
    intro p hp
    obtain ⟨h1, h2, h3⟩ := hmem p hp
    simp only [Function.comp]
    rw [← isf_front, (hX p.2 h1 (1 - p.1) (by linarith) (by linarith)).1]
    simp [isProb, h2, h3, Ext.ofOption]
  · rw [C80_sf]
    have := C02_one_point_per_pdf F (q.zipIdx.map fun p => X p.2 (1 - p.1))
    unfold evalPerPdf at this
    rw [this]
    simp only [Except.map, PerPdfSpec, List.map_map]
    congr 1
    have hz : ∀ (q : List K) (s : ℕ), ((q.zipIdx s).map fun p => X p.2 (1 - p.1)).zipIdx s = (q.zipIdx s).map fun p => (X p.2 (1 - p.1), p.2) := by
      intro q
      induction q with
      | nil => intro s; rfl
      | cons a q ih => intro s; simp only [List.zipIdx_cons, List.map_cons, ih]
    rw [hz, List.map_map]
    conv_rhs => rw [show q = q.zipIdx.map Prod.fst by simp, List.map_map]
    apply List.map_congr_left
    intro p hp
    obtain ⟨h1, h2, h3⟩ := hmem p hp
    simp [(hX p.2 h1 (1 - p.1) (by linarith) (by linarith)).2]

/-! ### a case meeting the hypotheses: two histograms -/

example : ∀ i < 2, Inverse (histCdf [0, 1, (2 : ℚ)] (if i = 0 then [1/4, 3/4] else [1/2, 1/2])) (histPpf [0, 1, (2 : ℚ)] (if i = 0 then [1/4, 3/4] else [1/2, 1/2])) := by
  intro i hi
  split
  · exact inverse_hist _ _ ⟨by decide +kernel, rfl, by decide⟩ (by decide +kernel) (by decide +kernel)
  · exact inverse_hist _ _ ⟨by decide +kernel, rfl, by decide⟩ (by decide +kernel) (by decide +kernel)

/-- the central 50% intervals of those two histograms -/
example : (ensInterval (dispatch (fun i => histPpf [0, 1, (2 : ℚ)] (if i = 0 then [1/4, 3/4] else [1/2, 1/2])) (fun i => histPpf [0, 1, (2 : ℚ)] (if i = 0 then [1/4, 3/4] else [1/2, 1/2]))
    (fun i => histPpf [0, 1, (2 : ℚ)] (if i = 0 then [1/4, 3/4] else [1/2, 1/2]))) 2 (1/2)).toOption =
    some ([[.fin 1], [.fin (1/2)]], [[.fin (5/3)], [.fin (3/2)]]) := by decide +kernel

end Verif.Props.Front
