import Mathlib.Algebra.BigOperators.Fin
import Mathlib.Algebra.Order.BigOperators.Ring.Finset
import Verif.Props.MetricGrid
import Verif.Props.ConvertSamples

/-!
# C61, C62: the Brier score
-/

set_option linter.unusedSectionVars false
set_option autoImplicit false

namespace Verif.Props.Metrics

open Verif Verif.Np Verif.Model Verif.Props.Convert

variable {K : Type} [Field K] [LinearOrder K] [IsStrictOrderedRing K]

/-! ## C61 -/

/-- the row with a one at position `i` -/
def oneHot (n i : ℕ) : List ℕ := (List.range n).map fun j => if j = i then 1 else 0

/-- `v`, entry `i` of the grid, is nearest to `t` among all entries, and not farther than half a step -/
def NearestAt (values : List K) (r t : K) (i : ℕ) : Prop :=
  ∃ v, values[i]? = some v ∧ |t - v| ≤ r / 2 ∧ ∀ w ∈ values, |t - v| ≤ |t - w|

section
variable [FloorRing K]

/-- **C61.** For increasing limits, the encoding of a truth value between the limits is one-hot, at the nearest grid value. -/
theorem C61_one_hot (l0 l1 dx : K) (g : MGrid K) (hl : l0 < l1) (h : gridParams l0 l1 dx = .ok g) (t : K) (h0 : l0 ≤ t) (h1 : t ≤ l1) :
    ∃ i < g.card, npHistogram g.edges [t] = .ok (oneHot g.card i) ∧ NearestAt g.values g.resolution t i := by
  obtain ⟨hlen, _, _, hr, _, hsp, ⟨hcl, hc⟩, hh, hlast⟩ := C60_grid_partial l0 l1 dx g hl h
  obtain ⟨_, _, _, hcard, hres, hval, hedge, _⟩ := gridParams_ok h
  have hlt : l0 - g.resolution / 2 < l1 + g.resolution / 2 := by linarith
  have hpw : g.edges.Pairwise (· ≤ ·) := by
    rw [hedge, min_eq_left hlt.le, max_eq_right hlt.le]
    exact (linspace_pairwise _ _ _ (by omega) hlt).imp fun h => h.le
  have hel : g.edges.length = g.card + 1 := by rw [hcl, hlen]
  obtain ⟨i, hi, huniq⟩ := C59_one_bin g.edges hpw (by omega) t ⟨_, _, hh, hlast, by linarith, by linarith⟩
  obtain ⟨cs, hcs, hcsl, hcount⟩ := (C59_counts g.edges [t]).1 hpw
  have hi' := hi
  obtain ⟨a, b, ha, hb, hta, htb⟩ := hi'
  have hic : i < g.card := by
    have := (List.getElem?_eq_some_iff.1 hb).1
    omega
  refine ⟨i, hic, ?_, ?_⟩
  · rw [hcs]
    congr 1
    apply List.ext_getElem
    · simp [oneHot, hcsl, hel]
    · intro j hj1 hj2
      have e := hcount j _ (List.getElem?_eq_getElem hj1)
      rw [e]
      simp only [oneHot, List.getElem_map, List.getElem_range]
      by_cases hji : j = i
      · subst hji; simp [hi]
      · have : ¬ InBin g.edges j t := fun h' => hji (huniq j h')
        simp [this, hji]
  · have hv : g.values[i]? = some (l0 + (i : K) * g.resolution) := by
      rw [hval, getElem?_linspace _ _ _ (by omega) _ hic, ← hres]
    have hcen := hc i a b _ ha hb hv
    have hab := hsp i a b ha hb
    have hb' : t ≤ b := htb.elim le_of_lt fun h => h.2.le
    have hd : |t - (l0 + (i : K) * g.resolution)| ≤ g.resolution / 2 := by
      rw [abs_le, hcen]; constructor <;> linarith
    refine ⟨_, hv, hd, ?_⟩
    intro w hw
    obtain ⟨j, hj⟩ := List.getElem?_of_mem hw
    have hjc : j < g.card := by
      have := (List.getElem?_eq_some_iff.1 hj).1
      omega
    rw [hval, getElem?_linspace _ _ _ (by omega) _ hjc, ← hres] at hj
    have hj := Option.some.inj hj
    rcases Nat.lt_trichotomy j i with hij | rfl | hij
    · have hK : (j : K) + 1 ≤ (i : K) := by exact_mod_cast hij
      have := mul_le_mul_of_nonneg_right hK hr.le
      have h2 := abs_le.1 hd
      refine hd.trans ?_
      rw [le_abs]; left; rw [← hj]; linarith
    · rw [hj]
    · have hK : (i : K) + 1 ≤ (j : K) := by exact_mod_cast hij
      have := mul_le_mul_of_nonneg_right hK hr.le
      have h2 := abs_le.1 hd
      refine hd.trans ?_
      rw [le_abs]; right; rw [← hj]; linarith

/-- the truth values are all between the limits -/
def InLimits (l0 l1 : K) (truth : List K) : Prop := ∀ t ∈ truth, l0 ≤ t ∧ t ≤ l1

theorem inLimits_iff (l0 l1 : K) (truth : List K) :
    (truth.any (· < l0) || truth.any (l1 < ·)) = false ↔ InLimits l0 l1 truth := by
  simp only [Bool.or_eq_false_iff, List.any_eq_false, decide_eq_true_eq, not_lt, InLimits]
  exact ⟨fun h t ht => ⟨h.1 t ht, h.2 t ht⟩, fun h => ⟨fun t ht => (h t ht).1, fun t ht => (h t ht).2⟩⟩

/-- **C61.** A number of truth values different from the number of PDFs, and a truth value outside the limits, raise `ValueError` -- for every
ensemble, before anything else is looked at. -/
theorem C61_rejects (e : FnEns K) (truth : List K) (l0 l1 dx : K) (h : e.npdf ≠ truth.length ∨ ¬ InLimits l0 l1 truth) :
    calculateBrier e truth l0 l1 dx = .error .ValueError ∧ accumulateBrier e truth l0 l1 dx = .error .ValueError := by
  have : prepareBrier e truth l0 l1 dx = .error .ValueError := by
    unfold prepareBrier
    rcases h with h | h
    · rw [if_pos h]
    · split_ifs with h1 h2
      · rfl
      · rfl
      · exact absurd ((inLimits_iff l0 l1 truth).1 (by simpa using h2)) h
  simp [calculateBrier, accumulateBrier, this, Bind.bind, Except.bind]

theorem mapM_hist (l0 l1 dx : K) (g : MGrid K) (hl : l0 < l1) (h : gridParams l0 l1 dx = .ok g) (truth : List K)
    (ht : InLimits l0 l1 truth) :
    ∃ is : List ℕ, truth.mapM (fun t => npHistogram g.edges [t]) = .ok (is.map (oneHot g.card)) ∧
      List.Forall₂ (fun t i => i < g.card ∧ NearestAt g.values g.resolution t i) truth is := by
  induction truth with
  | nil => exact ⟨[], rfl, .nil⟩
  | cons t truth ih =>
    obtain ⟨is, h1, h2⟩ := ih fun s hs => ht s (List.mem_cons_of_mem _ hs)
    obtain ⟨i, hi, h3, h4⟩ := C61_one_hot l0 l1 dx g hl h t (ht t (by simp)).1 (ht t (by simp)).2
    refine ⟨i :: is, ?_, .cons ⟨hi, h4⟩ h2⟩
    simp [List.mapM_cons, h1, h3, Bind.bind, Except.bind, pure, Except.pure]

theorem length_oneHot (n i : ℕ) : (oneHot n i).length = n := by simp [oneHot]

/-- **C61.** Accepted input: the truth matrix has one row per object, one-hot at the grid value nearest to the truth (for two or more
objects; a single object gives the same row as a 1-D array). -/
theorem C61_encoding (e : FnEns K) (truth : List K) (l0 l1 dx : K) (g : MGrid K) (hl : l0 < l1) (h : gridParams l0 l1 dx = .ok g)
    (hn : e.npdf = truth.length) (ht : InLimits l0 l1 truth) (hne : truth ≠ []) :
    ∃ is : List ℕ, List.Forall₂ (fun t i => i < g.card ∧ NearestAt g.values g.resolution t i) truth is ∧
      prepareBrier e truth l0 l1 dx = .ok (e.at g.values,
        ⟨if truth.length = 1 then [g.card] else [truth.length, g.card], (is.map fun i => (oneHot g.card i).map fun (c : ℕ) => (c : K)).flatten⟩) := by
  obtain ⟨is, h1, h2⟩ := mapM_hist l0 l1 dx g hl h truth ht
  have hlen : is.length = truth.length := h2.length_eq.symm
  refine ⟨is, h2, ?_⟩
  obtain ⟨_, _, _, hcard, _, _, _, _⟩ := gridParams_ok h
  have hel : g.edges.length = g.card + 1 := by
    obtain ⟨hlen, _, _, hr, _, hsp, ⟨hcl, hc⟩, hh, hlast⟩ := C60_grid_partial l0 l1 dx g hl h
    omega
  have hisne : is.map (oneHot g.card) ≠ [] := by
    intro h'
    apply hne
    rw [← List.length_eq_zero_iff, ← hlen]
    simpa using h'
  unfold prepareBrier
  rw [if_neg (by simpa using hn), if_neg (by rw [(inLimits_iff l0 l1 truth).2 ht]; simp), h]
  simp only [Bind.bind, Except.bind, truthArray, h1]
  rw [if_neg hisne]
  simp only
  congr 2
  have e1 : g.edges.length - 1 = g.card := by omega
  simp only [Arr.squeeze, Arr.ofRows, List.length_map, hlen, e1, List.map_map, Function.comp_def]
  congr 1
  by_cases h1' : truth.length = 1
  · simp [h1', show g.card ≠ 1 by omega]
  · simp [h1', show g.card ≠ 1 by omega]

end

/-- not vacuous: five grid values, the truth 0.3 is nearest to the value 1/4 -/
example : gridParams (0 : ℚ) 1 (1 / 5) = .ok ⟨[0, 1 / 4, 1 / 2, 3 / 4, 1], 5, 1 / 4, [-1 / 8, 1 / 8, 3 / 8, 5 / 8, 7 / 8, 9 / 8], (0, 1)⟩ ∧
    npHistogram [-1 / 8, 1 / 8, 3 / 8, 5 / 8, 7 / 8, 9 / 8] [(3 / 10 : ℚ)] = .ok (oneHot 5 1) := by decide +kernel

/-! ## C62 -/

/-- the array with the entries `p i j` -/
def mat {α : Type} {n m : ℕ} (p : Fin n → Fin m → α) : Arr α := .ofRows [m] (List.ofFn fun i => List.ofFn (p i))

/-- every array of shape `(n, m)` is of this form -/
theorem exists_mat {α : Type} (a : Arr α) (n m : ℕ) (hs : a.shape = [n, m]) (hw : a.Wf) : ∃ p : Fin n → Fin m → α, a = mat p := by
  have hr : ∀ i : Fin n, (a.row i).length = m := by
    intro i
    rw [Arr.length_row a hw i (by simp [Arr.nrows, hs])]
    simp [Arr.rowSize, hs]
  refine ⟨fun i j => (a.row i)[j]'(by rw [hr i]; exact j.2), ?_⟩
  have h1 := Arr.ofRows_rows a hw (by rw [hs]; simp)
  refine h1.symm.trans ?_
  rw [mat]
  simp only [hs, List.tail_cons]
  congr 1
  apply List.ext_getElem
  · simp [Arr.rows, Arr.nrows, hs]
  · intro i h2 h3
    simp only [Arr.rows, List.getElem_map, List.getElem_range, List.getElem_ofFn]
    have hi : i < n := by simpa using h3
    apply List.ext_getElem
    · exact (hr ⟨i, hi⟩).trans (by simp)
    · intro j h4 h5; simp

theorem rows_mat {α : Type} {n m : ℕ} (p : Fin n → Fin m → α) : (mat p).rows = List.ofFn fun i => List.ofFn (p i) := by
  apply Arr.rows_ofRows
  intro r hr
  rw [List.mem_ofFn] at hr
  obtain ⟨i, rfl⟩ := hr
  simp

theorem sum_eq (l : List K) : Np.sum l = l.sum := by
  induction l with
  | nil => rfl
  | cons a l ih => simp only [Np.sum, List.foldr_cons, List.sum_cons]; rw [← ih]; rfl

theorem zipWith_ofFn {α β γ : Type} {n : ℕ} (f : α → β → γ) (a : Fin n → α) (b : Fin n → β) :
    List.zipWith f (List.ofFn a) (List.ofFn b) = List.ofFn fun i => f (a i) (b i) := by
  apply List.ext_getElem
  · simp
  · intro i h1 h2; simp

theorem sqDist_ofFn {m : ℕ} (p t : Fin m → K) : sqDist (List.ofFn p) (List.ofFn t) = ∑ j, (p j - t j) ^ 2 := by
  rw [sqDist, sum_eq, zipWith_ofFn, List.sum_ofFn]

theorem brierSums_mat {n m : ℕ} (p t : Fin n → Fin m → K) :
    brierSums (mat p) (mat t) = .ok (List.ofFn fun i => ∑ j, (p i j - t i j) ^ 2) := by
  have hs : ∀ q : Fin n → Fin m → K, (mat q).shape = [n, m] := fun q => by simp [mat, Arr.ofRows]
  simp only [brierSums, hs, rows_mat]
  rw [if_neg (by simp), zipWith_ofFn]
  simp only [sqDist_ofFn]

/-- **C62.** The score is the mean over the objects of the squared distances between predicted and true row; `nan` without objects. -/
theorem C62_value {n m : ℕ} (p t : Fin n → Fin m → K) :
    brierEvaluate (mat p) (mat t) = .ok (if n = 0 then none else some ((∑ i, ∑ j, (p i j - t i j) ^ 2) / n)) := by
  simp only [brierEvaluate, brierSums_mat, Except.map, npMean]
  congr 1
  by_cases hn : n = 0
  · subst hn; simp
  · rw [if_neg (by simpa using hn), if_neg hn, sum_eq, List.sum_ofFn, List.length_ofFn]

/-- **C62.** The score is zero exactly for predictions equal to the truth. -/
theorem C62_zero_iff {n m : ℕ} (hn : n ≠ 0) (p t : Fin n → Fin m → K) : brierEvaluate (mat p) (mat t) = .ok (some 0) ↔ p = t := by
  rw [C62_value, if_neg hn]
  have hnK : (n : K) ≠ 0 := by exact_mod_cast hn
  constructor
  · intro h
    have h := Option.some.inj (Except.ok.inj h)
    rw [div_eq_zero_iff, or_iff_left hnK, Finset.sum_eq_zero_iff_of_nonneg (fun i _ => Finset.sum_nonneg fun j _ => sq_nonneg _)] at h
    funext i j
    have := (Finset.sum_eq_zero_iff_of_nonneg (fun j _ => sq_nonneg _)).1 (h i (Finset.mem_univ i)) j (Finset.mem_univ j)
    rw [sq_eq_zero_iff] at this
    linarith
  · rintro rfl; simp

/-- **C62.** For probability vectors against one-hot truth the score is between 0 and 2. -/
theorem C62_range {n m : ℕ} (hn : n ≠ 0) (p t : Fin n → Fin m → K) (hp : ∀ i j, 0 ≤ p i j) (hs : ∀ i, ∑ j, p i j = 1)
    (ht : ∀ i, ∃ k, t i = Pi.single k 1) : ∃ b, brierEvaluate (mat p) (mat t) = .ok (some b) ∧ 0 ≤ b ∧ b ≤ 2 := by
  have hnK : (0 : K) < (n : K) := by exact_mod_cast Nat.pos_of_ne_zero hn
  refine ⟨_, by rw [C62_value, if_neg hn], ?_, ?_⟩
  · exact div_nonneg (Finset.sum_nonneg fun i _ => Finset.sum_nonneg fun j _ => sq_nonneg _) hnK.le
  · rw [div_le_iff₀ hnK]
    have key : ∀ i, ∑ j, (p i j - t i j) ^ 2 ≤ 2 := by
      intro i
      obtain ⟨k, hk⟩ := ht i
      have hle : ∀ j, p i j ≤ 1 := fun j => by
        rw [← hs i]; exact Finset.single_le_sum (fun j _ => hp i j) (Finset.mem_univ j)
      have h1 : ∀ j, (p i j - t i j) ^ 2 ≤ p i j + t i j := by
        intro j
        rw [hk]
        by_cases hj : j = k
        · subst hj
          simp only [Pi.single_eq_same]
          nlinarith [hp i j, hle j]
        · rw [Pi.single_eq_of_ne hj]
          nlinarith [hp i j, hle j]
      calc ∑ j, (p i j - t i j) ^ 2 ≤ ∑ j, (p i j + t i j) := Finset.sum_le_sum fun j _ => h1 j
        _ = 2 := by rw [Finset.sum_add_distrib, hs i, hk, Finset.sum_pi_single']; simp; norm_num
    calc ∑ i, ∑ j, (p i j - t i j) ^ 2 ≤ ∑ _i : Fin n, (2 : K) := Finset.sum_le_sum fun i _ => key i
      _ = 2 * n := by simp [mul_comm]

/-- **C62.** The score does not depend on the order of the objects. -/
theorem C62_order {n m : ℕ} (p t : Fin n → Fin m → K) (σ : Equiv.Perm (Fin n)) :
    brierEvaluate (mat fun i => p (σ i)) (mat fun i => t (σ i)) = brierEvaluate (mat p) (mat t) := by
  rw [C62_value, C62_value, Equiv.sum_comp σ fun i => ∑ j, (p i j - t i j) ^ 2]

/-- **C62.** Arrays of different shapes raise `ValueError`. -/
theorem C62_shape (p t : Arr K) (h : p.shape ≠ t.shape) :
    brierEvaluate p t = .error .ValueError ∧ brierAccumulate p t = .error .ValueError := by
  simp [brierEvaluate, brierAccumulate, brierSums, h, Except.map]

/-- not vacuous: two objects, three bins -/
example : brierEvaluate (mat (n := 2) (m := 3) ![![(1 : ℚ) / 2, 1 / 2, 0], ![0, 1 / 4, 3 / 4]]) (mat ![![1, 0, 0], ![0, 0, 1]])
    = .ok (some (5 / 16)) := by decide +kernel

end Verif.Props.Metrics
