import Verif.Model.AndersonKs
import Verif.Props.GoodnessOfFit
import Verif.Lemmas.EvalCase
import Verif.Lemmas.Sorted
import Mathlib.Tactic.FieldSimp
import Mathlib.Tactic.LinearCombination

/-!
Helper lemmas about the Anderson-Darling comparison: ranks as counts, the sum of squares as a weighted distance between the empirical
distribution functions, and the variance.
-/

set_option linter.unusedSectionVars false
set_option autoImplicit false

namespace Verif.Lemmas.AndersonKs

open Verif Verif.Np Verif.Model Verif.Lemmas Verif.Props.Metrics

section counts
variable {K : Type} [Field K] [LinearOrder K] [IsStrictOrderedRing K]

theorem takeWhile_count (p : K → Bool) : ∀ l : List K, (l.Pairwise fun a b => p b = true → p a = true) →
    (l.takeWhile p).length = l.countP p
  | [], _ => rfl
  | a :: t, h => by
    rw [List.pairwise_cons] at h
    by_cases ha : p a = true
    · simp [ha, takeWhile_count p t h.2]
    · have : t.countP p = 0 := by
        rw [List.countP_eq_zero]
        intro b hb hpb
        exact ha (h.1 b hb hpb)
      simp [ha, this]

theorem ssr_count {l : List K} (h : l.Pairwise (· ≤ ·)) (z : K) : searchsortedRight l z = l.countP fun v => decide (v ≤ z) := by
  unfold searchsortedRight
  refine takeWhile_count _ _ (h.imp ?_)
  intro a b hab hb
  simp only [decide_eq_true_eq] at hb ⊢
  exact hab.trans hb

theorem ssl_count {l : List K} (h : l.Pairwise (· ≤ ·)) (z : K) : searchsortedLeft l z = l.countP fun v => decide (v < z) := by
  unfold searchsortedLeft
  refine takeWhile_count _ _ (h.imp ?_)
  intro a b hab hb
  simp only [decide_eq_true_eq] at hb ⊢
  exact hab.trans_lt hb

theorem count_split (l : List K) (z : K) : (l.countP fun v => decide (v ≤ z)) = (l.countP fun v => decide (v < z)) + l.count z := by
  induction l with
  | nil => rfl
  | cons a t ih =>
    rw [List.countP_cons, List.countP_cons, List.count_cons, ih]
    rcases lt_trichotomy a z with h | h | h
    · simp [h, h.le, h.ne]; omega
    · simp [h]; omega
    · simp [not_le.2 h, not_lt.2 h.le, h.ne']

theorem ssr_sort (l : List K) (z : K) : searchsortedRight (Np.sort l) z = l.countP fun v => decide (v ≤ z) := by
  rw [ssr_count (sort_pairwise l), (sort_perm l).countP_eq]

theorem ssl_sort (l : List K) (z : K) : searchsortedLeft (Np.sort l) z = l.countP fun v => decide (v < z) := by
  rw [ssl_count (sort_pairwise l), (sort_perm l).countP_eq]

theorem lj_count (l : List K) (z : K) (hz : z ∈ l) : adLj (Np.sort l) (Np.unique (Np.sort l)) z = (l.count z : K) := by
  unfold adLj
  split_ifs with h
  · have hn : (Np.sort l).Nodup := by
      rw [length_unique] at h
      exact List.dedup_eq_self.1 ((List.dedup_sublist _).eq_of_length h.symm)
    have : l.count z = 1 := List.count_eq_one_of_mem ((sort_perm l).nodup_iff.1 hn) hz
    rw [this]; simp
  · rw [ssr_sort, ssl_sort, count_split]; push_cast; ring

theorem bj_count (l : List K) (z : K) (hz : z ∈ l) :
    adBj (Np.sort l) (Np.unique (Np.sort l)) z = ((l.countP fun v => decide (v < z) : ℕ) : K) + (l.count z : K) / 2 := by
  unfold adBj
  rw [lj_count l z hz, ssl_sort]

theorem mij_count (l : List K) (z : K) :
    adMij (Np.sort l) z = ((l.countP fun v => decide (v < z) : ℕ) : K) + (l.count z : K) / 2 := by
  unfold adMij
  rw [ssr_sort, ssl_sort, count_split]; push_cast; ring

/-- the empirical distribution function, halfway up its jumps -/
def midEcdf (data : List K) (t : K) : K := (ecdfBelow data t + ecdf data t) / 2

theorem midEcdf_mul (l : List K) (h : l ≠ []) (z : K) :
    ((l.countP fun v => decide (v < z) : ℕ) : K) + (l.count z : K) / 2 = midEcdf l z * (l.length : K) := by
  have hn : (l.length : K) ≠ 0 := by
    have := List.length_pos_iff.2 h
    positivity
  unfold midEcdf ecdf ecdfBelow
  rw [count_split]
  push_cast
  field_simp
  ring

theorem npsum_finset (l : List K) (f : K → K) : Np.sum ((Np.unique (Np.sort l)).map f) = ∑ z ∈ l.toFinset, f z := by
  show ((Np.unique (Np.sort l)).map f).sum = _
  rw [← List.sum_toFinset f (nodup_unique _)]
  refine Finset.sum_congr ?_ fun _ _ => rfl
  ext z
  rw [List.mem_toFinset, List.mem_toFinset, mem_unique, mem_sort]

theorem inner_value (x y s : List K) (hs : s ≠ []) (hx : x ++ y ≠ []) :
    adInner (Np.sort (x ++ y)) (Np.unique (Np.sort (x ++ y))) s =
      ∑ z ∈ (x ++ y).toFinset, ((x ++ y).count z : K) / ((x ++ y).length : K) *
        (((x ++ y).length : K) * (s.length : K) * (midEcdf s z - midEcdf (x ++ y) z)) ^ 2 /
        (((x ++ y).length : K) ^ 2 * (midEcdf (x ++ y) z * (1 - midEcdf (x ++ y) z) - ((x ++ y).count z : K) / ((x ++ y).length : K) / 4)) := by
  unfold adInner
  rw [npsum_finset]
  refine Finset.sum_congr rfl ?_
  intro z hz
  have hz' := List.mem_toFinset.1 hz
  have hN : ((x ++ y).length : K) ≠ 0 := by
    have := List.length_pos_iff.2 hx
    positivity
  rw [lj_count _ _ hz', bj_count _ _ hz', mij_count, length_sort, midEcdf_mul _ hx, midEcdf_mul _ hs]
  congr 1
  · ring
  · field_simp

theorem mid_append (x y : List K) (hx : x ≠ []) (hy : y ≠ []) (z : K) :
    midEcdf (x ++ y) z * ((x.length : K) + (y.length : K)) = midEcdf x z * (x.length : K) + midEcdf y z * (y.length : K) := by
  have h := midEcdf_mul (x ++ y) (by simp [hx]) z
  rw [List.length_append, Nat.cast_add] at h
  rw [← h, ← midEcdf_mul x hx, ← midEcdf_mul y hy, List.countP_append, List.count_append]
  push_cast
  ring

theorem a2_value (x y : List K) (hx : x ≠ []) (hy : y ≠ []) :
    adA2 x y = (((x ++ y).length : K) - 1) * ((x.length : K) * (y.length : K)) / ((x ++ y).length : K) ^ 2 *
      ∑ z ∈ (x ++ y).toFinset, ((x ++ y).count z : K) / ((x ++ y).length : K) * (midEcdf x z - midEcdf y z) ^ 2 /
        (midEcdf (x ++ y) z * (1 - midEcdf (x ++ y) z) - ((x ++ y).count z : K) / ((x ++ y).length : K) / 4) := by
  have hxy : x ++ y ≠ [] := by simp [hx]
  have hnx : (x.length : K) ≠ 0 := by
    have := List.length_pos_iff.2 hx
    positivity
  have hny : (y.length : K) ≠ 0 := by
    have := List.length_pos_iff.2 hy
    positivity
  have hN : ((x ++ y).length : K) ≠ 0 := by
    have := List.length_pos_iff.2 hxy
    positivity
  unfold adA2
  simp only [length_sort]
  rw [inner_value x y x hx hxy, inner_value x y y hy hxy, Finset.sum_div, Finset.sum_div, ← Finset.sum_add_distrib, Finset.sum_mul, Finset.mul_sum]
  refine Finset.sum_congr rfl ?_
  intro z hz
  have hm := mid_append x y hx hy z
  have hl : ((x ++ y).length : K) = (x.length : K) + (y.length : K) := by simp
  generalize midEcdf (x ++ y) z * (1 - midEcdf (x ++ y) z) - ((x ++ y).count z : K) / ((x ++ y).length : K) / 4 = D
  generalize midEcdf (x ++ y) z = p at *
  generalize midEcdf x z = a at *
  generalize midEcdf y z = b at *
  generalize ((x ++ y).count z : K) = c
  rw [hl] at hN ⊢
  generalize (x.length : K) = m at *
  generalize (y.length : K) = n at *
  have hp : p = (a * m + b * n) / (m + n) := by rw [eq_div_iff hN, hm]
  have e1 : (m + n) * m * (a - p) = m * n * (a - b) := by rw [hp]; field_simp; ring
  have e2 : (m + n) * n * (b - p) = - (m * n * (a - b)) := by rw [hp]; field_simp; ring
  rw [e1, e2]
  by_cases hD : D = 0
  · simp [hD]
  · field_simp
    ring

theorem denom_pos (l : List K) (z z' : K) (hz : z ∈ l) (hz' : z' ∈ l) (hne : z ≠ z') :
    0 < midEcdf l z * (1 - midEcdf l z) - (l.count z : K) / (l.length : K) / 4 := by
  have hl : l ≠ [] := List.ne_nil_of_mem hz
  have hN : (0 : K) < (l.length : K) := by
    have := List.length_pos_iff.2 hl
    positivity
  have hm := midEcdf_mul l hl z
  set L := l.countP fun v => decide (v < z) with hL
  set c := l.count z with hc
  have hc1 : 1 ≤ c := List.one_le_count_iff.2 hz
  have hle : L + c ≤ l.length := by
    rw [← count_split]; exact List.countP_le_length
  obtain ⟨R, hR⟩ := Nat.exists_eq_add_of_le hle
  have hpos : 1 ≤ L + R := by
    by_contra hcon
    have hcl : l.count z = l.length := by omega
    have := List.count_eq_length.1 hcl z' hz'
    exact hne this
  have hlen : (l.length : K) = (L : K) + (c : K) + (R : K) := by rw [hR]; push_cast; ring
  have hmid : midEcdf l z = ((L : K) + (c : K) / 2) / (l.length : K) := by rw [eq_div_iff hN.ne', ← hm]
  have key : midEcdf l z * (1 - midEcdf l z) - (c : K) / (l.length : K) / 4 =
      ((L : K) * (R : K) + ((L : K) + (R : K)) * (c : K) / 4) / (l.length : K) ^ 2 := by
    rw [hmid]
    field_simp
    rw [hlen]
    ring
  rw [key]
  have h1 : (1 : K) ≤ (L : K) + (R : K) := by exact_mod_cast hpos
  have h2 : (1 : K) ≤ (c : K) := by exact_mod_cast hc1
  have h3 : (0 : K) ≤ (L : K) * (R : K) := by positivity
  have : (0 : K) < ((L : K) + (R : K)) * (c : K) / 4 := by positivity
  positivity

theorem two_distinct (l : List K) (h : 2 ≤ (Np.unique (Np.sort l)).length) (z : K) : ∃ z' ∈ l, z ≠ z' := by
  by_contra hcon
  push Not at hcon
  have hsub : (Np.unique (Np.sort l)) ⊆ [z] := by
    intro v hv
    have := hcon v (mem_sort.1 (mem_unique.1 hv))
    simp [this]
  have := (List.subperm_of_subset (nodup_unique (Np.sort l)) hsub).length_le
  simp at this
  omega

theorem unique_two {l : List K} {a b : K} (ha : a ∈ l) (hb : b ∈ l) (hne : a ≠ b) : 2 ≤ (Np.unique (Np.sort l)).length := by
  have hsub : [a, b] ⊆ Np.unique (Np.sort l) := by
    intro v hv
    simp only [List.mem_cons, List.not_mem_nil, or_false] at hv
    rcases hv with rfl | rfl
    · exact mem_unique.2 (mem_sort.2 ha)
    · exact mem_unique.2 (mem_sort.2 hb)
  have := (List.subperm_of_subset (by simp [hne]) hsub).length_le
  simpa using this

/-- counting by distinct values -/
theorem countP_eq_sum (p : K → Bool) (S : Finset K) : ∀ l : List K, (∀ v ∈ l, v ∈ S) → l.countP p = ∑ v ∈ S, if p v = true then l.count v else 0
  | [], _ => by simp
  | a :: t, h => by
    rw [List.countP_cons, countP_eq_sum p S t fun v hv => h v (List.mem_cons_of_mem _ hv)]
    have ha : a ∈ S := h a (by simp)
    have e : ∀ v, (if p v = true then (a :: t).count v else 0) = (if p v = true then t.count v else 0) + if v = a then (if p a = true then 1 else 0) else 0 := by
      intro v
      rw [List.count_cons]
      by_cases hv : v = a
      · subst hv; by_cases hp : p v = true <;> simp [hp]
      · simp [hv, Ne.symm hv]
    simp_rw [e]
    rw [Finset.sum_add_distrib, Finset.sum_ite_eq' S a]
    simp [ha]

/-- halfway up the jumps the two distribution functions agree at every pooled value only if they agree -/
theorem mid_all (x y : List K) (hx : x ≠ []) (hy : y ≠ []) (h : ∀ z ∈ x ++ y, midEcdf x z = midEcdf y z) :
    ∀ v, (y.length : K) * (x.count v : K) = (x.length : K) * (y.count v : K) := by
  have hnx : (x.length : K) ≠ 0 := by
    have := List.length_pos_iff.2 hx
    positivity
  have hny : (y.length : K) ≠ 0 := by
    have := List.length_pos_iff.2 hy
    positivity
  by_contra hcon
  push Not at hcon
  obtain ⟨v0, hv0⟩ := hcon
  set S := (x ++ y).toFinset with hS
  have hmemS : ∀ v, v ∉ S → x.count v = 0 ∧ y.count v = 0 := by
    intro v hv
    rw [hS, List.mem_toFinset, List.mem_append, not_or] at hv
    exact ⟨List.count_eq_zero.2 hv.1, List.count_eq_zero.2 hv.2⟩
  set B := S.filter fun v => (y.length : K) * (x.count v : K) ≠ (x.length : K) * (y.count v : K) with hB
  have hv0B : v0 ∈ B := by
    rw [hB, Finset.mem_filter]
    refine ⟨?_, hv0⟩
    by_contra hn
    obtain ⟨h1, h2⟩ := hmemS v0 hn
    rw [h1, h2] at hv0
    simp at hv0
  obtain ⟨m, hmB, hmin⟩ := Finset.exists_min_image B id ⟨v0, hv0B⟩
  rw [hB, Finset.mem_filter] at hmB
  have hbelow : ∀ v, v < m → (y.length : K) * (x.count v : K) = (x.length : K) * (y.count v : K) := by
    intro v hv
    by_contra hne
    have hvB : v ∈ B := by
      rw [hB, Finset.mem_filter]
      refine ⟨?_, hne⟩
      by_contra hn
      obtain ⟨h1, h2⟩ := hmemS v hn
      rw [h1, h2] at hne
      simp at hne
    exact absurd (hmin v hvB) (not_le.2 hv)
  have hL : (y.length : K) * ((x.countP fun v => decide (v < m) : ℕ) : K) = (x.length : K) * ((y.countP fun v => decide (v < m) : ℕ) : K) := by
    rw [countP_eq_sum _ S x (fun v hv => by rw [hS, List.mem_toFinset]; simp [hv]),
      countP_eq_sum _ S y (fun v hv => by rw [hS, List.mem_toFinset]; simp [hv])]
    push_cast
    rw [Finset.mul_sum, Finset.mul_sum]
    refine Finset.sum_congr rfl ?_
    intro v _
    by_cases hv : v < m
    · simp [hv, hbelow v hv]
    · simp [hv]
  have hm := h m (List.mem_toFinset.1 hmB.1)
  have e1 := midEcdf_mul x hx m
  have e2 := midEcdf_mul y hy m
  apply hmB.2
  rw [hm] at e1
  linear_combination 2 * (y.length : K) * e1 - 2 * (x.length : K) * e2 - 2 * hL

theorem ecdf_of_counts (x y : List K) (hx : x ≠ []) (hy : y ≠ [])
    (h : ∀ v, (y.length : K) * (x.count v : K) = (x.length : K) * (y.count v : K)) (t : K) : ecdf x t = ecdf y t := by
  have hnx : (x.length : K) ≠ 0 := by
    have := List.length_pos_iff.2 hx
    positivity
  have hny : (y.length : K) ≠ 0 := by
    have := List.length_pos_iff.2 hy
    positivity
  unfold ecdf
  rw [div_eq_div_iff hnx hny, countP_eq_sum _ (x ++ y).toFinset x (fun v hv => by rw [List.mem_toFinset]; simp [hv]),
      countP_eq_sum _ (x ++ y).toFinset y (fun v hv => by rw [List.mem_toFinset]; simp [hv])]
  push_cast
  rw [Finset.sum_mul, Finset.sum_mul]
  refine Finset.sum_congr rfl ?_
  intro v _
  by_cases hv : v ≤ t
  · simp only [hv, decide_true, if_true]
    linear_combination h v
  · simp [hv]

theorem mid_of_counts (x y : List K) (hx : x ≠ []) (hy : y ≠ [])
    (h : ∀ v, (y.length : K) * (x.count v : K) = (x.length : K) * (y.count v : K)) (t : K) : midEcdf x t = midEcdf y t := by
  have hnx : (x.length : K) ≠ 0 := by
    have := List.length_pos_iff.2 hx
    positivity
  have hny : (y.length : K) ≠ 0 := by
    have := List.length_pos_iff.2 hy
    positivity
  have hb : ecdfBelow x t = ecdfBelow y t := by
    unfold ecdfBelow
    rw [div_eq_div_iff hnx hny, countP_eq_sum _ (x ++ y).toFinset x (fun v hv => by rw [List.mem_toFinset]; simp [hv]),
        countP_eq_sum _ (x ++ y).toFinset y (fun v hv => by rw [List.mem_toFinset]; simp [hv])]
    push_cast
    rw [Finset.sum_mul, Finset.sum_mul]
    refine Finset.sum_congr rfl ?_
    intro v _
    by_cases hv : v < t
    · simp only [hv, decide_true, if_true]
      linear_combination h v
    · simp [hv]
  unfold midEcdf
  rw [hb, ecdf_of_counts x y hx hy h]

end counts

section sigma
variable {K : Type} [Field K] [LinearOrder K] [IsStrictOrderedRing K]

/-- `1 + 1/2 + … + 1/n` -/
def harm (n : ℕ) : K := ∑ i ∈ Finset.range n, 1 / ((i : K) + 1)

/-- `1 + 1/4 + … + 1/n²` -/
def harm2 (n : ℕ) : K := ∑ i ∈ Finset.range n, 1 / ((i : K) + 1) ^ 2

theorem harm_succ (n : ℕ) : harm (K := K) (n + 1) = harm n + 1 / ((n : K) + 1) := Finset.sum_range_succ _ _

theorem harm2_succ (n : ℕ) : harm2 (K := K) (n + 1) = harm2 n + 1 / ((n : K) + 1) ^ 2 := Finset.sum_range_succ _ _

theorem cumsumFrom_range (m : ℕ) : ∀ (f : ℕ → K) (c : K), Np.cumsumFrom c ((List.range m).map f) =
    (List.range m).map fun i => c + ∑ j ∈ Finset.range (i + 1), f j := by
  induction m with
  | zero => intro f c; rfl
  | succ m ih =>
    intro f c
    rw [List.range_succ_eq_map, List.map_cons, List.map_cons, List.map_map, List.map_map, Np.cumsumFrom, ih]
    congr 1
    · simp
    · refine List.map_congr_left ?_
      intro i _
      simp only [Function.comp]
      rw [Finset.sum_range_succ' f (i + 1)]
      ring

theorem tail_sum (M : ℕ) : ∀ i, i ≤ M → ∑ j ∈ Finset.range (i + 1), 1 / (((M + 3 : ℕ) : K) - 1 - (j : K)) = harm (M + 2) - harm (M + 1 - i) := by
  intro i
  induction i with
  | zero =>
    intro _
    rw [Finset.sum_range_one, Nat.sub_zero, harm_succ (M + 1)]
    push_cast
    ring_nf
  | succ i ih =>
    intro hi
    rw [Finset.sum_range_succ, ih (by omega)]
    obtain ⟨r, rfl⟩ : ∃ r, M = r + (i + 1) := ⟨M - (i + 1), by omega⟩
    rw [show r + (i + 1) + 1 - i = r + 1 + 1 by omega, show r + (i + 1) + 1 - (i + 1) = r + 1 by omega, harm_succ (r + 1)]
    push_cast
    have : ((r : K) + (i + 1) + 3 - 1 - (i + 1)) = (r : K) + 1 + 1 := by ring
    rw [this]
    ring

theorem hs_eq (M : ℕ) : adHs (K := K) (M + 3) = (List.range (M + 1)).map fun i => harm (M + 2) - harm (M + 1 - i) := by
  unfold adHs Np.cumsum
  rw [cumsumFrom_range, show M + 3 - 2 = M + 1 by omega]
  refine List.map_congr_left ?_
  intro i hi
  rw [List.mem_range] at hi
  rw [zero_add, tail_sum M i (by omega)]

theorem h_eq (M : ℕ) : adH (K := K) (M + 3) = some (harm (M + 2)) := by
  unfold adH
  rw [hs_eq, List.range_succ, List.map_append, List.map_singleton, List.getLast?_concat]
  simp [harm]

theorem conv (n : ℕ) : ∑ p ∈ Finset.range n, harm (K := K) (n - p) / ((p : K) + 1) = harm (n + 1) ^ 2 - harm2 (n + 1) := by
  induction n with
  | zero => simp [harm, harm2]
  | succ n ih =>
    have hstep : ∑ p ∈ Finset.range (n + 1), harm (K := K) (n + 1 - p) / ((p : K) + 1) =
        ∑ p ∈ Finset.range n, harm (K := K) (n - p) / ((p : K) + 1) + 2 * harm (n + 1) / ((n : K) + 2) := by
      have h0 : ∑ p ∈ Finset.range n, harm (K := K) (n - p) / ((p : K) + 1) = ∑ p ∈ Finset.range (n + 1), harm (K := K) (n - p) / ((p : K) + 1) := by
        rw [Finset.sum_range_succ]; simp [harm]
      have hrefl : ∑ p ∈ Finset.range (n + 1), 1 / ((n : K) + 1 - (p : K)) = harm (n + 1) := by
        unfold harm
        rw [← Finset.sum_range_reflect]
        refine Finset.sum_congr rfl ?_
        intro p hp
        rw [Finset.mem_range] at hp
        rw [show n + 1 - 1 - p = n - p by omega, Nat.cast_sub (by omega)]
        ring_nf
      have h2 : 2 * harm (K := K) (n + 1) / ((n : K) + 2) = ∑ p ∈ Finset.range (n + 1), (1 / ((p : K) + 1) + 1 / ((n : K) + 1 - (p : K))) / ((n : K) + 2) := by
        rw [← Finset.sum_div, Finset.sum_add_distrib, hrefl]
        unfold harm
        ring
      rw [h0, h2, ← Finset.sum_add_distrib]
      refine Finset.sum_congr rfl ?_
      intro p hp
      rw [Finset.mem_range] at hp
      obtain ⟨r, rfl⟩ : ∃ r, n = r + p := ⟨n - p, by omega⟩
      rw [show r + p + 1 - p = r + 1 by omega, show r + p - p = r by omega, harm_succ]
      have e : ((r + p : ℕ) : K) + 1 - (p : K) = (r : K) + 1 := by push_cast; ring
      rw [e]
      have h1 : (r : K) + 1 ≠ 0 := by positivity
      have h3 : (p : K) + 1 ≠ 0 := by positivity
      have h4 : ((r + p : ℕ) : K) + 2 ≠ 0 := by positivity
      push_cast at h4 ⊢
      field_simp
      ring
    rw [hstep, ih, harm_succ (n + 1), harm2_succ (n + 1)]
    have h1 : ((n : K) + 1 + 1) ≠ 0 := by positivity
    have h2 : ((n : K) + 2) = (n : K) + 1 + 1 := by ring
    rw [h2]
    push_cast
    field_simp
    ring

theorem g_eq (M : ℕ) : adG (K := K) (M + 3) = harm2 (M + 2) - 2 * harm (M + 2) / ((M : K) + 3) := by
  have h1 : adG (K := K) (M + 3) = ∑ i ∈ Finset.range (M + 1), (harm (K := K) (M + 2) - harm (M + 1 - i)) / ((i : K) + 2) := by
    unfold adG
    rw [hs_eq, show M + 3 - 2 = M + 1 by omega, List.zipWith_map, List.zipWith_self]
    show (List.map _ _).sum = _
    rw [← List.sum_toFinset _ List.nodup_range]
    rw [List.toFinset_range]
  have hc := conv (K := K) (M + 2)
  rw [Finset.sum_range_succ'] at hc
  have h2 : ∑ i ∈ Finset.range (M + 1), 1 / ((i : K) + 2) = harm (M + 2) - 1 := by
    unfold harm
    rw [Finset.sum_range_succ' _ (M + 1)]
    simp only [Nat.cast_zero, zero_add, div_one, add_sub_cancel_right]
    refine Finset.sum_congr rfl ?_
    intro i _
    push_cast
    ring_nf
  have h3 : ∑ i ∈ Finset.range (M + 1), harm (K := K) (M + 2 - (i + 1)) / (((i + 1 : ℕ) : K) + 1) =
      ∑ i ∈ Finset.range (M + 1), harm (K := K) (M + 1 - i) / ((i : K) + 2) := by
    refine Finset.sum_congr rfl ?_
    intro i _
    rw [show M + 2 - (i + 1) = M + 1 - i by omega]
    push_cast
    ring_nf
  rw [h3] at hc
  have h4 : adG (K := K) (M + 3) = harm (M + 2) * (harm (M + 2) - 1) - ∑ i ∈ Finset.range (M + 1), harm (K := K) (M + 1 - i) / ((i : K) + 2) := by
    rw [h1, ← h2, Finset.mul_sum, ← Finset.sum_sub_distrib]
    refine Finset.sum_congr rfl ?_
    intro i _
    ring
  rw [h4]
  rw [harm_succ (M + 2), harm2_succ (M + 2)] at hc
  simp only [Nat.cast_zero, zero_add, div_one, Nat.sub_zero] at hc
  have h5 : ((M : K) + 3) ≠ 0 := by positivity
  have h6 : (((M + 2 : ℕ) : K) + 1) = (M : K) + 3 := by push_cast; ring
  rw [h6] at hc
  have : ∑ i ∈ Finset.range (M + 1), harm (K := K) (M + 1 - i) / ((i : K) + 2) =
      (harm (M + 2) + 1 / ((M : K) + 3)) ^ 2 - (harm2 (M + 2) + 1 / ((M : K) + 3) ^ 2) - harm (M + 2) := by linear_combination hc
  rw [this]
  field_simp
  ring

/-- the variance for two samples of `n` values each -/
theorem sigma_eq (n : ℕ) (hn : 2 ≤ n) :
    adSigmaSq (K := K) ((n + n : ℕ) : K) 2 (1 / (n : K) + 1 / (n : K)) (harm (n + n - 1)) (adG (n + n)) =
      ((4 * harm2 (n + n - 1) - 6) * (2 * (n : K)) * (2 * (n : K) - 1) + 4 * harm (n + n - 1)) / ((2 * (n : K) - 1) * (2 * (n : K) - 3)) := by
  obtain ⟨M, hM⟩ : ∃ M, n + n = M + 3 := ⟨n + n - 3, by omega⟩
  rw [hM, g_eq, show M + 3 - 1 = M + 2 by omega]
  have hMn : (M : K) + 3 = 2 * (n : K) := by
    have : ((n + n : ℕ) : K) = ((M + 3 : ℕ) : K) := by rw [hM]
    push_cast at this
    linear_combination -this
  have hn2 : (2 : K) ≤ (n : K) := by exact_mod_cast hn
  have h0 : (n : K) ≠ 0 := by positivity
  have h1 : 2 * (n : K) - 1 ≠ 0 := by
    intro h
    linarith
  have h2 : 2 * (n : K) - 2 ≠ 0 := by
    intro h
    linarith
  have h3 : 2 * (n : K) - 3 ≠ 0 := by
    intro h
    linarith
  unfold adSigmaSq
  push_cast
  rw [hMn]
  have h2' : (n : K) - 1 ≠ 0 := by
    intro h
    linarith
  rw [show 2 * (n : K) - 2 = 2 * ((n : K) - 1) by ring]
  field_simp
  ring

theorem harm_ge_one (n : ℕ) : 1 ≤ harm (K := K) (n + 1) := by
  induction n with
  | zero => simp [harm]
  | succ n ih =>
    rw [harm_succ]
    have : (0 : K) ≤ 1 / (((n + 1 : ℕ) : K) + 1) := by positivity
    linarith

theorem harm2_mono (n m : ℕ) (h : n ≤ m) : harm2 (K := K) n ≤ harm2 m := by
  unfold harm2
  refine Finset.sum_le_sum_of_subset_of_nonneg (by simpa using h) ?_
  intro i _ _
  positivity

theorem sigma_pos (n : ℕ) (hn : 2 ≤ n) :
    0 < ((4 * harm2 (n + n - 1) - 6) * (2 * (n : K)) * (2 * (n : K) - 1) + 4 * harm (n + n - 1)) / ((2 * (n : K) - 1) * (2 * (n : K) - 3)) := by
  have hn2 : (2 : K) ≤ (n : K) := by exact_mod_cast hn
  refine div_pos ?_ (mul_pos (by linarith) (by linarith))
  by_cases h4 : 4 ≤ n
  · have h1 : harm2 (K := K) 7 ≤ harm2 (n + n - 1) := harm2_mono _ _ (by omega)
    have h7 : (3 / 2 : K) < harm2 7 := by
      unfold harm2
      simp only [Finset.sum_range_succ, Finset.sum_range_zero]
      norm_num
    have h2 := harm_ge_one (K := K) (n + n - 2)
    rw [show n + n - 2 + 1 = n + n - 1 by omega] at h2
    have h3 : (0 : K) ≤ (4 * harm2 (n + n - 1) - 6) * (2 * (n : K)) * (2 * (n : K) - 1) :=
      mul_nonneg (mul_nonneg (by linarith) (by linarith)) (by linarith)
    linarith
  · rcases (by omega : n = 2 ∨ n = 3) with rfl | rfl
    · simp only [harm, harm2, Finset.sum_range_succ, Finset.sum_range_zero]
      norm_num [Finset.sum_range_succ]
    · simp only [harm, harm2, Finset.sum_range_succ, Finset.sum_range_zero]
      norm_num [Finset.sum_range_succ]

/-- the variance for two samples of any sizes, over its denominator -/
theorem sigma_gen (M : ℕ) (H : K) :
    adSigmaSq (K := K) ((M + 4 : ℕ) : K) 2 H (harm (M + 3)) (adG (M + 4)) =
      ((4 * ((M : K) + 4) * ((M : K) + 3) * (harm2 (M + 3) - 3 / 2) + 4 * harm (M + 3)) +
        (H - 4 / ((M : K) + 4)) * (2 * ((M : K) + 4)) / ((M : K) + 2) *
          (((M : K) + 3) * (5 * ((M : K) + 4) + 3) - ((M : K) + 4) * (3 * ((M : K) + 4) - 1) * harm2 (M + 3) - ((M : K) + 5) * harm (M + 3))) /
      (((M : K) + 3) * ((M : K) + 1)) := by
  rw [show M + 4 = (M + 1) + 3 by omega, g_eq, show M + 1 + 2 = M + 3 by omega]
  unfold adSigmaSq
  push_cast
  have h1 : (M : K) + 1 ≠ 0 := by positivity
  have h2 : (M : K) + 2 ≠ 0 := by positivity
  have h3 : (M : K) + 3 ≠ 0 := by positivity
  have h4 : (M : K) + 4 ≠ 0 := by positivity
  rw [show (M : K) + 1 + 3 - 1 = (M : K) + 3 by ring, show (M : K) + 1 + 3 - 2 = (M : K) + 2 by ring,
    show (M : K) + 1 + 3 - 3 = (M : K) + 1 by ring, show (M : K) + 1 + 3 = (M : K) + 4 by ring]
  field_simp
  ring

theorem harm2_upper (n : ℕ) : harm2 (K := K) (n + 1) ≤ 5 / 3 - 2 / (2 * (n : K) + 3) := by
  induction n with
  | zero => simp [harm2]; norm_num
  | succ n ih =>
    rw [harm2_succ]
    refine (add_le_add_left ih _).trans ?_
    have h1 : (0 : K) < 2 * (n : K) + 3 := by positivity
    have h2 : (0 : K) < 2 * ((n + 1 : ℕ) : K) + 3 := by positivity
    have h3 : (0 : K) < (((n + 1 : ℕ) : K) + 1) ^ 2 := by positivity
    have e : 1 / (((n + 1 : ℕ) : K) + 1) ^ 2 ≤ 2 / (2 * (n : K) + 3) - 2 / (2 * ((n + 1 : ℕ) : K) + 3) := by
      rw [div_sub_div _ _ h1.ne' h2.ne', div_le_div_iff₀ h3 (mul_pos h1 h2)]
      push_cast
      nlinarith [Nat.cast_nonneg (α := K) n]
    linarith

theorem small_num : (3 / 2 : K) < harm2 7 := by
  unfold harm2
  simp only [Finset.sum_range_succ, Finset.sum_range_zero]
  norm_num

theorem phi_pos (n : ℕ) : (0 : K) < 2 * ((n : K) + 8) * (harm2 (n + 7) - 3 / 2) + 8 / 3 - harm (n + 7) := by
  induction n with
  | zero =>
    simp only [harm, harm2, Finset.sum_range_succ, Finset.sum_range_zero]
    norm_num
  | succ n ih =>
    rw [show n + 1 + 7 = n + 7 + 1 by omega, harm_succ, harm2_succ]
    have h7 : (3 / 2 : K) < harm2 (n + 7) := small_num.trans_le (harm2_mono _ _ (by omega))
    push_cast
    have h8 : (0 : K) < (n : K) + 7 + 1 := by positivity
    have e : 2 * ((n : K) + 1 + 8) * (1 / ((n : K) + 7 + 1) ^ 2) - 1 / ((n : K) + 7 + 1) = ((n : K) + 10) / ((n : K) + 7 + 1) ^ 2 := by
      field_simp
      ring
    have e2 : (0 : K) < ((n : K) + 10) / ((n : K) + 7 + 1) ^ 2 := by positivity
    nlinarith

/-- at both ends of the range of sample sizes the variance is positive -/
theorem ends_pos (M : ℕ) :
    (0 : K) < 4 * ((M : K) + 4) * ((M : K) + 3) * (harm2 (M + 3) - 3 / 2) + 4 * harm (M + 3) ∧
    (0 : K) < 4 * ((M : K) + 4) * ((M : K) + 3) * (harm2 (M + 3) - 3 / 2) + 4 * harm (M + 3) + 2 * ((M : K) + 2) / ((M : K) + 3) *
      (((M : K) + 3) * (5 * ((M : K) + 4) + 3) - ((M : K) + 4) * (3 * ((M : K) + 4) - 1) * harm2 (M + 3) - ((M : K) + 5) * harm (M + 3)) := by
  by_cases hM : 4 ≤ M
  · obtain ⟨n, rfl⟩ := Nat.exists_eq_add_of_le' hM
    have hphi := phi_pos (K := K) n
    have h7 : (3 / 2 : K) < harm2 (n + 7) := small_num.trans_le (harm2_mono _ _ (by omega))
    have hup := harm2_upper (K := K) (n + 6)
    have hh := harm_ge_one (K := K) (n + 6)
    rw [show n + 6 + 1 = n + 7 by omega] at hup hh
    rw [show n + 4 + 3 = n + 7 by omega]
    have hc : ((n + 4 : ℕ) : K) = (n : K) + 4 := by push_cast; ring
    have hn0 : (0 : K) ≤ (n : K) := Nat.cast_nonneg n
    rw [hc]
    have hb : 4 * ((n : K) + 4 + 4) * ((n : K) + 4 + 3) * (harm2 (n + 7) - 3 / 2) ≥ 0 :=
      mul_nonneg (by positivity) (by linarith)
    refine ⟨by linarith, ?_⟩
    set B := ((n : K) + 4 + 3) * (5 * ((n : K) + 4 + 4) + 3) - ((n : K) + 4 + 4) * (3 * ((n : K) + 4 + 4) - 1) * harm2 (n + 7) -
      ((n : K) + 4 + 5) * harm (n + 7) with hB
    have hlow : 8 * ((n : K) + 8) / 3 - 5 / 2 - ((n : K) + 9) * harm (n + 7) ≤ B := by
      have hq : (0 : K) ≤ ((n : K) + 4 + 4) * (3 * ((n : K) + 4 + 4) - 1) := mul_nonneg (by positivity) (by linarith)
      have h1 := mul_le_mul_of_nonneg_left hup hq
      have h15 : (0 : K) < 2 * ((n + 6 : ℕ) : K) + 3 := by positivity
      have h2 : 3 * ((n : K) + 8) + 1 / 2 ≤ ((n : K) + 4 + 4) * (3 * ((n : K) + 4 + 4) - 1) * (2 / (2 * ((n + 6 : ℕ) : K) + 3)) := by
        rw [mul_div_assoc', le_div_iff₀ h15]
        push_cast
        nlinarith
      rw [hB]
      nlinarith
    by_cases hBn : 0 ≤ B
    · have : 0 ≤ 2 * ((n : K) + 4 + 2) / ((n : K) + 4 + 3) * B := mul_nonneg (by positivity) hBn
      linarith
    · push Not at hBn
      have hfr : 2 * ((n : K) + 4 + 2) / ((n : K) + 4 + 3) ≤ 2 := by
        rw [div_le_iff₀ (by positivity)]
        linarith
      have h3 : 2 * B ≤ 2 * ((n : K) + 4 + 2) / ((n : K) + 4 + 3) * B := mul_le_mul_of_nonpos_right hfr hBn.le
      have h4 : (0 : K) < 4 * ((n : K) + 4 + 4) * ((n : K) + 4 + 3) * (harm2 (n + 7) - 3 / 2) + 4 * harm (n + 7) +
          2 * (8 * ((n : K) + 8) / 3 - 5 / 2 - ((n : K) + 9) * harm (n + 7)) := by
        have h5 := mul_pos (show (0 : K) < 2 * ((n : K) + 7) by positivity) hphi
        nlinarith
      linarith
  · rcases (by omega : M = 0 ∨ M = 1 ∨ M = 2 ∨ M = 3) with rfl | rfl | rfl | rfl <;>
    · simp only [harm, harm2, Finset.sum_range_succ, Finset.sum_range_zero]
      norm_num

theorem sigma_gen_pos (m n : ℕ) (hm : 1 ≤ m) (hn : 1 ≤ n) (hN : 4 ≤ m + n) :
    (0 : K) < adSigmaSq ((m + n : ℕ) : K) 2 (1 / (m : K) + 1 / (n : K)) (harm (m + n - 1)) (adG (m + n)) := by
  obtain ⟨M, hM⟩ := Nat.exists_eq_add_of_le' hN
  rw [hM, show M + 4 - 1 = M + 3 by omega, sigma_gen]
  refine div_pos ?_ (by positivity)
  obtain ⟨h1, h2⟩ := ends_pos (K := K) M
  set A := 4 * ((M : K) + 4) * ((M : K) + 3) * (harm2 (M + 3) - 3 / 2) + 4 * harm (M + 3) with hA
  set B := ((M : K) + 3) * (5 * ((M : K) + 4) + 3) - ((M : K) + 4) * (3 * ((M : K) + 4) - 1) * harm2 (M + 3) - ((M : K) + 5) * harm (M + 3) with hB
  have hm1 : (1 : K) ≤ (m : K) := by exact_mod_cast hm
  have hn1 : (1 : K) ≤ (n : K) := by exact_mod_cast hn
  have hs : (m : K) + (n : K) = (M : K) + 4 := by exact_mod_cast hM
  set t := (1 / (m : K) + 1 / (n : K) - 4 / ((M : K) + 4)) * (((M : K) + 4) * ((M : K) + 3)) / ((M : K) + 2) ^ 2 with ht
  have hm0 : (0 : K) < (m : K) := by linarith
  have hn0 : (0 : K) < (n : K) := by linarith
  have hp : (0 : K) < (m : K) * (n : K) := mul_pos hm0 hn0
  have hM0 : (0 : K) ≤ (M : K) := Nat.cast_nonneg M
  have hH : 1 / (m : K) + 1 / (n : K) = ((M : K) + 4) / ((m : K) * (n : K)) := by
    rw [← hs]
    field_simp
    ring
  have e : (1 / (m : K) + 1 / (n : K) - 4 / ((M : K) + 4)) * (2 * ((M : K) + 4)) / ((M : K) + 2) * B = t * (2 * ((M : K) + 2) / ((M : K) + 3) * B) := by
    rw [ht]
    field_simp
  rw [e]
  have ht0 : 0 ≤ t := by
    rw [ht, hH]
    refine div_nonneg (mul_nonneg ?_ (by positivity)) (by positivity)
    rw [sub_nonneg, div_le_div_iff₀ (by positivity) hp]
    nlinarith [sq_nonneg ((m : K) - (n : K))]
  have ht1 : t ≤ 1 := by
    rw [ht, hH, div_le_one (by positivity)]
    have h3 : ((M : K) + 4) / ((m : K) * (n : K)) ≤ ((M : K) + 4) / ((M : K) + 3) := by
      refine div_le_div_of_nonneg_left (by positivity) (by positivity) ?_
      nlinarith [mul_nonneg (sub_nonneg.2 hm1) (sub_nonneg.2 hn1)]
    have h4 : (((M : K) + 4) / ((M : K) + 3) - 4 / ((M : K) + 4)) * (((M : K) + 4) * ((M : K) + 3)) = ((M : K) + 2) ^ 2 := by
      field_simp
      ring
    rw [← h4]
    exact mul_le_mul_of_nonneg_right (by linarith) (by positivity)
  have hk : A + t * (2 * ((M : K) + 2) / ((M : K) + 3) * B) = (1 - t) * A + t * (A + 2 * ((M : K) + 2) / ((M : K) + 3) * B) := by ring
  rw [hk]
  rcases ht0.eq_or_lt with h0 | h0
  · rw [← h0]; linarith
  · have := mul_pos h0 h2
    have := mul_nonneg (sub_nonneg.2 ht1) h1.le
    linarith

end sigma

end Verif.Lemmas.AndersonKs
