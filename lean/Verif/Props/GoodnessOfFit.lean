import Mathlib.Algebra.Order.Ring.Rat
import Mathlib.Order.Bounds.Basic
import Mathlib.Tactic.Linarith
import Mathlib.Tactic.FieldSimp
import Mathlib.Tactic.Positivity
import Verif.Props.Brier
import Verif.Lemmas.Sorted

/-!
# C66: the Kolmogorov-Smirnov statistic, C67: the Cramer-von Mises statistic, C71: outlier rates of PDFs
-/

set_option linter.unusedSectionVars false
set_option autoImplicit false

namespace Verif.Props.Metrics

open Verif Verif.Np Verif.Model Verif.Lemmas

variable {K : Type} [Field K] [LinearOrder K] [IsStrictOrderedRing K]

/-- the empirical distribution function: the fraction of samples up to `t` -/
def ecdf (data : List K) (t : K) : K := ((data.countP fun x => decide (x ≤ t) : ℕ) : K) / (data.length : K)

/-- the fraction of samples strictly below `t`, which the empirical distribution function takes just before `t` -/
def ecdfBelow (data : List K) (t : K) : K := ((data.countP fun x => decide (x < t) : ℕ) : K) / (data.length : K)

/-- a distribution function: non-decreasing with values between 0 and 1 -/
structure IsCdf (F : K → K) : Prop where
  mono : ∀ x y, x ≤ y → F x ≤ F y
  nonneg : ∀ x, 0 ≤ F x
  le_one : ∀ x, F x ≤ 1

/-- no jump up to `F x` at `x` -/
def NoJumpAt (F : K → K) (x : K) : Prop := ∀ ε, 0 < ε → ∃ y, y < x ∧ F x - F y < ε

theorem mem_zipWith_range {c : List K} {f : ℕ → K → K} {w : K} :
    w ∈ (List.range c.length).zipWith f c ↔ ∃ (i : ℕ) (v : K), c[i]? = some v ∧ w = f i v := by
  rw [List.mem_iff_getElem]
  constructor
  · rintro ⟨i, hi, rfl⟩
    have hi' : i < c.length := by simpa using hi
    exact ⟨i, c[i], by simp [hi'], by simp⟩
  · rintro ⟨i, v, hv, rfl⟩
    obtain ⟨hi, rfl⟩ := List.getElem?_eq_some_iff.1 hv
    exact ⟨i, by simpa using hi, by simp⟩

/-- what the statistic is made of -/
theorem ks_ok {F : K → K} {data : List K} {d : K} (h : ksStat F data = .ok d) :
    (∃ (i : ℕ) (x : K), (Np.sort data)[i]? = some x ∧ (d = ((i : K) + 1) / (data.length : K) - F x ∨ d = F x - (i : K) / (data.length : K))) ∧
    ∀ (i : ℕ) (x : K), (Np.sort data)[i]? = some x → ((i : K) + 1) / (data.length : K) - F x ≤ d ∧ F x - (i : K) / (data.length : K) ≤ d := by
  unfold ksStat at h
  cases h1 : dPlus ((Np.sort data).map F) with
  | error e => simp [h1, Bind.bind, Except.bind] at h
  | ok dp =>
    cases h2 : dMinus ((Np.sort data).map F) with
    | error e => simp [h1, h2, Bind.bind, Except.bind] at h
    | ok dm =>
      simp only [h1, h2, Bind.bind, Except.bind, Except.ok.injEq] at h
      subst h
      rw [dPlus, rowMax_ok_iff] at h1
      rw [dMinus, rowMax_ok_iff] at h2
      simp only [mem_zipWith_range] at h1 h2
      simp only [List.getElem?_map, Option.map_eq_some_iff, List.length_map, length_sort] at h1 h2
      obtain ⟨⟨i, _, ⟨x, hx, rfl⟩, hdp⟩, hp⟩ := h1
      obtain ⟨⟨j, _, ⟨y, hy, rfl⟩, hdm⟩, hm⟩ := h2
      constructor
      · rcases le_total dm dp with hle | hle
        · exact ⟨i, x, hx, Or.inl (by rw [max_eq_left hle, hdp])⟩
        · exact ⟨j, y, hy, Or.inr (by rw [max_eq_right hle, hdm])⟩
      · intro k z hz
        exact ⟨(hp _ ⟨k, _, ⟨z, hz, rfl⟩, rfl⟩).trans (le_max_left _ _), (hm _ ⟨k, _, ⟨z, hz, rfl⟩, rfl⟩).trans (le_max_right _ _)⟩

/-- The statistic exists exactly when there are samples; without samples the maximum of an empty array raises `ValueError`. -/
theorem C66_exists (F : K → K) (data : List K) :
    (data ≠ [] → ∃ d, ksStat F data = .ok d) ∧ (data = [] → ksStat F data = .error .ValueError) := by
  constructor
  · intro h
    have hl : data.length ≠ 0 := by simpa using h
    have ne (f : ℕ → K → K) : (List.range ((Np.sort data).map F).length).zipWith f ((Np.sort data).map F) ≠ [] := by
      intro h'
      have := congrArg List.length h'
      simp at this
      exact h this
    obtain ⟨dp, h1⟩ := rowMax_exists (ne fun (i : ℕ) v => ((i : K) + 1) / (((Np.sort data).map F).length : K) - v)
    obtain ⟨dm, h2⟩ := rowMax_exists (ne fun (i : ℕ) v => v - (i : K) / (((Np.sort data).map F).length : K))
    exact ⟨max dp dm, by simp only [ksStat, dPlus, dMinus, h1, h2, Bind.bind, Except.bind]⟩
  · rintro rfl
    simp [ksStat, dPlus, Np.sort, rowMax, Bind.bind, Except.bind]

/-- The statistic of `n` samples is at least `1/(2n)`, whatever the reference, and at most 1 for a reference with values between 0 and 1. -/
theorem C66_bounds (F : K → K) (data : List K) (d : K) (h : ksStat F data = .ok d) :
    1 / (2 * (data.length : K)) ≤ d ∧ ((∀ x, 0 ≤ F x ∧ F x ≤ 1) → d ≤ 1) := by
  obtain ⟨⟨i, x, hx, hd⟩, hall⟩ := ks_ok h
  have hi : i < data.length := by simpa using (List.getElem?_eq_some_iff.1 hx).1
  have hn : (0 : K) < (data.length : K) := by exact_mod_cast (by omega : 0 < data.length)
  constructor
  · obtain ⟨h1, h2⟩ := hall i x hx
    have e : ((i : K) + 1) / (data.length : K) - (i : K) / (data.length : K) = 1 / (data.length : K) := by rw [← sub_div]; ring_nf
    have e2 : 1 / (2 * (data.length : K)) = 1 / (data.length : K) / 2 := by field_simp
    rw [e2]
    linarith
  · intro hF
    have hi0 : (0 : K) ≤ (i : K) / (data.length : K) := by positivity
    have hi1 : ((i : K) + 1) / (data.length : K) ≤ 1 := by
      rw [div_le_one hn]
      exact_mod_cast hi
    rcases hd with rfl | rfl
    · linarith [(hF x).1]
    · linarith [(hF x).2]

/-- The order of the samples does not matter. -/
theorem C66_order (F : K → K) (data data' : List K) (h : data.Perm data') : ksStat F data = ksStat F data' := by
  simp only [ksStat, sort_eq_of_perm h]

theorem ecdf_eq_sort (data : List K) (t : K) :
    ecdf data t = (((Np.sort data).countP fun x => decide (x ≤ t) : ℕ) : K) / (data.length : K) := by
  rw [ecdf, (sort_perm data).countP_eq]

/-- For every reference distribution function the statistic is an upper bound of the distance to the empirical one, at every point. -/
theorem C66_upper (F : K → K) (hF : IsCdf F) (data : List K) (d : K) (h : ksStat F data = .ok d) (t : K) : |ecdf data t - F t| ≤ d := by
  obtain ⟨⟨i0, x0, hx0, _⟩, hall⟩ := ks_ok h
  have hi0 : i0 < data.length := by simpa using (List.getElem?_eq_some_iff.1 hx0).1
  have hn : (0 : K) < (data.length : K) := by exact_mod_cast (by omega : 0 < data.length)
  rw [ecdf_eq_sort]
  set k := (Np.sort data).countP fun x => decide (x ≤ t) with hk
  have hkn : k ≤ data.length := by rw [hk]; simpa using List.countP_le_length (p := fun x => decide (x ≤ t)) (l := Np.sort data)
  have cnt := fun i v hv => count_le_iff (sort_pairwise data) t i v hv
  rw [← hk] at cnt
  have get (i : ℕ) (hi : i < data.length) : ∃ x, (Np.sort data)[i]? = some x := ⟨(Np.sort data)[i]'(by simpa using hi), by simp [hi]⟩
  rw [abs_le]
  constructor
  · -- F t ≤ k / n + d
    by_cases hkl : k < data.length
    · obtain ⟨x, hx⟩ := get k hkl
      have hxt : t ≤ x := le_of_not_ge fun hle => by have := (cnt k x hx).1 hle; omega
      linarith [(hall k x hx).2, hF.mono t x hxt]
    · have hkeq : k = data.length := by omega
      rw [hkeq, div_self hn.ne']
      obtain ⟨x, hx⟩ := get 0 (by omega)
      have := C66_bounds F data d h
      have hpos : 0 < 1 / (2 * (data.length : K)) := by positivity
      linarith [hF.le_one t, this.1]
  · by_cases hk0 : k = 0
    · rw [hk0]
      have := C66_bounds F data d h
      have hpos : 0 < 1 / (2 * (data.length : K)) := by positivity
      simp only [Nat.cast_zero, zero_div]
      linarith [hF.nonneg t, this.1]
    · obtain ⟨x, hx⟩ := get (k - 1) (by omega)
      have hxt : x ≤ t := (cnt (k - 1) x hx).2 (by omega)
      have e : ((k - 1 : ℕ) : K) + 1 = (k : K) := by exact_mod_cast (by omega : k - 1 + 1 = k)
      have := (hall (k - 1) x hx).1
      rw [e] at this
      linarith [hF.mono x t hxt]

/-- **C66**, for a reference without jumps at the samples: the statistic is the least upper bound of the distance between the empirical and
the reference distribution function. (For a reference that jumps at a sample the code's value is larger: `C66_jump_wrong`, and
`C66_exact` for what it is.) -/
theorem C66_largest_partial (F : K → K) (hF : IsCdf F) (data : List K) (hj : ∀ x ∈ data, NoJumpAt F x) (d : K) (h : ksStat F data = .ok d) :
    IsLUB (Set.range fun t => |ecdf data t - F t|) d := by
  refine ⟨?_, ?_⟩
  · rintro _ ⟨t, rfl⟩
    exact C66_upper F hF data d h t
  · intro b hb
    have hb' : ∀ t, |ecdf data t - F t| ≤ b := fun t => hb ⟨t, rfl⟩
    obtain ⟨⟨i, x, hx, hd⟩, hall⟩ := ks_ok h
    have hi : i < data.length := by simpa using (List.getElem?_eq_some_iff.1 hx).1
    have hn : (0 : K) < (data.length : K) := by exact_mod_cast (by omega : 0 < data.length)
    rcases hd with rfl | rfl
    · have hc := (count_le_iff (sort_pairwise data) x i x hx).1 le_rfl
      have h1 : ((i : K) + 1) / (data.length : K) ≤ ecdf data x := by
        rw [ecdf_eq_sort]
        apply div_le_div_of_nonneg_right _ hn.le
        exact_mod_cast hc
      linarith [le_abs_self (ecdf data x - F x), hb' x]
    · refine le_of_forall_pos_le_add fun ε hε => ?_
      obtain ⟨y, hy, hFy⟩ := hj x (mem_sort.1 (List.mem_of_getElem? hx)) ε hε
      have hc : ¬ i < (Np.sort data).countP (fun z => decide (z ≤ y)) := fun hh =>
        absurd ((count_le_iff (sort_pairwise data) y i x hx).2 hh) (not_le.2 hy)
      have h1 : ecdf data y ≤ (i : K) / (data.length : K) := by
        rw [ecdf_eq_sort]
        apply div_le_div_of_nonneg_right _ hn.le
        exact_mod_cast not_lt.1 hc
      linarith [neg_abs_le (ecdf data y - F y), hb' y]

/-- A reference that jumps at a sample: a point mass at 0 and the single sample 0 have the same distribution function everywhere, but the
statistic is 1. -/
theorem C66_jump_wrong : ∃ (F : ℚ → ℚ) (data : List ℚ), IsCdf F ∧ ksStat F data = .ok 1 ∧ ∀ t, ecdf data t = F t := by
  refine ⟨fun x => if x < 0 then 0 else 1, [0], ⟨?_, ?_, ?_⟩, by decide +kernel, ?_⟩
  · intro x y hxy
    split_ifs <;> norm_num
    linarith
  · intro x; split_ifs <;> norm_num
  · intro x; split_ifs <;> norm_num
  · intro t
    by_cases ht : t < 0 <;> simp [ecdf, ht, not_le.2, List.countP_cons]

/-- What the statistic is for **every** reference distribution function: the least upper bound of the distances at all points together with the
excess of the reference over the fraction of samples strictly below, at the samples. -/
theorem C66_exact (F : K → K) (hF : IsCdf F) (data : List K) (d : K) (h : ksStat F data = .ok d) :
    IsLUB ((Set.range fun t => |ecdf data t - F t|) ∪ {w | ∃ x ∈ data, w = F x - ecdfBelow data x}) d := by
  obtain ⟨⟨i, x, hx, hd⟩, hall⟩ := ks_ok h
  have hi : i < data.length := by simpa using (List.getElem?_eq_some_iff.1 hx).1
  have hn : (0 : K) < (data.length : K) := by exact_mod_cast (by omega : 0 < data.length)
  -- positions below the first occurrence of a value
  have below (z : K) : ecdfBelow data z = (((Np.sort data).countP fun x => decide (x < z) : ℕ) : K) / (data.length : K) := by
    rw [ecdfBelow, (sort_perm data).countP_eq]
  have cnt (z : K) (k : ℕ) (v : K) (hv : (Np.sort data)[k]? = some v) :
      v < z ↔ k < (Np.sort data).countP (fun x => decide (x < z)) := count_lt_iff (sort_pairwise data) z k v hv
  refine ⟨?_, ?_⟩
  · rintro w (⟨t, rfl⟩ | ⟨z, hz, rfl⟩)
    · exact C66_upper F hF data d h t
    · -- the first position of z
      rw [below]
      set k := (Np.sort data).countP fun x => decide (x < z) with hk
      have hkl : k < data.length := by
        have h1 : k ≤ data.length := by rw [hk]; simpa using List.countP_le_length (p := fun x => decide (x < z)) (l := Np.sort data)
        refine lt_of_le_of_ne h1 fun he => ?_
        have : ∀ v ∈ Np.sort data, v < z := by
          have := List.countP_eq_length (p := fun x => decide (x < z)) (l := Np.sort data)
          rw [← hk, he, length_sort] at this
          simpa using this.1 rfl
        exact lt_irrefl _ (this z (mem_sort.2 hz))
      have hv : (Np.sort data)[k]? = some ((Np.sort data)[k]'(by simpa using hkl)) := by simp [hkl]
      have hge : z ≤ (Np.sort data)[k]'(by simpa using hkl) := not_lt.1 fun hlt => by
        have := (cnt z k _ hv).1 hlt
        omega
      linarith [(hall k _ hv).2, hF.mono _ _ hge]
  · intro b hb
    rcases hd with rfl | rfl
    · have hc := (count_le_iff (sort_pairwise data) x i x hx).1 le_rfl
      have h1 : ((i : K) + 1) / (data.length : K) ≤ ecdf data x := by
        rw [ecdf_eq_sort]
        apply div_le_div_of_nonneg_right _ hn.le
        exact_mod_cast hc
      have := hb (Or.inl ⟨x, rfl⟩)
      simp only at this
      linarith [le_abs_self (ecdf data x - F x)]
    · have := hb (Or.inr ⟨x, mem_sort.1 (List.mem_of_getElem? hx), rfl⟩)
      have hc : ¬ i < (Np.sort data).countP (fun z => decide (z < x)) := fun hh => lt_irrefl _ ((cnt x i x hx).2 hh)
      have h1 : ecdfBelow data x ≤ (i : K) / (data.length : K) := by
        rw [below]
        apply div_le_div_of_nonneg_right _ hn.le
        exact_mod_cast not_lt.1 hc
      linarith

/-- the uniform distribution on [0, 1] as reference, a repeated sample: the hypotheses hold and the statistic is 1/2 -/
example : IsCdf (fun x : ℚ => max 0 (min x 1)) ∧ (∀ x ∈ ([1/4, 1/2, 1/4] : List ℚ), NoJumpAt (fun x : ℚ => max 0 (min x 1)) x) ∧
    ksStat (K := ℚ) (fun x => max 0 (min x 1)) [1/4, 1/2, 1/4] = .ok (1/2) := by
  refine ⟨⟨fun x y h => max_le_max le_rfl (min_le_min h le_rfl), fun x => le_max_left _ _, fun x => max_le zero_le_one (min_le_right _ _)⟩, ?_,
    by decide +kernel⟩
  intro x hx ε hε
  refine ⟨x - ε / 2, by linarith, ?_⟩
  simp only
  rcases max_cases 0 (min x 1) with ⟨h1, h1'⟩ | ⟨h1, h1'⟩ <;> rcases max_cases 0 (min (x - ε / 2) 1) with ⟨h2, h2'⟩ | ⟨h2, h2'⟩ <;>
  rcases min_cases x 1 with ⟨h3, h3'⟩ | ⟨h3, h3'⟩ <;> rcases min_cases (x - ε / 2) 1 with ⟨h4, h4'⟩ | ⟨h4, h4'⟩ <;>
  linarith

/-! ## C67 -/

/-- The order of the samples does not matter. -/
theorem C67_order (F : K → K) (data data' : List K) (h : data.Perm data') : cvmStat F data = cvmStat F data' := by
  simp only [cvmStat, sort_eq_of_perm h, h.length_eq]

/-- Without samples the statistic raises `ZeroDivisionError`; with samples it exists. -/
theorem C67_exists (F : K → K) (data : List K) :
    (data = [] → cvmStat F data = .error .ZeroDivisionError) ∧ (data ≠ [] → ∃ w, cvmStat F data = .ok w) := by
  constructor
  · rintro rfl; simp [cvmStat]
  · intro h
    have h0 : data.length ≠ 0 := by simpa using h
    simp only [cvmStat, h0, if_false]
    exact ⟨_, rfl⟩

theorem cvm_ok {F : K → K} {data : List K} {w : K} (h : cvmStat F data = .ok w) :
    data ≠ [] ∧ ∃ ts : List K, w = 1 / (12 * (data.length : K)) + ts.sum ∧ ts.length = data.length ∧
      ∀ t, t ∈ ts ↔ ∃ (i : ℕ) (x : K), (Np.sort data)[i]? = some x ∧ t = ((2 * (i : K) + 1) / (2 * (data.length : K)) - F x) ^ 2 := by
  unfold cvmStat at h
  by_cases h0 : data.length = 0
  · simp [h0] at h
  · simp only [h0, if_false, Except.ok.injEq] at h
    refine ⟨by simpa using h0, _, by rw [← sum_eq]; exact h.symm, by simp, ?_⟩
    intro t
    have hlen : data.length = ((Np.sort data).map F).length := by simp
    rw [List.mem_iff_getElem]
    constructor
    · rintro ⟨i, hi, rfl⟩
      have hi' : i < data.length := by simpa using hi
      refine ⟨i, (Np.sort data)[i]'(by simpa using hi'), by simp [hi'], ?_⟩
      simp
      ring_nf
    · rintro ⟨i, x, hx, rfl⟩
      obtain ⟨hi, rfl⟩ := List.getElem?_eq_some_iff.1 hx
      have hi' : i < data.length := by simpa using hi
      refine ⟨i, by simpa using hi', ?_⟩
      simp
      ring_nf

/-- **C67.** The statistic of `n` samples is at least `1/(12n)` ... -/
theorem C67_lower (F : K → K) (data : List K) (w : K) (h : cvmStat F data = .ok w) : 1 / (12 * (data.length : K)) ≤ w := by
  obtain ⟨_, ts, rfl, _, hm⟩ := cvm_ok h
  have : 0 ≤ ts.sum := List.sum_nonneg fun t ht => by obtain ⟨i, x, _, rfl⟩ := (hm t).1 ht; positivity
  linarith

/-- ... with equality exactly when the reference takes the midpoints `(2i+1)/(2n)` at the sorted samples ... -/
theorem C67_lower_iff (F : K → K) (data : List K) (w : K) (h : cvmStat F data = .ok w) :
    w = 1 / (12 * (data.length : K)) ↔
      ∀ (i : ℕ) x, (Np.sort data)[i]? = some x → F x = (2 * (i : K) + 1) / (2 * (data.length : K)) := by
  obtain ⟨_, ts, rfl, _, hm⟩ := cvm_ok h
  have hnn : ∀ t ∈ ts, 0 ≤ t := fun t ht => by obtain ⟨i, x, _, rfl⟩ := (hm t).1 ht; positivity
  have h0 : ts.sum = 0 ↔ ∀ t ∈ ts, t = 0 := by
    clear hm h
    rename_i hlen
    clear hlen
    induction ts with
    | nil => simp
    | cons a ts ih =>
      have ha := hnn a (by simp)
      have hs : 0 ≤ ts.sum := List.sum_nonneg fun t ht => hnn t (by simp [ht])
      have := ih fun t ht => hnn t (by simp [ht])
      simp only [List.sum_cons, List.forall_mem_cons]
      rw [← this]
      refine ⟨fun h => ⟨by linarith, by linarith⟩, fun h => by rw [h.1, h.2]; simp⟩
  rw [show (1 / (12 * (data.length : K)) + ts.sum = 1 / (12 * (data.length : K)) ↔ ts.sum = 0) from ⟨fun h => by linarith, fun h => by linarith⟩, h0]
  constructor
  · intro h i x hx
    have := h _ ((hm _).2 ⟨i, x, hx, rfl⟩)
    have := pow_eq_zero_iff (two_ne_zero) |>.1 this
    linarith
  · intro h t ht
    obtain ⟨i, x, hx, rfl⟩ := (hm t).1 ht
    rw [h i x hx]; simp

/-- ... and at most `1/(12n) + n` for a reference with values between 0 and 1. -/
theorem C67_upper (F : K → K) (hF : ∀ x, 0 ≤ F x ∧ F x ≤ 1) (data : List K) (w : K) (h : cvmStat F data = .ok w) :
    w ≤ 1 / (12 * (data.length : K)) + (data.length : K) := by
  obtain ⟨hne, ts, rfl, hl, hm⟩ := cvm_ok h
  have hn : (0 : K) < (data.length : K) := by exact_mod_cast List.length_pos_iff.2 hne
  have : ts.sum ≤ (ts.length : K) * 1 := by
    rw [← nsmul_eq_mul]
    apply List.sum_le_card_nsmul
    intro t ht
    obtain ⟨i, x, hx, rfl⟩ := (hm t).1 ht
    have hi : i < data.length := by simpa using (List.getElem?_eq_some_iff.1 hx).1
    have hi1 : (i : K) + 1 ≤ (data.length : K) := by exact_mod_cast hi
    have u0 : 0 ≤ (2 * (i : K) + 1) / (2 * (data.length : K)) := by positivity
    have u1 : (2 * (i : K) + 1) / (2 * (data.length : K)) ≤ 1 := by rw [div_le_one (by positivity)]; linarith
    rw [sq_le_one_iff_abs_le_one, abs_le]
    constructor <;> linarith [(hF x).1, (hF x).2]
  rw [hl] at this
  linarith

/-- samples at the midpoints of the uniform distribution (not in order), and samples elsewhere -/
example : cvmStat (K := ℚ) id [3/4, 1/4] = .ok (1 / 24) ∧ cvmStat (K := ℚ) id [1, 0] = .ok (1 / 24 + 1 / 8) := by decide +kernel

/-! ## C71 for PDFs -/

/-- **C71**, `calculate_outlier_rate`: for a distribution function and limits in order, the rate is between 0 and 1. -/
theorem C71_rate (F : K → K) (hF : IsCdf F) (lo up : K) (h : lo ≤ up) : 0 ≤ outlierRate F lo up ∧ outlierRate F lo up ≤ 1 := by
  unfold outlierRate
  have := hF.mono lo up h
  exact ⟨by linarith [hF.nonneg lo, hF.le_one up], by linarith⟩

/-- The rate is what the mass between the limits leaves of 1; enlarging the interval does not increase it. -/
theorem C71_mono (F : K → K) (hF : IsCdf F) (lo up lo' up' : K) (h1 : lo' ≤ lo) (h2 : up ≤ up') :
    outlierRate F lo' up' ≤ outlierRate F lo up ∧ outlierRate F lo up = 1 - (F up - F lo) := by
  unfold outlierRate
  exact ⟨by linarith [hF.mono _ _ h1, hF.mono _ _ h2], by ring⟩

example : IsCdf (fun x : ℚ => max 0 (min x 1)) ∧ outlierRate (fun x : ℚ => max 0 (min x 1)) (1/10) (4/5) = 3/10 :=
  ⟨⟨fun x y h => max_le_max le_rfl (min_le_min h le_rfl), fun x => le_max_left _ _, fun x => max_le zero_le_one (min_le_right _ _)⟩,
    by decide +kernel⟩

end Verif.Props.Metrics
