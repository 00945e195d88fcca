import Verif.Props.Bins
import Verif.Model.MetricsReal
import Verif.Props.Brier
import Verif.Lemmas.Dict

/-!
# C76: profile statistics
-/

set_option linter.unusedSectionVars false
set_option autoImplicit false

namespace Verif.Props.Profile

open Verif Verif.Np Verif.Model Verif.Props.Bins Verif.Props.Metrics

/-- the ordinates of the points whose abscissa satisfies `P`, in order -/
noncomputable def ordinates (P : ℝ → Prop) (xs ys : List ℝ) : List ℝ := by
  classical exact ((xs.zip ys).filter fun c => decide (P c.1)).map (·.2)

theorem lookup_ok (bins : List ℝ) (h2 : 2 ≤ bins.length) (xs : List ℝ) :
    ∃ lk : List (ℕ × Bool), xs.mapM (getBinIndex bins) = .ok lk ∧ lk = xs.map (fun x => ((getBinIndex bins x).toOption).getD (0, false)) := by
  refine ⟨_, ?_, rfl⟩
  apply Lemmas.mapM_ok_map
  intro x _
  obtain ⟨i, m, h, _⟩ := C05_index_valid bins h2 x
  simp [h, Except.toOption]

/-- Two or more edges: the profile exists, with one entry per bin, computed from the values of the points that the lookup puts into the bin. -/
theorem C76_entries (xs ys bins : List ℝ) (std : Bool) (h2 : 2 ≤ bins.length) (hl : xs.length = ys.length) :
    profile xs ys bins std = .ok ((List.range (bins.length - 1)).map fun i =>
      profileBin std (ordinates (fun x => getBinIndex bins x = .ok (i, true)) xs ys)) := by
  obtain ⟨lk, h1, rfl⟩ := lookup_ok bins h2 xs
  unfold profile
  rw [h1]
  simp only [Bind.bind, Except.bind]
  rw [if_neg (fun h => h.1 hl)]
  simp only [Except.ok.injEq]
  apply List.map_congr_left
  intro i _
  congr 1
  unfold binValues ordinates
  rw [List.zip_map_left, List.filter_map, List.map_map]
  have : (fun c : ℝ × ℝ => decide (getBinIndex bins c.1 = .ok (i, true))) =
      ((fun c : (ℕ × Bool) × ℝ => c.1.2 && decide (c.1.1 = i)) ∘ Prod.map (fun x => ((getBinIndex bins x).toOption).getD (0, false)) id) := by
    funext c
    obtain ⟨j, m, h, _⟩ := C05_index_valid bins h2 c.1
    simp only [h, Except.toOption, Function.comp, Prod.map, Option.getD_some, Except.ok.injEq, Prod.mk.injEq]
    cases m <;> simp
  rw [← this]
  have e : (fun c : ℝ × ℝ => c.2) = (fun x => x.2) ∘ Prod.map (fun x => ((getBinIndex bins x).toOption).getD (0, false)) id := rfl
  rw [← e]
  congr 2
  funext c
  congr 1

/-- Different numbers of abscissas and ordinates are refused as soon as one abscissa is in range; without any, the profile has no values. -/
theorem C76_lengths (xs ys bins : List ℝ) (std : Bool) (h2 : 2 ≤ bins.length) (hl : xs.length ≠ ys.length) :
    ((∃ x ∈ xs, ∃ i, getBinIndex bins x = .ok (i, true)) → profile xs ys bins std = .error .IndexError) ∧
    ((∀ x ∈ xs, ∃ i, getBinIndex bins x = .ok (i, false)) → profile xs ys bins std = .ok (List.replicate (bins.length - 1) none)) := by
  obtain ⟨lk, h1, rfl⟩ := lookup_ok bins h2 xs
  unfold profile
  rw [h1]
  simp only [Bind.bind, Except.bind]
  constructor
  · rintro ⟨x, hx, i, hi⟩
    rw [if_pos]
    refine ⟨hl, List.any_eq_true.2 ⟨_, List.mem_map_of_mem hx, ?_⟩⟩
    simp [hi, Except.toOption]
  · intro h
    have hf : ∀ l ∈ xs.map (fun x => ((getBinIndex bins x).toOption).getD (0, false)), l.2 = false := by
      intro l hl'
      obtain ⟨x, hx, rfl⟩ := List.mem_map.1 hl'
      obtain ⟨i, hi⟩ := h x hx
      simp [hi, Except.toOption]
    rw [if_neg]
    · simp only [Except.ok.injEq]
      rw [List.eq_replicate_iff]
      refine ⟨by simp, ?_⟩
      intro b hb
      obtain ⟨i, -, rfl⟩ := List.mem_map.1 hb
      have : binValues (xs.map fun x => ((getBinIndex bins x).toOption).getD (0, false)) ys i = [] := by
        unfold binValues
        rw [List.map_eq_nil_iff, List.filter_eq_nil_iff]
        rintro ⟨l, y⟩ hc
        simp [hf l (List.of_mem_zip hc).1]
      rw [this]
      rfl
    · rintro ⟨-, ha⟩
      obtain ⟨l, hl', ht⟩ := List.any_eq_true.1 ha
      rw [hf l hl'] at ht
      exact absurd ht (by simp)

/-- Every point is put into at most one bin, and the bins together hold every point that the lookup flags as in range. -/
theorem C76_one_bin (bins : List ℝ) (h2 : 2 ≤ bins.length) (x : ℝ) :
    (∃! i, i < bins.length - 1 ∧ getBinIndex bins x = .ok (i, true)) ∨ ∃ i, getBinIndex bins x = .ok (i, false) := by
  obtain ⟨i, m, h, hi⟩ := C05_index_valid bins h2 x
  cases m with
  | false => exact Or.inr ⟨i, h⟩
  | true =>
    refine Or.inl ⟨i, ⟨hi, h⟩, ?_⟩
    rintro j ⟨_, hj⟩
    rw [h] at hj
    cases hj
    rfl

theorem ordinates_congr {P Q : ℝ → Prop} (h : ∀ x, P x ↔ Q x) (xs ys : List ℝ) : ordinates P xs ys = ordinates Q xs ys := by
  have : P = Q := funext fun x => propext (h x)
  rw [this]

/-- **C76**, the assignment to bins, for strictly increasing edges with exactly equal or detectably unequal widths: entry `i` comes from the
points between edges `i` and `i+1` (closed on the left for equal widths, on the right otherwise). Missing: edges that are unequal by less
than numpy's tolerance, where the lookup is wrong (C05). -/
theorem C76_assign_partial (xs ys bins : List ℝ) (std : Bool) (h2 : 2 ≤ bins.length) (hl : xs.length = ys.length)
    (hs : bins.Pairwise (· < ·)) :
    (Uniform bins → ∃ out, profile xs ys bins std = .ok out ∧ out.length = bins.length - 1 ∧
      ∀ (i : ℕ) a b, bins[i]? = some a → bins[i+1]? = some b → out[i]? = some (profileBin std (ordinates (fun x => a ≤ x ∧ x < b) xs ys))) ∧
    (DetectablyNonUniform bins → ∃ out, profile xs ys bins std = .ok out ∧ out.length = bins.length - 1 ∧
      ∀ (i : ℕ) a b, bins[i]? = some a → bins[i+1]? = some b → out[i]? = some (profileBin std (ordinates (fun x => a < x ∧ x ≤ b) xs ys))) := by
  constructor
  · intro hu
    refine ⟨_, C76_entries xs ys bins std h2 hl, by simp, ?_⟩
    intro i a b ha hb
    have hi : i < bins.length - 1 := by
      have := (List.getElem?_eq_some_iff.1 hb).1
      omega
    rw [List.getElem?_map, List.getElem?_range hi, Option.map_some]
    congr 2
    apply ordinates_congr
    intro x
    rw [C05_uniform_iff bins h2 hs hu x i]
    constructor
    · rintro ⟨a', b', ha', hb', h⟩
      rw [ha] at ha'; rw [hb] at hb'; cases ha'; cases hb'
      exact h
    · intro h; exact ⟨a, b, ha, hb, h⟩
  · intro hd
    refine ⟨_, C76_entries xs ys bins std h2 hl, by simp, ?_⟩
    intro i a b ha hb
    have hi : i < bins.length - 1 := by
      have := (List.getElem?_eq_some_iff.1 hb).1
      omega
    rw [List.getElem?_map, List.getElem?_range hi, Option.map_some]
    congr 2
    apply ordinates_congr
    intro x
    rw [C05_nonuniform_iff bins h2 hs hd x i]
    constructor
    · rintro ⟨a', b', ha', hb', h⟩
      rw [ha] at ha'; rw [hb] at hb'; cases ha'; cases hb'
      exact h
    · intro h; exact ⟨a, b, ha, hb, h⟩

/-- Exactly the empty bins are NaN. -/
theorem C76_empty (std : Bool) (v : List ℝ) : profileBin std v = none ↔ v = [] := by
  unfold profileBin; split_ifs with h <;> simp [h]

theorem sum_bounds (v : List ℝ) (lo hi : ℝ) (h : ∀ y ∈ v, lo ≤ y ∧ y ≤ hi) : (v.length : ℝ) * lo ≤ v.sum ∧ v.sum ≤ (v.length : ℝ) * hi := by
  induction v with
  | nil => simp
  | cons a v ih =>
    have := ih fun y hy => h y (by simp [hy])
    have := h a (by simp)
    simp only [List.length_cons, List.sum_cons]
    push_cast
    constructor <;> linarith

/-- The reported mean lies between any bounds of the values in the bin (in particular between the smallest and the largest). -/
theorem C76_mean (std : Bool) (v : List ℝ) (m s lo hi : ℝ) (h : profileBin std v = some (m, s)) (hv : ∀ y ∈ v, lo ≤ y ∧ y ≤ hi) :
    lo ≤ m ∧ m ≤ hi := by
  unfold profileBin at h
  split_ifs at h with h0
  all_goals
    simp only [Option.some.injEq, Prod.mk.injEq] at h
    obtain ⟨rfl, _⟩ := h
    have hn : (0 : ℝ) < (v.length : ℝ) := by exact_mod_cast List.length_pos_iff.2 h0
    obtain ⟨h1, h2⟩ := sum_bounds v lo hi hv
    rw [meanOf, sum_eq, le_div_iff₀ hn, div_le_iff₀ hn]
    constructor <;> linarith

theorem sum_sq_zero (v : List ℝ) (c : ℝ) : (v.map fun y => (y - c) ^ 2).sum = 0 ↔ ∀ y ∈ v, y = c := by
  induction v with
  | nil => simp
  | cons a v ih =>
    have h1 : 0 ≤ (v.map fun y => (y - c) ^ 2).sum := List.sum_nonneg fun t ht => by
      simp only [List.mem_map] at ht
      obtain ⟨y, _, rfl⟩ := ht
      positivity
    have h2 : 0 ≤ (a - c) ^ 2 := by positivity
    simp only [List.map_cons, List.sum_cons, List.forall_mem_cons]
    rw [← ih]
    constructor
    · intro h
      have : (a - c) ^ 2 = 0 := by linarith
      exact ⟨by have := pow_eq_zero_iff (two_ne_zero) |>.1 this; linarith, by linarith⟩
    · rintro ⟨rfl, h⟩; rw [h]; simp

/-- The reported spread is never negative, and zero exactly when all values in the bin are equal -- for the standard deviation and for the
error on the mean. -/
theorem C76_spread (std : Bool) (v : List ℝ) (m s : ℝ) (h : profileBin std v = some (m, s)) :
    0 ≤ s ∧ (s = 0 ↔ ∀ y ∈ v, ∀ z ∈ v, y = z) := by
  unfold profileBin at h
  have key : v ≠ [] → 0 ≤ stdOf v ∧ (stdOf v = 0 ↔ ∀ y ∈ v, ∀ z ∈ v, y = z) := by
    intro h0
    have hn : (0 : ℝ) < (v.length : ℝ) := by exact_mod_cast List.length_pos_iff.2 h0
    refine ⟨Real.sqrt_nonneg _, ?_⟩
    have hsum : 0 ≤ (v.map fun y => (y - meanOf v) ^ 2).sum := List.sum_nonneg fun t ht => by
      simp only [List.mem_map] at ht
      obtain ⟨y, _, rfl⟩ := ht
      positivity
    rw [stdOf, Real.sqrt_eq_zero (by rw [meanOf, sum_eq]; apply div_nonneg hsum; simp)]
    rw [meanOf, sum_eq, List.length_map, div_eq_zero_iff, or_iff_left hn.ne', sum_sq_zero]
    constructor
    · intro h y hy z hz
      rw [h y hy, h z hz]
    · intro h y hy
      have : ∀ z ∈ v, y ≤ z ∧ z ≤ y := fun z hz => ⟨(h y hy z hz).le, (h y hy z hz).ge⟩
      obtain ⟨h1, h2⟩ := sum_bounds v y y this
      rw [meanOf, sum_eq, eq_div_iff hn.ne']
      linarith
  split_ifs at h with h0 hstd
  · simp only [Option.some.injEq, Prod.mk.injEq] at h
    obtain ⟨_, rfl⟩ := h
    exact key h0
  · simp only [Option.some.injEq, Prod.mk.injEq] at h
    obtain ⟨_, rfl⟩ := h
    have hn : 0 < Real.sqrt (v.length : ℝ) := Real.sqrt_pos.2 (by exact_mod_cast List.length_pos_iff.2 h0)
    refine ⟨div_nonneg (key h0).1 hn.le, ?_⟩
    rw [div_eq_zero_iff, or_iff_left hn.ne']
    exact (key h0).2

/-- the error on the mean never exceeds the standard deviation -/
theorem C76_error_le (v : List ℝ) (m s m' s' : ℝ) (h : profileBin true v = some (m, s)) (h' : profileBin false v = some (m', s')) :
    m = m' ∧ s' ≤ s := by
  unfold profileBin at h h'
  by_cases h0 : v = []
  · simp [h0] at h
  rw [if_neg h0] at h h'
  simp only [Option.some.injEq, Prod.mk.injEq, Bool.false_eq_true, if_false, if_true] at h h'
  obtain ⟨rfl, rfl⟩ := h
  obtain ⟨rfl, rfl⟩ := h'
  refine ⟨rfl, div_le_self (Real.sqrt_nonneg _) ?_⟩
  rw [Real.one_le_sqrt]
  exact_mod_cast List.length_pos_iff.2 h0

/-- three edges (equal widths), one bin with two points, one without -/
example : Uniform ([0, 1, 2] : List ℝ) ∧ ordinates (fun x => 0 ≤ x ∧ x < 1) [1/2, 0, 5] [3, 7, 1] = [3, 7] ∧
    profileBin true [3, 7] = some (5, 2) ∧ ordinates (fun x => 1 ≤ x ∧ x < 2) [1/2, 0, 5] [3, 7, 1] = [] := by
  refine ⟨⟨1, ?_⟩, ?_, ?_, ?_⟩
  · rintro (_ | _ | _ | i) a b ha hb <;> simp at ha hb <;> subst ha hb <;> norm_num
  · norm_num [ordinates]
  · have h1 : meanOf [3, 7] = 5 := by norm_num [meanOf, Np.sum]
    have h2 : stdOf [3, 7] = 2 := by
      rw [stdOf, h1]
      have : meanOf (([3, 7] : List ℝ).map fun v => (v - 5) ^ 2) = 2 ^ 2 := by norm_num [meanOf, Np.sum]
      rw [this, Real.sqrt_sq (by norm_num)]
    simp [profileBin, h1, h2]
  · norm_num [ordinates]

/-- one point in range and two ordinates: refused; one point out of range: two bins without values -/
example : profile [1/2] [3, 4] [0, 1, 2] true = .error .IndexError ∧ profile [5] [3, 4] [0, 1, 2] true = .ok [none, none] := by
  have hu : Uniform ([0, 1, 2] : List ℝ) := by
    refine ⟨1, ?_⟩
    rintro (_ | _ | _ | i) a b ha hb <;> simp at ha hb <;> subst ha hb <;> norm_num
  have hs : ([0, 1, 2] : List ℝ).Pairwise (· < ·) := by norm_num
  refine ⟨(C76_lengths _ _ _ _ (by simp) (by simp)).1 ⟨1/2, by simp, 0, ?_⟩, (C76_lengths _ _ _ _ (by simp) (by simp)).2 ?_⟩
  · exact C05_uniform_left_closed _ hs hu _ 0 0 1 rfl rfl (by norm_num) (by norm_num)
  · intro x hx
    rw [List.mem_singleton.1 hx]
    exact ⟨0, (C05_bin_lookup_partial _ (by simp) hs (.inl hu) 5).2 (.inr (by norm_num))⟩

end Verif.Props.Profile
