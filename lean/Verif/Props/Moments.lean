import Mathlib.Algebra.Order.Ring.Rat
import Mathlib.Data.Rat.Floor
import Mathlib.Tactic.Linarith
import Mathlib.Tactic.FieldSimp
import Verif.Model.Moments
import Verif.Props.MetricGrid
import Verif.Props.Brier

/-!
# C70: moments over limits
-/

set_option linter.unusedSectionVars false
set_option autoImplicit false

namespace Verif.Props.Metrics

open Verif Verif.Np Verif.Model

variable {K : Type} [Field K] [LinearOrder K] [IsStrictOrderedRing K] [FloorRing K]

/-- the sum over the grid points of `density * point ^ N` -/
def momentSum (f : K → K) (N : ℕ) (xs : List K) : K := (xs.map fun x => f x * x ^ N).sum

theorem quickMoment_eq (f : K → K) (N : ℕ) (xs : List K) (dx : K) :
    quickMoment (xs.map f) (xs.map (· ^ N)) dx = momentSum f N xs * dx := by
  have : Np.mul (xs.map f) (xs.map (· ^ N)) = xs.map fun x => f x * x ^ N := by
    induction xs with
    | nil => rfl
    | cons x xs ih => simp only [Np.mul, List.map_cons, List.zipWith_cons_cons] at ih ⊢; rw [ih]
  rw [quickMoment, this, sum_eq, momentSum]

theorem calculateMoment_ok {e : FnEns K} {N : ℕ} {l0 l1 dx : K} {ms : List K} (h : calculateMoment e N l0 l1 dx = .ok ms) :
    ∃ g, gridParams l0 l1 dx = .ok g ∧ ms = e.fns.map fun f => momentSum f N g.values * g.resolution := by
  unfold calculateMoment at h
  cases hg : gridParams l0 l1 dx with
  | error e => simp [hg, Bind.bind, Except.bind] at h
  | ok g =>
    simp only [hg, Bind.bind, Except.bind, Except.ok.injEq, quickMoment_eq] at h
    exact ⟨g, rfl, h.symm⟩

theorem momentPartial_of_grid {e : FnEns K} {N : ℕ} {l0 l1 dx : K} {g : MGrid K} (h : gridParams l0 l1 dx = .ok g) :
    momentPartial e N l0 l1 dx = .ok (e.fns.map fun f => momentSum f N g.values * dx) := by
  obtain ⟨h1, h2, h3, h4, h5, h6, _, _⟩ := gridParams_ok h
  unfold momentPartial
  rw [if_neg h1, if_neg (by omega), ← h3]
  simp only [Int.toNat_natCast, quickMoment_eq, h6]

/-- the spacing of the grid is larger (in size) than the requested resolution -/
theorem resolution_ne {l0 l1 dx : K} {g : MGrid K} (h : gridParams l0 l1 dx = .ok g) : 1 < g.resolution / dx := by
  obtain ⟨h1, h2, h3, h4, h5, h6, _, _⟩ := gridParams_ok h
  have hc : (2 : K) ≤ (g.card : K) := by exact_mod_cast h4
  have hle : (g.card : K) ≤ (l1 - l0) / dx := by
    have : (g.card : K) = ((pyInt ((l1 - l0) / dx) : ℤ) : K) := by rw [← h3]; simp
    rw [this, pyInt, if_pos (by linarith)]
    exact Int.floor_le _
  have e : g.resolution / dx = (l1 - l0) / dx / ((g.card : K) - 1) := by rw [h5]; field_simp
  rw [e, lt_div_iff₀ (by linarith)]
  linarith

/-- What the two entry points compute: the same sum over the same grid, multiplied by the grid spacing in one and by the requested `dx` in
the other. -/
theorem C70_relation (e : FnEns K) (N : ℕ) (l0 l1 dx : K) (ms : List K) (h : calculateMoment e N l0 l1 dx = .ok ms) :
    ∃ ps r, momentPartial e N l0 l1 dx = .ok ps ∧ ps.length = ms.length ∧ 1 < r / dx ∧
      ∀ (i : ℕ) m p, ms[i]? = some m → ps[i]? = some p → m = r / dx * p := by
  obtain ⟨g, hg, rfl⟩ := calculateMoment_ok h
  refine ⟨_, g.resolution, momentPartial_of_grid hg, by simp, resolution_ne hg, ?_⟩
  intro i m p hm hp
  have hdx := (gridParams_ok hg).1
  simp only [List.getElem?_map, Option.map_eq_some_iff] at hm hp
  obtain ⟨f, hf, rfl⟩ := hm
  obtain ⟨f', hf', rfl⟩ := hp
  rw [hf] at hf'; cases hf'
  field_simp

/-- **C70** is false of the code whenever a moment does not vanish: the two agree exactly when all moments are 0. -/
theorem C70_equal_iff (e : FnEns K) (N : ℕ) (l0 l1 dx : K) (ms : List K) (h : calculateMoment e N l0 l1 dx = .ok ms) :
    momentPartial e N l0 l1 dx = .ok ms ↔ ∀ m ∈ ms, m = 0 := by
  obtain ⟨g, hg, rfl⟩ := calculateMoment_ok h
  rw [momentPartial_of_grid hg]
  have hdx := (gridParams_ok hg).1
  have hr := resolution_ne hg
  have hne : g.resolution ≠ dx := by rintro h'; rw [h', div_self hdx] at hr; exact lt_irrefl _ hr
  have hr0 : g.resolution ≠ 0 := by rintro h'; rw [h', zero_div] at hr; linarith
  simp only [Except.ok.injEq, List.map_inj_left, List.mem_map, forall_exists_index, and_imp, forall_apply_eq_imp_iff₂]
  refine forall_congr' fun f => forall_congr' fun _ => ?_
  constructor
  · intro h'
    have : momentSum f N g.values * (g.resolution - dx) = 0 := by rw [mul_sub, h']; ring
    rcases mul_eq_zero.1 this with h0 | h0
    · rw [h0, zero_mul]
    · exact absurd (sub_eq_zero.1 h0) hne
  · intro h'
    rcases mul_eq_zero.1 h' with h0 | h0
    · rw [h0]; simp
    · exact absurd h0 hr0

/-- The uniform density on [0, 1] with steps of 1/4: the means over the whole interval come out as 2/3 and 1/2. -/
theorem C70_differs : ∃ (e : FnEns ℚ) (ms ps : List ℚ), calculateMoment e 1 0 1 (1/4) = .ok ms ∧ momentPartial e 1 0 1 (1/4) = .ok ps ∧
    ms = [2/3] ∧ ps = [1/2] :=
  ⟨⟨[1], [fun _ => 1]⟩, _, _, by decide +kernel, by decide +kernel, rfl, rfl⟩

/-- the quotient of `limits` and `dx` decides which calls raise: `moment_partial` also accepts fewer than two steps -/
theorem C70_errors (e : FnEns K) (N : ℕ) (l0 l1 dx : K) :
    (dx = 0 → calculateMoment e N l0 l1 dx = .error .ZeroDivisionError ∧ momentPartial e N l0 l1 dx = .error .ZeroDivisionError) ∧
    (dx ≠ 0 → (l1 - l0) / dx ≤ -1 → calculateMoment e N l0 l1 dx = .error .ValueError ∧ momentPartial e N l0 l1 dx = .error .ValueError) ∧
    (dx ≠ 0 → -1 < (l1 - l0) / dx → (l1 - l0) / dx < 1 → calculateMoment e N l0 l1 dx = .error .ValueError ∧
      momentPartial e N l0 l1 dx = .ok (e.fns.map fun _ => 0)) ∧
    (dx ≠ 0 → 1 ≤ (l1 - l0) / dx → (l1 - l0) / dx < 2 → calculateMoment e N l0 l1 dx = .error .ZeroDivisionError ∧
      momentPartial e N l0 l1 dx = .ok (e.fns.map fun f => f l0 * l0 ^ N * dx)) := by
  refine ⟨?_, ?_, ?_, ?_⟩
  · rintro rfl; simp [calculateMoment, gridParams, momentPartial, Bind.bind, Except.bind]
  · intro hd h
    have hneg : pyInt ((l1 - l0) / dx) < 0 := by
      unfold pyInt
      rw [if_neg (by linarith)]
      have : ⌈(l1 - l0) / dx⌉ ≤ -1 := Int.ceil_le.2 (by push_cast; linarith)
      omega
    simp only [calculateMoment, gridParams, momentPartial, if_neg hd, if_pos hneg, Bind.bind, Except.bind, and_self]
  · intro hd h0 h1
    have hz : pyInt ((l1 - l0) / dx) = 0 := by
      unfold pyInt
      split_ifs with hp
      · rw [Int.floor_eq_iff]; exact ⟨by simpa using hp, by simpa using h1⟩
      · rw [Int.ceil_eq_iff]; exact ⟨by push_cast; linarith, by push_cast; linarith⟩
    simp only [calculateMoment, gridParams, momentPartial, if_neg hd, hz, Bind.bind, Except.bind]
    rw [if_neg (by omega), if_neg (by omega)]
    constructor
    · simp [histogramBinEdges]
    · simp [linspace, quickMoment, Np.mul, Np.sum]
  · intro hd h0 h1
    have hz : pyInt ((l1 - l0) / dx) = 1 := by
      unfold pyInt
      rw [if_pos (by linarith), Int.floor_eq_iff]
      exact ⟨by push_cast; linarith, by push_cast; linarith⟩
    simp only [calculateMoment, gridParams, momentPartial, if_neg hd, hz, Bind.bind, Except.bind]
    rw [if_neg (by omega), if_pos trivial]
    refine ⟨rfl, ?_⟩
    simp [linspace, quickMoment, Np.mul, Np.sum]

theorem momentSum_linear (f h : K → K) (a b : K) (N : ℕ) (xs : List K) :
    momentSum (fun x => a * f x + b * h x) N xs = a * momentSum f N xs + b * momentSum h N xs := by
  induction xs with
  | nil => simp [momentSum]
  | cons x xs ih => simp only [momentSum, List.map_cons, List.sum_cons] at ih ⊢; rw [ih]; ring

/-- **C70**, the part that holds of the code, linearity of both (missing: that they agree, which is false, `C70_equal_iff`): the moments of a combination of PDFs are the combination of their moments. -/
theorem C70_linear_partial (s : List ℕ) (fs hs : List (K → K)) (a b : K) (N : ℕ) (l0 l1 dx : K) (m1 m2 p1 p2 : List K)
    (h1 : calculateMoment ⟨s, fs⟩ N l0 l1 dx = .ok m1) (h2 : calculateMoment ⟨s, hs⟩ N l0 l1 dx = .ok m2)
    (h3 : momentPartial ⟨s, fs⟩ N l0 l1 dx = .ok p1) (h4 : momentPartial ⟨s, hs⟩ N l0 l1 dx = .ok p2) :
    calculateMoment ⟨s, List.zipWith (fun f h x => a * f x + b * h x) fs hs⟩ N l0 l1 dx = .ok (List.zipWith (fun m n => a * m + b * n) m1 m2) ∧
    momentPartial ⟨s, List.zipWith (fun f h x => a * f x + b * h x) fs hs⟩ N l0 l1 dx = .ok (List.zipWith (fun m n => a * m + b * n) p1 p2) := by
  obtain ⟨g, hg, rfl⟩ := calculateMoment_ok h1
  obtain ⟨g', hg', rfl⟩ := calculateMoment_ok h2
  rw [hg] at hg'; cases hg'
  rw [momentPartial_of_grid hg] at h3 h4 ⊢
  cases h3; cases h4
  constructor
  · simp only [calculateMoment, hg, Bind.bind, Except.bind, quickMoment_eq, Except.ok.injEq, List.map_zipWith, List.zipWith_map]
    congr 1
    funext f h
    rw [momentSum_linear]; ring
  · simp only [Except.ok.injEq, List.map_zipWith, List.zipWith_map]
    congr 1
    funext f h
    rw [momentSum_linear]; ring

/-- The grid counts both end points fully: the zeroth moment of the uniform density between the limits is `n/(n-1)`, not 1. -/
theorem C70_uniform_mass (l0 l1 dx : K) (g : MGrid K) (h : gridParams l0 l1 dx = .ok g) (hl : l0 ≠ l1) :
    calculateMoment ⟨[1], [fun _ => 1 / (l1 - l0)]⟩ 0 l0 l1 dx = .ok [(g.card : K) / ((g.card : K) - 1)] := by
  obtain ⟨h1, h2, h3, h4, h5, h6, _, _⟩ := gridParams_ok h
  have hd : l1 - l0 ≠ 0 := fun h' => hl (sub_eq_zero.1 h').symm
  have hc : (2 : K) ≤ (g.card : K) := by exact_mod_cast h4
  have hc' : (g.card : K) - 1 ≠ 0 := by intro h'; linarith
  simp only [calculateMoment, h, Bind.bind, Except.bind, quickMoment_eq, List.map_cons, List.map_nil]
  have : momentSum (fun _ => 1 / (l1 - l0)) 0 g.values = (g.card : K) * (1 / (l1 - l0)) := by
    simp [momentSum, h6, length_linspace]
  rw [this, h5]
  congr 2
  field_simp

example : calculateMoment (K := ℚ) ⟨[2], [fun x => x, fun x => 1 - x]⟩ 2 0 1 (1/3) = .ok [9/16, 1/16] ∧
    momentPartial (K := ℚ) ⟨[2], [fun x => x, fun x => 1 - x]⟩ 2 0 1 (1/3) = .ok [3/8, 1/24] := by decide +kernel

end Verif.Props.Metrics
