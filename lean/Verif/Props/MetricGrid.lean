import Mathlib.Algebra.Order.Ring.Rat
import Mathlib.Data.Rat.Floor
import Verif.Model.Metrics

/-!
# C60: the evaluation grid of the metrics
-/

set_option linter.unusedSectionVars false
set_option autoImplicit false

namespace Verif.Props.Metrics

open Verif Verif.Np Verif.Model

variable {K : Type} [Field K] [LinearOrder K] [IsStrictOrderedRing K]

/-- consecutive entries differ by `r` -/
def Spaced (r : K) (xs : List K) : Prop := ∀ (i : ℕ) (a b : K), xs[i]? = some a → xs[i + 1]? = some b → b - a = r

/-- entry `i` of the values is the centre of the bin between edges `i` and `i + 1` -/
def Centred (edges xs : List K) : Prop :=
  edges.length = xs.length + 1 ∧
    ∀ (i : ℕ) (a b v : K), edges[i]? = some a → edges[i + 1]? = some b → xs[i]? = some v → v = (a + b) / 2

variable [FloorRing K]

theorem two_le_pyInt (v : K) : 2 ≤ pyInt v ↔ 2 ≤ v := by
  unfold pyInt
  split_ifs with h
  · rw [Int.le_floor]; norm_num
  · constructor
    · intro h'
      have : (⌈v⌉ : ℤ) ≤ 0 := by rw [Int.ceil_le]; push_cast; exact le_of_lt (not_le.1 h)
      omega
    · intro h'; exact absurd (by linarith) h

theorem pyInt_neg (v : K) : pyInt v < 0 ↔ v ≤ -1 := by
  unfold pyInt
  split_ifs with h
  · have : 0 ≤ ⌊v⌋ := Int.floor_nonneg.2 h
    constructor
    · intro h'; omega
    · intro h'; linarith
  · rw [show (⌈v⌉ < 0) ↔ ⌈v⌉ ≤ -1 by omega, Int.ceil_le]; push_cast; rfl

theorem pyInt_one (v : K) : pyInt v = 1 ↔ 1 ≤ v ∧ v < 2 := by
  unfold pyInt
  split_ifs with h
  · rw [Int.floor_eq_iff]; push_cast; norm_num
  · have h0 : v < 0 := not_le.1 h
    have : (⌈v⌉ : ℤ) ≤ 0 := by rw [Int.ceil_le]; push_cast; exact le_of_lt h0
    constructor
    · intro h'; omega
    · rintro ⟨h', _⟩; linarith

/-- what a successful call returns -/
theorem gridParams_ok {l0 l1 dx : K} {g : MGrid K} (h : gridParams l0 l1 dx = .ok g) :
    dx ≠ 0 ∧ 2 ≤ (l1 - l0) / dx ∧ (g.card : ℤ) = pyInt ((l1 - l0) / dx) ∧ 2 ≤ g.card ∧
      g.resolution = (l1 - l0) / ((g.card : K) - 1) ∧ g.values = linspace l0 l1 g.card ∧
      g.edges = linspace (min (l0 - g.resolution / 2) (l1 + g.resolution / 2)) (max (l0 - g.resolution / 2) (l1 + g.resolution / 2))
        (g.card + 1) ∧ g.limits = (l0, l1) := by
  unfold gridParams at h
  split_ifs at h with h1 h2 h3
  simp only [histogramBinEdges] at h
  by_cases h4 : (pyInt ((l1 - l0) / dx)).toNat = 0
  · rw [if_pos h4] at h; simp [Bind.bind, Except.bind] at h
  · rw [if_neg h4] at h
    have hc : 2 ≤ pyInt ((l1 - l0) / dx) := by omega
    have hv := (two_le_pyInt _).1 hc
    set c := (pyInt ((l1 - l0) / dx)).toNat with hcd
    have hc2 : 2 ≤ c := by omega
    have hcK : (2 : K) ≤ (c : K) := by exact_mod_cast hc2
    have hne : ¬ (l0 - (l1 - l0) / ((c : K) - 1) / 2 = l1 + (l1 - l0) / ((c : K) - 1) / 2) := by
      intro h5
      have h6 : (l1 - l0) * (1 + 1 / ((c : K) - 1)) = 0 := by
        have : (l1 - l0) / ((c : K) - 1) = (l1 - l0) * (1 / ((c : K) - 1)) := by ring
        rw [this] at h5
        linarith
      have h7 : (0 : K) < 1 / ((c : K) - 1) := by apply div_pos one_pos; linarith
      rcases mul_eq_zero.1 h6 with h8 | h8
      · rw [h8] at hv; simp at hv; linarith
      · linarith
    rw [if_neg hne] at h
    simp only [Bind.bind, Except.bind] at h
    have := Except.ok.inj h
    subst this
    exact ⟨h1, hv, by simp only; omega, hc2, rfl, rfl, rfl, rfl⟩

/-- **C60.** A grid is made exactly when at least two steps of the requested size fit between the limits. -/
theorem C60_success_iff (l0 l1 dx : K) : (∃ g, gridParams l0 l1 dx = .ok g) ↔ dx ≠ 0 ∧ 2 ≤ (l1 - l0) / dx := by
  constructor
  · rintro ⟨g, h⟩
    have := gridParams_ok h
    exact ⟨this.1, this.2.1⟩
  · rintro ⟨h1, h2⟩
    have h3 := (two_le_pyInt _).2 h2
    unfold gridParams
    rw [if_neg h1, if_neg (by omega), if_neg (by omega)]
    simp only [histogramBinEdges]
    rw [if_neg (by omega)]
    split_ifs <;> exact ⟨_, rfl⟩

/-- **C60.** The exceptions otherwise: a zero step and a quotient between 1 and 2 divide by zero, everything smaller is a `ValueError`. -/
theorem C60_errors (l0 l1 dx : K) :
    (dx = 0 → gridParams l0 l1 dx = .error .ZeroDivisionError) ∧
    (dx ≠ 0 → 1 ≤ (l1 - l0) / dx → (l1 - l0) / dx < 2 → gridParams l0 l1 dx = .error .ZeroDivisionError) ∧
    (dx ≠ 0 → (l1 - l0) / dx < 1 → gridParams l0 l1 dx = .error .ValueError) := by
  refine ⟨?_, ?_, ?_⟩
  · intro h; simp [gridParams, h]
  · intro h h1 h2
    have h3 := (pyInt_one _).2 ⟨h1, h2⟩
    unfold gridParams
    rw [if_neg h, if_neg (by omega), if_pos h3]
  · intro h h1
    unfold gridParams
    rw [if_neg h]
    by_cases h2 : pyInt ((l1 - l0) / dx) < 0
    · rw [if_pos h2]
    · have h3 : pyInt ((l1 - l0) / dx) ≠ 1 := fun h' => absurd ((pyInt_one _).1 h').1 (not_le.2 h1)
      have h4 : ¬ 2 ≤ pyInt ((l1 - l0) / dx) := fun h' => absurd ((two_le_pyInt _).1 h') (not_le.2 (by linarith))
      rw [if_neg h2, if_neg h3]
      have h5 : (pyInt ((l1 - l0) / dx)).toNat = 0 := by omega
      simp [histogramBinEdges, h5, Bind.bind, Except.bind]

theorem spaced_linspace (lo hi : K) (n : ℕ) (hn : 2 ≤ n) : Spaced ((hi - lo) / ((n : K) - 1)) (linspace lo hi n) := by
  intro i a b ha hb
  have hi1 : i + 1 < n := by
    have := (List.getElem?_eq_some_iff.1 hb).1
    rwa [length_linspace] at this
  rw [getElem?_linspace _ _ _ (by omega) i (by omega)] at ha
  rw [getElem?_linspace _ _ _ (by omega) (i + 1) hi1] at hb
  have ha := Option.some.inj ha
  have hb := Option.some.inj hb
  rw [← ha, ← hb]
  push_cast
  ring

theorem head_linspace (lo hi : K) (n : ℕ) (hn : 2 ≤ n) : (linspace lo hi n).head? = some lo := by
  rw [List.head?_eq_getElem?, getElem?_linspace _ _ _ (by omega) 0 (by omega)]
  simp

theorem last_linspace (lo hi : K) (n : ℕ) (hn : 2 ≤ n) : (linspace lo hi n).getLast? = some hi := by
  rw [List.getLast?_eq_getElem?, length_linspace, getElem?_linspace _ _ _ (by omega) _ (by omega)]
  have h : ((n - 1 : ℕ) : K) = (n : K) - 1 := by push_cast [Nat.cast_sub (show 1 ≤ n by omega)]; ring
  have h0 : (n : K) - 1 ≠ 0 := by
    have : (2 : K) ≤ (n : K) := by exact_mod_cast hn
    intro h'; linarith
  rw [h]
  congr 1
  field_simp
  ring

/-- **C60.** For increasing limits the grid runs from the lower to the upper limit in equal steps of the reported resolution, the bins have
that width, and every grid value is the centre of its bin. -/
theorem C60_grid_partial (l0 l1 dx : K) (g : MGrid K) (hl : l0 < l1) (h : gridParams l0 l1 dx = .ok g) :
    g.values.length = g.card ∧ g.values.head? = some l0 ∧ g.values.getLast? = some l1 ∧ 0 < g.resolution ∧
      Spaced g.resolution g.values ∧ Spaced g.resolution g.edges ∧ Centred g.edges g.values ∧
      g.edges.head? = some (l0 - g.resolution / 2) ∧ g.edges.getLast? = some (l1 + g.resolution / 2) := by
  obtain ⟨h1, h2, h3, h4, h5, h6, h7, _⟩ := gridParams_ok h
  have hcK : (2 : K) ≤ (g.card : K) := by exact_mod_cast h4
  have hr : 0 < g.resolution := by rw [h5]; apply div_pos <;> linarith
  have hlt : l0 - g.resolution / 2 < l1 + g.resolution / 2 := by linarith
  rw [min_eq_left hlt.le, max_eq_right hlt.le] at h7
  have hstep : (l1 + g.resolution / 2 - (l0 - g.resolution / 2)) / (((g.card + 1 : ℕ) : K) - 1) = g.resolution := by
    have hr' : g.resolution * ((g.card : K) - 1) = l1 - l0 := by
      rw [h5]; field_simp [show (g.card : K) - 1 ≠ 0 by intro h'; linarith]
    push_cast
    rw [add_sub_cancel_right, div_eq_iff (by intro h'; linarith)]
    linarith
  refine ⟨by rw [h6, length_linspace], by rw [h6, head_linspace _ _ _ h4], by rw [h6, last_linspace _ _ _ h4], hr, ?_, ?_, ⟨?_, ?_⟩,
    by rw [h7, head_linspace _ _ _ (by omega)], by rw [h7, last_linspace _ _ _ (by omega)]⟩
  · rw [h6]; have := spaced_linspace l0 l1 g.card h4; rwa [← h5] at this
  · have := spaced_linspace (l0 - g.resolution / 2) (l1 + g.resolution / 2) (g.card + 1) (by omega)
    rw [hstep] at this
    rwa [h7]
  · rw [h6, h7, length_linspace, length_linspace]
  · intro i a b v ha hb hv
    have hi : i < g.card := by
      have := (List.getElem?_eq_some_iff.1 hv).1
      rwa [h6, length_linspace] at this
    rw [h7, getElem?_linspace _ _ _ (by omega) _ (by omega), hstep] at ha hb
    rw [h6, getElem?_linspace _ _ _ (by omega) _ hi, ← h5] at hv
    have ha := Option.some.inj ha
    have hb := Option.some.inj hb
    have hv := Option.some.inj hv
    rw [← ha, ← hb, ← hv]
    push_cast
    ring

/-- **C60.** With decreasing limits (and a negative step) the values run downwards while the bins run upwards: grid value `i` is the centre of
bin `card - 1 - i`. -/
theorem C60_reversed (l0 l1 dx : K) (g : MGrid K) (hl : l1 < l0) (h : gridParams l0 l1 dx = .ok g) :
    Spaced g.resolution g.values ∧ g.resolution < 0 ∧ Spaced (-g.resolution) g.edges ∧ Centred g.edges g.values.reverse := by
  obtain ⟨h1, h2, h3, h4, h5, h6, h7, _⟩ := gridParams_ok h
  have hcK : (2 : K) ≤ (g.card : K) := by exact_mod_cast h4
  have hr : g.resolution < 0 := by rw [h5]; apply div_neg_of_neg_of_pos <;> linarith
  have hlt : l1 + g.resolution / 2 < l0 - g.resolution / 2 := by linarith
  rw [min_eq_right hlt.le, max_eq_left hlt.le] at h7
  have hr' : g.resolution * ((g.card : K) - 1) = l1 - l0 := by
    rw [h5]; field_simp [show (g.card : K) - 1 ≠ 0 by intro h'; linarith]
  have hstep : (l0 - g.resolution / 2 - (l1 + g.resolution / 2)) / (((g.card + 1 : ℕ) : K) - 1) = -g.resolution := by
    push_cast
    rw [add_sub_cancel_right, div_eq_iff (by intro h'; linarith)]
    linarith
  refine ⟨?_, hr, ?_, ?_, ?_⟩
  · rw [h6]; have := spaced_linspace l0 l1 g.card h4; rwa [← h5] at this
  · have := spaced_linspace (l1 + g.resolution / 2) (l0 - g.resolution / 2) (g.card + 1) (by omega)
    rw [hstep] at this
    rwa [h7]
  · rw [h6, h7, List.length_reverse, length_linspace, length_linspace]
  · intro i a b v ha hb hv
    have hi : i < g.card := by
      have := (List.getElem?_eq_some_iff.1 hv).1
      rwa [h6, List.length_reverse, length_linspace] at this
    rw [h7, getElem?_linspace _ _ _ (by omega) _ (by omega), hstep] at ha hb
    rw [h6, List.getElem?_reverse (by rwa [length_linspace]), length_linspace, getElem?_linspace _ _ _ (by omega) _ (by omega), ← h5] at hv
    have ha := Option.some.inj ha
    have hb := Option.some.inj hb
    have hv := Option.some.inj hv
    rw [← ha, ← hb, ← hv]
    have : ((g.card - 1 - i : ℕ) : K) = (g.card : K) - 1 - i := by
      rw [Nat.cast_sub (by omega), Nat.cast_sub (by omega)]; push_cast; ring
    rw [this]
    push_cast
    linarith

/-- **C60, the code.** With decreasing limits the grid values are not the centres of their bins. -/
theorem C60_reversed_wrong : ∃ g : MGrid ℚ, gridParams (1 : ℚ) 0 (-1 / 4) = .ok g ∧ ¬ Centred g.edges g.values := by
  refine ⟨⟨[1, 2 / 3, 1 / 3, 0], 4, -1 / 3, [-1 / 6, 1 / 6, 1 / 2, 5 / 6, 7 / 6], (1, 0)⟩, by decide +kernel, ?_⟩
  rintro ⟨_, h⟩
  have := h 0 (-1 / 6) (1 / 6) 1 rfl rfl rfl
  norm_num at this

/-- not vacuous: limits 0 and 1 with step 1/4 -/
example : gridParams (0 : ℚ) 1 (1 / 4) =
    .ok ⟨[0, 1 / 3, 2 / 3, 1], 4, 1 / 3, [-1 / 6, 1 / 6, 1 / 2, 5 / 6, 7 / 6], (0, 1)⟩ := by decide +kernel

end Verif.Props.Metrics
