import Verif.Props.Stability

/-!
# C133 for changes of the bin edges of a histogram
-/

set_option linter.unusedSectionVars false
set_option autoImplicit false

namespace Verif.Props.EdgesStable

open Verif Verif.Np Verif.Model Verif.Spec Verif.Lemmas Verif.Lemmas.Hist Verif.Props.Hist Verif.Props.Bins Verif.Props.Stability

variable {K : Type} [Field K] [LinearOrder K] [IsStrictOrderedRing K]

/-- every edge moves by at most `δ` -/
def Moved (δ : K) (edges edges' : List K) : Prop := List.Forall₂ (fun e e' => |e' - e| ≤ δ) edges edges'

theorem part_moved {δ a a' b b' x : K} (ha : |a' - a| ≤ δ) (hb : |b' - b| ≤ δ) : |max 0 (min x b' - a') - max 0 (min x b - a)| ≤ 2 * δ := by
  have h1 : |max 0 (min x b' - a') - max 0 (min x b - a)| ≤ |(min x b' - a') - (min x b - a)| := by
    have := abs_max_sub_max_le_abs (min x b' - a') (min x b - a) 0
    rwa [max_comm _ (0 : K), max_comm _ (0 : K)] at this
  have h2 : |min x b' - min x b| ≤ |b' - b| := by
    have := abs_min_sub_min_le_max x b' x b
    simpa using this
  have e : (min x b' - a') - (min x b - a) = (min x b' - min x b) - (a' - a) := by ring
  rw [e] at h1
  have h3 := abs_sub (min x b' - min x b) (a' - a)
  linarith

/-- mass to the left of a point, and total mass, after the edges have moved -/
theorem mass_moved (δ x : K) (hδ : 0 ≤ δ) : ∀ (row edges edges' : List K), (∀ v ∈ row, 0 ≤ v) → Moved δ edges edges' →
    |massUpTo edges' row x - massUpTo edges row x| ≤ 2 * δ * row.sum ∧ |totalMass edges' row - totalMass edges row| ≤ 2 * δ * row.sum
  | [], edges, edges', _, _ => by
    have h1 : ∀ e : List K, massUpTo e [] x = 0 := fun e => by match e with | [] => rfl | [_] => rfl | _ :: _ :: _ => rfl
    have h2 : ∀ e : List K, totalMass e [] = 0 := fun e => by match e with | [] => rfl | [_] => rfl | _ :: _ :: _ => rfl
    simp [h1, h2]
  | v :: row, [], _, hp, .nil => by
    have : 0 ≤ (v :: row).sum := List.sum_nonneg hp
    simp only [massUpTo, totalMass, sub_self, abs_zero]
    constructor <;> positivity
  | v :: row, [a], _, hp, .cons _ .nil => by
    have : 0 ≤ (v :: row).sum := List.sum_nonneg hp
    simp only [massUpTo, totalMass, sub_self, abs_zero]
    constructor <;> positivity
  | v :: row, a :: b :: e, _, hp, .cons (b := a') ha (.cons (b := b') (l₂ := e') hb he) => by
    obtain ⟨i1, i2⟩ := mass_moved δ x hδ row (b :: e) (b' :: e') (fun w hw => hp w (List.mem_cons_of_mem _ hw)) (.cons hb he)
    have hv : 0 ≤ v := hp v (by simp)
    simp only [massUpTo, totalMass, List.sum_cons]
    have p1 := part_moved (x := x) ha hb
    have p2 : |(b' - a') - (b - a)| ≤ 2 * δ := by
      have e : (b' - a') - (b - a) = (b' - b) - (a' - a) := by ring
      rw [e]
      have h3 := abs_sub (b' - b) (a' - a)
      linarith
    constructor
    · have e : v * max 0 (min x b' - a') + massUpTo (b' :: e') row x - (v * max 0 (min x b - a) + massUpTo (b :: e) row x) =
        v * (max 0 (min x b' - a') - max 0 (min x b - a)) + (massUpTo (b' :: e') row x - massUpTo (b :: e) row x) := by ring
      rw [e]
      refine (abs_add_le _ _).trans ?_
      rw [abs_mul, abs_of_nonneg hv]
      nlinarith
    · have e : v * (b' - a') + totalMass (b' :: e') row - (v * (b - a) + totalMass (b :: e) row) = v * ((b' - a') - (b - a)) + (totalMass (b' :: e') row - totalMass (b :: e) row) := by ring
      rw [e]
      refine (abs_add_le _ _).trans ?_
      rw [abs_mul, abs_of_nonneg hv]
      nlinarith

/-- **C133: the edges of a histogram.** Contents `row` with sum `S` and total mass `T`. If every edge moves by at most `δ` (staying in increasing order) and `2 δ S < T`, then every
stored content changes by at most `2 δ S / (T - 2 δ S)` of itself, the CDF at every argument by at most `4 δ S / (T - 2 δ S)`, and a quantile of the changed histogram has the
stated probability under the original one up to the same amount. -/
theorem C133_hist_edges {edges edges' row p : List K} {δ : K} (hg : Grid edges row.length) (hg' : edges'.Pairwise (· < ·)) (hp : histNormRow edges row = some p)
    (hpos : ∀ v ∈ row, 0 ≤ v) (hm : Moved δ edges edges') (hδ : 0 ≤ δ) (hsmall : 2 * δ * row.sum < totalMass edges row) :
    ∃ p', histNormRow edges' row = some p' ∧
      List.Forall₂ (fun v v' => |v' - v| ≤ 2 * δ * row.sum / (totalMass edges row - 2 * δ * row.sum) * v) p p' ∧
      (∀ x, ∃ F F', histCdf edges p x = some F ∧ histCdf edges' p' x = some F' ∧ |F' - F| ≤ 4 * δ * row.sum / (totalMass edges row - 2 * δ * row.sum)) ∧
      ∀ q, 0 ≤ q → q ≤ 1 → ∃ x F, histPpf edges' p' q = some x ∧ histCdf edges p x = some F ∧ |F - q| ≤ 4 * δ * row.sum / (totalMass edges row - 2 * δ * row.sum) := by
  have hS : 0 ≤ row.sum := List.sum_nonneg hpos
  have hT : 0 < totalMass edges row := lt_of_le_of_lt (by positivity) hsmall
  have hlen : edges'.length = edges.length := (List.Forall₂.length_eq hm).symm
  have hgr' : Grid edges' row.length := ⟨hg', by rw [hlen]; exact hg.size, hg.pos⟩
  have hTT := (mass_moved δ 0 hδ row edges edges' hpos hm).2
  have hT' : totalMass edges row - 2 * δ * row.sum ≤ totalMass edges' row := by
    have := (abs_le.1 hTT).1
    linarith
  have hgap : 0 < totalMass edges row - 2 * δ * row.sum := sub_pos.2 hsmall
  have hT'0 : 0 < totalMass edges' row := hgap.trans_le hT'
  obtain ⟨p1, hp1, hp11, hp1e, -⟩ := (C07_row_normalised edges row).2 hT.ne'
  rw [hp] at hp1
  cases hp1
  obtain ⟨p', hp', hp'1, hp'e, hp'n⟩ := (C07_row_normalised edges' row).2 hT'0.ne'
  have hgp : Grid edges p.length := by rw [hp1e, List.length_map]; exact hg
  have hgp' : Grid edges' p'.length := by rw [hp'e, List.length_map]; exact hgr'
  have hcdf : ∀ x, ∃ F F', histCdf edges p x = some F ∧ histCdf edges' p' x = some F' ∧ |F' - F| ≤ 4 * δ * row.sum / (totalMass edges row - 2 * δ * row.sum) := by
    intro x
    refine ⟨_, _, C08_cdf_is_mass edges p hgp hp11 x, C08_cdf_is_mass edges' p' hgp' hp'1 x, ?_⟩
    rw [hp1e, hp'e, massUpTo_div, massUpTo_div]
    have hM := (mass_moved δ x hδ row edges edges' hpos hm).1
    have hM0 : 0 ≤ massUpTo edges row x ∧ massUpTo edges row x ≤ totalMass edges row := by
      have := mass_near (ε := (0 : K)) (row := row) (row' := row) (by
        unfold Stability.Near
        exact List.forall₂_same.2 fun v _ => by simp) edges x hg.strict hpos
      exact ⟨this.2.2.1, by linarith [this.2.2.2]⟩
    generalize massUpTo edges row x = M at *
    generalize massUpTo edges' row x = M' at *
    generalize totalMass edges row = T at *
    generalize totalMass edges' row = T' at *
    have e : M' / T' - M / T = ((M' - M) * T + M * (T - T')) / (T' * T) := by
      field_simp
      ring
    rw [e, abs_div, abs_of_pos (mul_pos hT'0 hT)]
    have hnum : |(M' - M) * T + M * (T - T')| ≤ 4 * δ * row.sum * T := by
      refine (abs_add_le _ _).trans ?_
      rw [abs_mul, abs_mul, abs_of_pos hT, abs_of_nonneg hM0.1, abs_sub_comm T T']
      have h1 := mul_le_mul_of_nonneg_right hM hT.le
      have h2 := mul_le_mul hM0.2 hTT (abs_nonneg _) hT.le
      linarith
    calc |(M' - M) * T + M * (T - T')| / (T' * T) ≤ 4 * δ * row.sum * T / (T' * T) := by gcongr
      _ = 4 * δ * row.sum / T' := by field_simp
      _ ≤ 4 * δ * row.sum / (T - 2 * δ * row.sum) := by gcongr
  refine ⟨p', hp', ?_, hcdf, fun q hq0 hq1 => ?_⟩
  · rw [hp1e, hp'e, List.forall₂_map_left_iff, List.forall₂_map_right_iff]
    refine List.forall₂_same.2 fun v hv => ?_
    have hv0 := hpos v hv
    generalize totalMass edges row = T at *
    generalize totalMass edges' row = T' at *
    have e : v / T' - v / T = (T - T') / T' * (v / T) := by
      field_simp
    rw [e, abs_mul, abs_div, abs_of_pos hT'0, abs_of_nonneg (div_nonneg hv0 hT.le), abs_sub_comm]
    gcongr
  · obtain ⟨x, hx, hx2, -, -⟩ := C09_cdf_ppf edges' p' hgp' hp'1 (hp'n hg' hpos) q hq0 hq1
    obtain ⟨F, F', hF, hF', hd⟩ := hcdf x
    rw [hx2] at hF'
    cases hF'
    exact ⟨x, F, hx, hF, by rw [abs_sub_comm]; exact hd⟩

/-- non-trivial case: three bins, the inner edges moved by 1/10 -/
example : ∃ p', histNormRow ([0, 11/10, 21/10, 4] : List ℚ) [1, 2, 1] = some p' ∧
    ∀ x, ∃ F F', histCdf [0, 1, 2, 4] [1/5, 2/5, 1/5] x = some F ∧ histCdf [0, 11/10, 21/10, 4] p' x = some F' ∧ |F' - F| ≤ 8/21 := by
  obtain ⟨p', h1, -, h2, -⟩ := C133_hist_edges (edges := ([0, 1, 2, 4] : List ℚ)) (edges' := [0, 11/10, 21/10, 4]) (row := [1, 2, 1]) (p := [1/5, 2/5, 1/5]) (δ := 1/10)
    ⟨by decide +kernel, rfl, by decide⟩ (by decide +kernel) (by decide +kernel) (by decide +kernel) (by unfold Moved; decide +kernel) (by norm_num) (by norm_num [totalMass])
  refine ⟨p', h1, fun x => ?_⟩
  obtain ⟨F, F', a, b, c⟩ := h2 x
  refine ⟨F, F', a, b, c.trans ?_⟩
  norm_num [totalMass]

end Verif.Props.EdgesStable
