import Mathlib.Algebra.Order.Ring.Rat
import Mathlib.Data.Rat.Floor
import Mathlib.Tactic.Linarith
import Mathlib.Tactic.FieldSimp
import Mathlib.Tactic.Positivity
import Mathlib.Tactic.Ring
import Verif.Model.PointStats
import Verif.Lemmas.Sorted

/-!
# C72: statistics of point estimates, C71: the rate of point outliers
-/

set_option linter.unusedSectionVars false
set_option autoImplicit false

namespace Verif.Props.Metrics

open Verif Verif.Np Verif.Model Verif.Lemmas

variable {K : Type} [Field K] [LinearOrder K] [IsStrictOrderedRing K]

/-! ## The median -/

/-- half of the values are not above `m` and half of them are not below -/
def IsMedian (l : List K) (m : K) : Prop :=
  2 * l.countP (fun x => decide (x < m)) ≤ l.length ∧ 2 * l.countP (fun x => decide (m < x)) ≤ l.length

theorem sort_map_mono (f : K → K) (hf : ∀ x y, x ≤ y → f x ≤ f y) (l : List K) : Np.sort (l.map f) = (Np.sort l).map f := by
  refine (eq_sort ((sort_perm l).map f) ?_).symm
  rw [List.pairwise_map]
  exact (sort_pairwise l).imp fun h => hf _ _ h

/-- the middle entries of a sorted list -/
theorem median_eq (l : List K) (m : K) : npMedian l = some m ↔
    ∃ a b, (Np.sort l)[(l.length - 1) / 2]? = some a ∧ (Np.sort l)[l.length / 2]? = some b ∧ m = (a + b) / 2 := by
  unfold npMedian
  by_cases h1 : l.length % 2 = 1
  · have e : (l.length - 1) / 2 = l.length / 2 := by omega
    simp only [h1, if_true, e]
    refine ⟨fun h => ⟨m, m, h, h, by ring⟩, ?_⟩
    rintro ⟨a, b, ha, hb, rfl⟩
    rw [ha] at hb
    cases hb
    rw [ha]
    congr 1
    ring
  · by_cases h0 : l.length = 0
    · have : l = [] := by simpa using h0
      subst this
      simp [Np.sort]
    · have e : (l.length - 1) / 2 = l.length / 2 - 1 := by omega
      simp only [h1, if_false, h0, e]
      simp only [Option.bind_eq_some_iff, Option.map_eq_some_iff]
      constructor
      · rintro ⟨a, ha, b, hb, rfl⟩
        exact ⟨a, b, ha, hb, rfl⟩
      · rintro ⟨a, b, ha, hb, rfl⟩
        exact ⟨a, ha, b, hb, rfl⟩

theorem median_exists (l : List K) (h : l ≠ []) : ∃ m, npMedian l = some m := by
  have h0 : 0 < l.length := List.length_pos_iff.2 h
  have g (i : ℕ) (hi : i < l.length) : ∃ x, (Np.sort l)[i]? = some x := ⟨(Np.sort l)[i]'(by simpa using hi), by simp [hi]⟩
  obtain ⟨a, ha⟩ := g ((l.length - 1) / 2) (by omega)
  obtain ⟨b, hb⟩ := g (l.length / 2) (by omega)
  exact ⟨(a + b) / 2, (median_eq l _).2 ⟨a, b, ha, hb, rfl⟩⟩

/-- The bias is a median: at most half of the residuals are below it and at most half above. It exists exactly when there are residuals. -/
theorem C72_median (l : List K) : (npMedian l = none ↔ l = []) ∧ ∀ m, npMedian l = some m → IsMedian l m := by
  constructor
  · constructor
    · intro h
      by_contra hl
      obtain ⟨m, hm⟩ := median_exists l hl
      rw [h] at hm
      cases hm
    · rintro rfl; rfl
  · intro m hm
    obtain ⟨a, b, ha, hb, rfl⟩ := (median_eq l m).1 hm
    have hab : a ≤ b := pairwise_get (sort_pairwise l) (by omega) ha hb
    have hbl : l.length / 2 < l.length := by simpa using (List.getElem?_eq_some_iff.1 hb).1
    constructor
    · -- fewer than half below: entry n/2 is not below
      rw [← (sort_perm l).countP_eq]
      by_contra hc
      have : l.length / 2 < (Np.sort l).countP (fun x => decide (x < (a + b) / 2)) := by omega
      have := (count_lt_iff (sort_pairwise l) ((a + b) / 2) _ b hb).2 this
      linarith
    · rw [← (sort_perm l).countP_eq]
      have hsum : (Np.sort l).countP (fun x => decide (x ≤ (a + b) / 2)) + (Np.sort l).countP (fun x => decide ((a + b) / 2 < x)) = l.length := by
        have := List.length_eq_countP_add_countP (fun x => decide (x ≤ (a + b) / 2)) (l := Np.sort l)
        rw [length_sort] at this
        rw [this]
        congr 1
        apply List.countP_congr
        intro x _
        simp
      have hle : (l.length - 1) / 2 < (Np.sort l).countP (fun x => decide (x ≤ (a + b) / 2)) :=
        (count_le_iff (sort_pairwise l) ((a + b) / 2) _ a ha).1 (by linarith)
      omega

theorem median_perm {l l' : List K} (h : l.Perm l') : npMedian l = npMedian l' := by
  simp only [npMedian, sort_eq_of_perm h, h.length_eq]

theorem median_shift (l : List K) (c : K) : npMedian (l.map (· + c)) = (npMedian l).map (· + c) := by
  by_cases hl : l = []
  · subst hl; rfl
  · obtain ⟨m, hm⟩ := median_exists l hl
    rw [hm]
    obtain ⟨a, b, ha, hb, rfl⟩ := (median_eq l m).1 hm
    refine (median_eq _ _).2 ⟨a + c, b + c, ?_, ?_, by ring⟩
    · rw [sort_map_mono _ (fun x y h => by linarith), List.length_map, List.getElem?_map, ha]; rfl
    · rw [sort_map_mono _ (fun x y h => by linarith), List.length_map, List.getElem?_map, hb]; rfl

theorem median_nonneg {l : List K} {m : K} (h : npMedian l = some m) (hl : ∀ x ∈ l, 0 ≤ x) : 0 ≤ m := by
  obtain ⟨a, b, ha, hb, rfl⟩ := (median_eq l m).1 h
  have := hl a (mem_sort.1 (List.mem_of_getElem? ha))
  have := hl b (mem_sort.1 (List.mem_of_getElem? hb))
  linarith

/-! ## Quantiles -/

section Quantile
variable [FloorRing K]

/-- what a quantile is made of -/
theorem quantile_ok {p : K} {l : List K} {q : K} (h : npQuantile p l = .ok q) : 0 ≤ p ∧ p ≤ 1 ∧ ∃ (i : ℕ) (a b : K),
    (Np.sort l)[i]? = some a ∧ (Np.sort l)[min (i + 1) (l.length - 1)]? = some b ∧
    (i : K) ≤ p * ((l.length : K) - 1) ∧ p * ((l.length : K) - 1) < (i : K) + 1 ∧ q = a + (b - a) * (p * ((l.length : K) - 1) - (i : K)) := by
  unfold npQuantile at h
  by_cases hp : p < 0 ∨ 1 < p
  · simp [hp] at h
  · rw [if_neg hp] at h
    rw [not_or, not_lt, not_lt] at hp
    refine ⟨hp.1, hp.2, ⌊p * ((l.length : K) - 1)⌋.toNat, ?_⟩
    cases ha : (Np.sort l)[⌊p * ((l.length : K) - 1)⌋.toNat]? with
    | none => simp [ha] at h
    | some a =>
      cases hb : (Np.sort l)[min (⌊p * ((l.length : K) - 1)⌋.toNat + 1) (l.length - 1)]? with
      | none => simp [ha, hb] at h
      | some b =>
        simp only [ha, hb, Except.ok.injEq] at h
        have hl : 1 ≤ l.length := by
          have := (List.getElem?_eq_some_iff.1 ha).1
          rw [length_sort] at this
          omega
        have hl' : (0 : K) ≤ (l.length : K) - 1 := by
          have : (1 : K) ≤ (l.length : K) := by exact_mod_cast hl
          linarith
        have hh : 0 ≤ p * ((l.length : K) - 1) := mul_nonneg hp.1 hl'
        have hf : ((⌊p * ((l.length : K) - 1)⌋.toNat : ℕ) : K) = ((⌊p * ((l.length : K) - 1)⌋ : ℤ) : K) := by
          have : ((⌊p * ((l.length : K) - 1)⌋.toNat : ℕ) : ℤ) = ⌊p * ((l.length : K) - 1)⌋ := Int.toNat_of_nonneg (Int.floor_nonneg.2 hh)
          exact_mod_cast congrArg (fun z : ℤ => (z : K)) this
        refine ⟨a, b, rfl, rfl, ?_, ?_, h.symm⟩
        · rw [hf]; exact Int.floor_le _
        · rw [hf]; exact Int.lt_floor_add_one _

theorem quantile_exists {p : K} {l : List K} (h0 : 0 ≤ p) (h1 : p ≤ 1) (hl : l ≠ []) : ∃ q, npQuantile p l = .ok q := by
  have hlen : 0 < l.length := List.length_pos_iff.2 hl
  have hl' : (0 : K) ≤ (l.length : K) - 1 := by
    have : (1 : K) ≤ (l.length : K) := by exact_mod_cast hlen
    linarith
  have hh : p * ((l.length : K) - 1) ≤ ((l.length - 1 : ℕ) : K) := by
    rw [Nat.cast_sub hlen]
    calc p * ((l.length : K) - 1) ≤ 1 * ((l.length : K) - 1) := mul_le_mul_of_nonneg_right h1 hl'
      _ = _ := by simp
  have hi : ⌊p * ((l.length : K) - 1)⌋.toNat < l.length := by
    have : ⌊p * ((l.length : K) - 1)⌋ ≤ ((l.length - 1 : ℕ) : ℤ) := by
      have := Int.floor_mono hh
      simpa using this
    omega
  unfold npQuantile
  rw [if_neg (by rw [not_or, not_lt, not_lt]; exact ⟨h0, h1⟩)]
  have e1 : (Np.sort l)[⌊p * ((l.length : K) - 1)⌋.toNat]? = some ((Np.sort l)[⌊p * ((l.length : K) - 1)⌋.toNat]'(by simpa using hi)) := by
    simp [hi]
  have hi2 : min (⌊p * ((l.length : K) - 1)⌋.toNat + 1) (l.length - 1) < l.length := by omega
  have e2 : (Np.sort l)[min (⌊p * ((l.length : K) - 1)⌋.toNat + 1) (l.length - 1)]? =
      some ((Np.sort l)[min (⌊p * ((l.length : K) - 1)⌋.toNat + 1) (l.length - 1)]'(by simpa using hi2)) := by
    simp [hi2]
  simp only [e1, e2]
  exact ⟨_, rfl⟩

theorem lerp_between {a b t : K} (hab : a ≤ b) (h0 : 0 ≤ t) (h1 : t ≤ 1) : a ≤ a + (b - a) * t ∧ a + (b - a) * t ≤ b := by
  have hba : 0 ≤ b - a := by linarith
  have := mul_nonneg hba h0
  have := mul_le_mul_of_nonneg_left h1 hba
  exact ⟨by linarith, by linarith⟩

/-- Quantiles are non-decreasing in the level. -/
theorem quantile_mono {p p' : K} {l : List K} {q q' : K} (hp : p ≤ p') (h : npQuantile p l = .ok q) (h' : npQuantile p' l = .ok q') : q ≤ q' := by
  obtain ⟨h0, h1, i, a, b, ha, hb, hi, hi1, rfl⟩ := quantile_ok h
  obtain ⟨h0', h1', j, c, d, hc, hd, hj, hj1, rfl⟩ := quantile_ok h'
  have hil := (List.getElem?_eq_some_iff.1 ha).1
  have hjl := (List.getElem?_eq_some_iff.1 hc).1
  rw [length_sort] at hil hjl
  have hlen : (0 : K) ≤ (l.length : K) - 1 := by
    have : (1 : K) ≤ (l.length : K) := by exact_mod_cast (by omega : 1 ≤ l.length)
    linarith
  have hhh : p * ((l.length : K) - 1) ≤ p' * ((l.length : K) - 1) := mul_le_mul_of_nonneg_right hp hlen
  have hij : i ≤ j := by
    have : (i : K) < (j : K) + 1 := by linarith
    have : i < j + 1 := by exact_mod_cast this
    omega
  have hab := pairwise_get (sort_pairwise l) (by omega) ha hb
  have hcd := pairwise_get (sort_pairwise l) (by omega) hc hd
  rcases hij.lt_or_eq with hlt | rfl
  · have hbc := pairwise_get (sort_pairwise l) (by omega : min (i + 1) (l.length - 1) ≤ j) hb hc
    have l1 := lerp_between hab (t := p * ((l.length : K) - 1) - (i : K)) (by linarith) (by linarith)
    have l2 := lerp_between hcd (t := p' * ((l.length : K) - 1) - (j : K)) (by linarith) (by linarith)
    linarith
  · rw [ha] at hc; cases hc
    rw [hb] at hd; cases hd
    have hba : 0 ≤ b - a := by linarith
    have := mul_le_mul_of_nonneg_left hhh hba
    linarith

/-- Every quantile lies between the smallest and the largest value. -/
theorem quantile_between {p : K} {l : List K} {q lo hi : K} (h : npQuantile p l = .ok q) (hl : ∀ x ∈ l, lo ≤ x ∧ x ≤ hi) : lo ≤ q ∧ q ≤ hi := by
  obtain ⟨h0, h1, i, a, b, ha, hb, hi0, hi1, rfl⟩ := quantile_ok h
  have hil := (List.getElem?_eq_some_iff.1 ha).1
  rw [length_sort] at hil
  have hab := pairwise_get (sort_pairwise l) (by omega) ha hb
  have l1 := lerp_between hab (t := p * ((l.length : K) - 1) - (i : K)) (by linarith) (by linarith)
  have := hl a (mem_sort.1 (List.mem_of_getElem? ha))
  have := hl b (mem_sort.1 (List.mem_of_getElem? hb))
  exact ⟨by linarith, by linarith⟩

theorem quantile_perm {p : K} {l l' : List K} (h : l.Perm l') : npQuantile p l = npQuantile p l' := by
  simp only [npQuantile, sort_eq_of_perm h, h.length_eq]

theorem quantile_shift (p : K) (l : List K) (c : K) : npQuantile p (l.map (· + c)) = (npQuantile p l).map (· + c) := by
  unfold npQuantile
  rw [sort_map_mono _ (fun x y h => by linarith), List.length_map]
  by_cases hp : p < 0 ∨ 1 < p
  · simp [hp, Except.map]
  · rw [if_neg hp, if_neg hp]
    simp only [List.getElem?_map]
    cases (Np.sort l)[⌊p * ((l.length : K) - 1)⌋.toNat]? with
    | none => rfl
    | some a =>
      cases (Np.sort l)[min (⌊p * ((l.length : K) - 1)⌋.toNat + 1) (l.length - 1)]? with
      | none => rfl
      | some b => simp only [Option.map_some, Except.map, Except.ok.injEq]; ring

/-! ## C72 -/

/-- **C72**: none of the statistics depends on the order of the residuals. -/
theorem C72_order {ez ez' : List K} (h : ez.Perm ez') :
    npMedian ez = npMedian ez' ∧ sigmaIqrOf ez = sigmaIqrOf ez' ∧ sigmaMadOf ez = sigmaMadOf ez' ∧ pointOutlierOf ez = pointOutlierOf ez' := by
  have hi : sigmaIqrOf ez = sigmaIqrOf ez' := by simp only [sigmaIqrOf, quantile_perm h]
  refine ⟨median_perm h, hi, ?_, ?_⟩
  · simp only [sigmaMadOf, median_perm h]
    congr 1
    funext m
    rw [median_perm (h.map fun e => |e - m|)]
  · simp only [pointOutlierOf, hi, h.countP_eq, h.length_eq]

/-- the residuals of a list of objects, each with its estimate and its true value -/
theorem ez_perm {ps ps' : List (K × K)} (h : ps.Perm ps') :
    (∃ e, ezList (ps.map (·.1)) (ps.map (·.2)) = .error e ∧ ezList (ps'.map (·.1)) (ps'.map (·.2)) = .error e) ∨
    ∃ ez ez', ezList (ps.map (·.1)) (ps.map (·.2)) = .ok ez ∧ ezList (ps'.map (·.1)) (ps'.map (·.2)) = .ok ez' ∧ ez.Perm ez' := by
  unfold ezList
  simp only [List.length_map, if_true]
  have hany : (ps.map (·.2)).any (fun r => decide (1 + r = 0)) = (ps'.map (·.2)).any (fun r => decide (1 + r = 0)) := by
    rw [Bool.eq_iff_iff, List.any_eq_true, List.any_eq_true]
    exact exists_congr fun r => and_congr_left fun _ => (h.map _).mem_iff
  rw [hany]
  by_cases hr : (ps'.map (·.2)).any (fun r => decide (1 + r = 0)) = true
  · left; exact ⟨_, by rw [if_pos hr], by rw [if_pos hr]⟩
  · right
    refine ⟨_, _, by rw [if_neg hr], by rw [if_neg hr], ?_⟩
    have z (l : List (K × K)) : List.zipWith (fun e r => (e - r) / (1 + r)) (l.map (·.1)) (l.map (·.2)) = l.map fun q => (q.1 - q.2) / (1 + q.2) := by
      induction l with
      | nil => rfl
      | cons a l ih => simp [ih]
    rw [z, z]
    exact h.map _

/-- **C72**, as users call the metrics: rearranging the objects (estimates and true values together) changes no result. -/
theorem C72_objects {ps ps' : List (K × K)} (h : ps.Perm ps') :
    pointBias (ps.map (·.1)) (ps.map (·.2)) = pointBias (ps'.map (·.1)) (ps'.map (·.2)) ∧
    sigmaIqr (ps.map (·.1)) (ps.map (·.2)) = sigmaIqr (ps'.map (·.1)) (ps'.map (·.2)) ∧
    sigmaMad (ps.map (·.1)) (ps.map (·.2)) = sigmaMad (ps'.map (·.1)) (ps'.map (·.2)) ∧
    pointOutlier (ps.map (·.1)) (ps.map (·.2)) = pointOutlier (ps'.map (·.1)) (ps'.map (·.2)) := by
  unfold pointBias sigmaIqr sigmaMad pointOutlier
  rcases ez_perm h with ⟨e, h1, h2⟩ | ⟨ez, ez', h1, h2, hp⟩
  · rw [h1, h2]; exact ⟨rfl, rfl, rfl, rfl⟩
  · obtain ⟨a, b, c, d⟩ := C72_order hp
    rw [h1, h2]
    simp only [Except.map, Bind.bind, Except.bind, a, b, c, d, and_self]

/-- sigma-IQR and sigma-MAD are never negative. -/
theorem C72_nonneg (ez : List K) :
    (∀ s, sigmaIqrOf ez = .ok s → 0 ≤ s) ∧ (∀ s, sigmaMadOf ez = some s → 0 ≤ s) := by
  constructor
  · intro s hs
    unfold sigmaIqrOf at hs
    cases h1 : npQuantile (3 / 4) ez with
    | error e => simp [h1, Bind.bind, Except.bind] at hs
    | ok x75 =>
      cases h2 : npQuantile (1 / 4) ez with
      | error e => simp only [h1, h2, Bind.bind, Except.bind] at hs; cases hs
      | ok x25 =>
        simp only [h1, h2, Bind.bind, Except.bind, Except.ok.injEq] at hs
        subst hs
        have := quantile_mono (by norm_num) h2 h1
        apply div_nonneg (by linarith) (by norm_num)
  · intro s hs
    simp only [sigmaMadOf, Option.bind_eq_some_iff, Option.map_eq_some_iff] at hs
    obtain ⟨m, _, d, hd, rfl⟩ := hs
    refine mul_nonneg (median_nonneg hd ?_) (by norm_num)
    intro x hx
    simp only [List.mem_map] at hx
    obtain ⟨e, _, rfl⟩ := hx
    exact abs_nonneg _

/-- Shifting all residuals shifts the bias and leaves sigma-IQR and sigma-MAD as they are. -/
theorem C72_shift (ez : List K) (c : K) :
    npMedian (ez.map (· + c)) = (npMedian ez).map (· + c) ∧
    sigmaIqrOf (ez.map (· + c)) = sigmaIqrOf ez ∧ sigmaMadOf (ez.map (· + c)) = sigmaMadOf ez := by
  refine ⟨median_shift ez c, ?_, ?_⟩
  · simp only [sigmaIqrOf, quantile_shift]
    cases npQuantile (3 / 4) ez with
    | error e => rfl
    | ok x75 =>
      cases npQuantile (1 / 4) ez with
      | error e => rfl
      | ok x25 => simp [Except.map, Bind.bind, Except.bind]
  · simp only [sigmaMadOf, median_shift]
    cases npMedian ez with
    | none => rfl
    | some m => simp [List.map_map, Function.comp_def]

/-- The statistics exist for every non-empty list of residuals. -/
theorem C72_exists (ez : List K) (h : ez ≠ []) :
    (∃ m, npMedian ez = some m) ∧ (∃ s, sigmaIqrOf ez = .ok s) ∧ (∃ s, sigmaMadOf ez = some s) ∧ ∃ r, pointOutlierOf ez = .ok r := by
  obtain ⟨m, hm⟩ := median_exists ez h
  obtain ⟨a, ha⟩ := quantile_exists (p := (3 / 4 : K)) (by norm_num) (by norm_num) h
  obtain ⟨b, hb⟩ := quantile_exists (p := (1 / 4 : K)) (by norm_num) (by norm_num) h
  obtain ⟨d, hd⟩ := median_exists (ez.map fun e => |e - m|) (by simpa using h)
  have hs : sigmaIqrOf ez = .ok ((a - b) / (1349 / 1000)) := by simp only [sigmaIqrOf, ha, hb, Bind.bind, Except.bind]
  exact ⟨⟨m, hm⟩, ⟨_, hs⟩, ⟨d * (14826 / 10000), by simp only [sigmaMadOf, hm, Option.bind_some, hd, Option.map_some]⟩,
    by simp only [pointOutlierOf, hs, Bind.bind, Except.bind]; exact ⟨_, rfl⟩⟩

/-- sigma-IQR is the distance of the quartiles, which are between the smallest and the largest residual: it vanishes when all residuals are
equal, and it never exceeds their range divided by 1.349. -/
theorem C72_range (ez : List K) (s lo hi : K) (hs : sigmaIqrOf ez = .ok s) (h : ∀ e ∈ ez, lo ≤ e ∧ e ≤ hi) : s ≤ (hi - lo) / (1349 / 1000) := by
  unfold sigmaIqrOf at hs
  cases h1 : npQuantile (3 / 4) ez with
  | error e => simp [h1, Bind.bind, Except.bind] at hs
  | ok x75 =>
    cases h2 : npQuantile (1 / 4) ez with
    | error e => simp only [h1, h2, Bind.bind, Except.bind] at hs; cases hs
    | ok x25 =>
      simp only [h1, h2, Bind.bind, Except.bind, Except.ok.injEq] at hs
      subst hs
      have := (quantile_between h1 h).2
      have := (quantile_between h2 h).1
      apply div_le_div_of_nonneg_right (by linarith) (by norm_num)

example : pointBias (K := ℚ) [2, 1, 4, 0] [1, 1, 1, 1] = .ok (some (1/4)) ∧ sigmaIqr (K := ℚ) [2, 1, 4, 0] [1, 1, 1, 1] = .ok (875/1349) ∧
    sigmaMad (K := ℚ) [2, 1, 4, 0] [1, 1, 1, 1] = .ok (some (7413/10000)) := by decide +kernel

/-! ## C71 for point estimates -/

/-- **C71**, the rate of point outliers: the fraction of objects whose residual is larger in size than both 0.06 and three sigma-IQR; a number
between 0 and 1. -/
theorem C71_point (ez : List K) (r : K) (h : pointOutlierOf ez = .ok r) :
    ∃ s, sigmaIqrOf ez = .ok s ∧ r = ((ez.countP fun e => decide (6 / 100 < |e| ∧ 3 * s < |e|) : ℕ) : K) / (ez.length : K) ∧ 0 ≤ r ∧ r ≤ 1 := by
  unfold pointOutlierOf at h
  cases hs : sigmaIqrOf ez with
  | error e => simp [hs, Bind.bind, Except.bind] at h
  | ok s =>
    simp only [hs, Bind.bind, Except.bind, Except.ok.injEq, max_lt_iff] at h
    refine ⟨s, rfl, h.symm, ?_, ?_⟩
    · rw [← h]; positivity
    · rw [← h]
      apply div_le_one_of_le₀ _ (by positivity)
      exact_mod_cast List.countP_le_length

/-- Enlarging the accepted interval never increases the fraction outside. -/
theorem C71_point_mono (ez : List K) (c c' : K) (h : c ≤ c') :
    ((ez.countP fun e => decide (c' < |e|) : ℕ) : K) / (ez.length : K) ≤ ((ez.countP fun e => decide (c < |e|) : ℕ) : K) / (ez.length : K) := by
  apply div_le_div_of_nonneg_right _ (by positivity)
  have : (ez.countP fun e => decide (c' < |e|)) ≤ ez.countP fun e => decide (c < |e|) :=
    List.countP_mono_left fun e _ he => by simp only [decide_eq_true_eq] at he ⊢; exact lt_of_le_of_lt h he
  exact_mod_cast this

/-- one outlier among five objects -/
example : pointOutlier (K := ℚ) [0, 1/100, 1/50, 3/100, 5] [0, 0, 0, 0, 0] = .ok (1/5) := by decide +kernel

end Quantile

end Verif.Props.Metrics
