import Verif.Model.Digest
import Verif.Props.PointStats
import Verif.Props.MetricGrid
import Verif.Lemmas.Dict
import Mathlib.Algebra.Order.Ring.Rat
import Mathlib.Data.Rat.Floor

/-!
# C92: point metrics from digests of chunks
-/

set_option linter.unusedSectionVars false
set_option autoImplicit false

namespace Verif.Props.Digest

open Verif Verif.Np Verif.Model Verif.Lemmas Verif.Props.Metrics

section
variable {K D : Type} [Field K] [LinearOrder K] [IsStrictOrderedRing K] [FloorRing K]

/-- the mass of the cells whose distance satisfies `P` -/
def massOf (P : K → Bool) (l : List (K × K)) : K := ((l.filter fun p => P p.1).map (·.2)).sum

theorem massOf_cons (P : K → Bool) (d m : K) (l : List (K × K)) : massOf P ((d, m) :: l) = (if P d then m else 0) + massOf P l := by
  unfold massOf
  rw [List.filter_cons]
  by_cases h : P d = true <;> simp [h]

theorem massOf_nonneg (P : K → Bool) (l : List (K × K)) (h : ∀ p ∈ l, 0 ≤ p.2) : 0 ≤ massOf P l := by
  unfold massOf
  apply List.sum_nonneg
  simp only [List.mem_map, List.mem_filter]
  rintro _ ⟨p, ⟨hp, -⟩, rfl⟩
  exact h p hp

theorem massOf_mono (P Q : K → Bool) (hPQ : ∀ d, P d = true → Q d = true) (l : List (K × K)) (h : ∀ p ∈ l, 0 ≤ p.2) : massOf P l ≤ massOf Q l := by
  induction l with
  | nil => simp [massOf]
  | cons c l ih =>
    obtain ⟨d, m⟩ := c
    have hm := h (d, m) (by simp)
    have := ih fun p hp => h p (List.mem_cons_of_mem _ hp)
    rw [massOf_cons, massOf_cons]
    by_cases hp : P d = true
    · rw [if_pos hp, if_pos (hPQ d hp)]; linarith
    · rw [if_neg hp]
      split_ifs
      · simp only at hm; linarith
      · linarith

theorem massOf_perm (P : K → Bool) {l l' : List (K × K)} (h : l.Perm l') : massOf P l = massOf P l' := ((h.filter _).map _).sum_eq

theorem pick_mem : ∀ (l : List (K × K)) (acc d : K), madPick acc l = .ok d → ∃ m, (d, m) ∈ l := by
  intro l
  induction l with
  | nil => intro acc d h; simp [madPick] at h
  | cons c l ih =>
    intro acc d h
    obtain ⟨e, m⟩ := c
    unfold madPick at h
    split_ifs at h with hc
    · obtain rfl := Except.ok.inj h; exact ⟨m, by simp⟩
    · obtain ⟨m', h'⟩ := ih _ _ h; exact ⟨m', List.mem_cons_of_mem _ h'⟩

theorem pick_spec : ∀ (l : List (K × K)) (acc d : K), l.Pairwise (fun p q => p.1 ≤ q.1) → (∀ p ∈ l, 0 ≤ p.2) → acc < 1 / 2 → madPick acc l = .ok d →
    acc + massOf (fun x => x < d) l < 1 / 2 ∧ 1 / 2 ≤ acc + massOf (fun x => x ≤ d) l := by
  intro l
  induction l with
  | nil => intro acc d _ _ _ h; simp [madPick] at h
  | cons c l ih =>
    intro acc d hp hn ha h
    obtain ⟨e, m⟩ := c
    have hm : 0 ≤ m := hn (e, m) (by simp)
    have hn' : ∀ p ∈ l, 0 ≤ p.2 := fun p hp => hn p (List.mem_cons_of_mem _ hp)
    have hge : ∀ p ∈ l, e ≤ p.1 := fun p hp' => (List.pairwise_cons.1 hp).1 p hp'
    unfold madPick at h
    rw [massOf_cons, massOf_cons]
    split_ifs at h with hc
    · obtain rfl := Except.ok.inj h
      have hz : massOf (fun x => decide (x < e)) l = 0 := by
        unfold massOf
        rw [List.filter_eq_nil_iff.2 (fun p hp => by simpa using hge p hp)]
        rfl
      rw [hz]
      simp only [lt_irrefl, decide_false, Bool.false_eq_true, if_false, le_refl, decide_true, if_true]
      have := massOf_nonneg (fun x => decide (x ≤ e)) l hn'
      constructor <;> linarith
    · obtain ⟨m', hm'⟩ := pick_mem l _ d h
      have hed : e ≤ d := hge _ hm'
      obtain ⟨i1, i2⟩ := ih (acc + m) d (List.pairwise_cons.1 hp).2 hn' (not_le.1 hc) h
      refine ⟨?_, ?_⟩
      · split_ifs <;> linarith
      · simp only [hed, decide_true, if_true]; linarith

theorem pick_exists : ∀ (l : List (K × K)) (acc : K), (∀ p ∈ l, 0 ≤ p.2) → acc < 1 / 2 →
    (1 / 2 ≤ acc + (l.map (·.2)).sum → ∃ d, madPick acc l = .ok d) ∧ (acc + (l.map (·.2)).sum < 1 / 2 → madPick acc l = .error .IndexError) := by
  intro l
  induction l with
  | nil => intro acc _ ha; refine ⟨fun h => ?_, fun _ => rfl⟩; simp at h ha; linarith
  | cons c l ih =>
    intro acc hn ha
    obtain ⟨e, m⟩ := c
    have hs : 0 ≤ (l.map (·.2)).sum := List.sum_nonneg (by simp only [List.mem_map]; rintro _ ⟨p, hp, rfl⟩; exact hn p (List.mem_cons_of_mem _ hp))
    unfold madPick
    simp only [List.map_cons, List.sum_cons]
    by_cases hc : 1 / 2 ≤ acc + m
    · rw [if_pos hc]; exact ⟨fun _ => ⟨e, rfl⟩, fun h => by linarith⟩
    · rw [if_neg hc]
      obtain ⟨i1, i2⟩ := ih (acc + m) (fun p hp => hn p (List.mem_cons_of_mem _ hp)) (not_le.1 hc)
      exact ⟨fun h => i1 (by linarith), fun h => i2 (by linarith)⟩

theorem madSort_perm (l : List (K × K)) : (madSort l).Perm l := List.perm_insertionSort _ l

theorem madSort_sorted (l : List (K × K)) : (madSort l).Pairwise (fun p q => p.1 ≤ q.1) := by
  have : Std.Total (fun p q : K × K => p.1 ≤ q.1) := ⟨fun p q => le_total _ _⟩
  have : IsTrans (K × K) (fun p q => p.1 ≤ q.1) := ⟨fun _ _ _ h h' => le_trans h h'⟩
  exact List.pairwise_insertionSort _ l

theorem cells_nonneg (F : K → K) (hF : ∀ x y, x ≤ y → F x ≤ F y) (med : K) : ∀ g : List K, g.Pairwise (· ≤ ·) → ∀ p ∈ madCells F med g, 0 ≤ p.2 := by
  intro g
  induction g with
  | nil => intro _ p hp; simp [madCells] at hp
  | cons a t ih =>
    intro hg p hp
    cases t with
    | nil => simp [madCells] at hp
    | cons b t =>
      simp only [madCells, List.mem_cons] at hp
      rcases hp with rfl | hp
      · have := hF a b ((List.pairwise_cons.1 hg).1 b (by simp)); simpa using this
      · exact ih (List.pairwise_cons.1 hg).2 p hp

theorem cells_total (F : K → K) (med : K) : ∀ (t : List K) (a : K), ((madCells F med (a :: t)).map (·.2)).sum = F ((a :: t).getLast (by simp)) - F a := by
  intro t
  induction t with
  | nil => intro a; simp [madCells]
  | cons b t ih => intro a; simp only [madCells, List.map_cons, List.sum_cons, ih b, List.getLast_cons_cons]; ring

/-- cells inside an interval have at most its mass -/
theorem cells_le (F : K → K) (hF : ∀ x y, x ≤ y → F x ≤ F y) (med h u v : K) (P : K → Bool)
    (hP : ∀ a b, b - a = h → P |(a + b) / 2 - med| = true → u ≤ a ∧ b ≤ v) : ∀ (t : List K) (a : K), (a :: t).Pairwise (· ≤ ·) → Spaced h (a :: t) →
    massOf P (madCells F med (a :: t)) ≤ F (max v (max u a)) - F (max u a) := by
  intro t
  induction t with
  | nil => intro a _ _; simp only [madCells, massOf, List.filter_nil, List.map_nil, List.sum_nil]; linarith [hF _ _ (le_max_right v (max u a))]
  | cons b t ih =>
    intro a hg hs
    have hab : a ≤ b := (List.pairwise_cons.1 hg).1 b (by simp)
    have hh : b - a = h := hs 0 a b rfl rfl
    have := ih b (List.pairwise_cons.1 hg).2 fun i x y hx hy => hs (i + 1) x y (by simpa using hx) (by simpa using hy)
    rw [madCells, massOf_cons]
    by_cases hp : P |(a + b) / 2 - med| = true
    · obtain ⟨h1, h2⟩ := hP a b hh hp
      rw [if_pos hp, max_eq_right h1, max_eq_left (hab.trans h2)]
      rw [max_eq_right (h1.trans hab), max_eq_left h2] at this
      linarith
    · rw [if_neg hp]
      have hm : max u a ≤ max u b := max_le_max le_rfl hab
      rcases le_total (max u b) v with h1 | h1
      · rw [max_eq_left h1] at this
        rw [max_eq_left (hm.trans h1)]
        linarith [hF _ _ hm]
      · rw [max_eq_right h1] at this
        linarith [hF _ _ (le_max_right v (max u a))]

/-- cells that meet an interval have at least its mass -/
theorem cells_ge (F : K → K) (hF : ∀ x y, x ≤ y → F x ≤ F y) (med h u v : K) (P : K → Bool)
    (hP : ∀ a b, b - a = h → a < v → u < b → P |(a + b) / 2 - med| = true) : ∀ (t : List K) (a : K), (a :: t).Pairwise (· ≤ ·) → Spaced h (a :: t) →
    v ≤ (a :: t).getLast (by simp) → F v - F (max u a) ≤ massOf P (madCells F med (a :: t)) := by
  intro t
  induction t with
  | nil =>
    intro a _ _ hv
    simp only [madCells, massOf, List.filter_nil, List.map_nil, List.sum_nil]
    simp only [List.getLast_singleton] at hv
    linarith [hF _ _ (hv.trans (le_max_right u a))]
  | cons b t ih =>
    intro a hg hs hv
    have hab : a ≤ b := (List.pairwise_cons.1 hg).1 b (by simp)
    have hh : b - a = h := hs 0 a b rfl rfl
    have hpos := massOf_nonneg P _ (cells_nonneg F hF med (a :: b :: t) hg)
    by_cases hva : v ≤ a
    · linarith [hF _ _ (hva.trans (le_max_right u a))]
    · have := ih b (List.pairwise_cons.1 hg).2 (fun i x y hx hy => hs (i + 1) x y (by simpa using hx) (by simpa using hy)) (by simpa using hv)
      rw [madCells, massOf_cons]
      by_cases hub : u < b
      · rw [if_pos (hP a b hh (not_le.1 hva) hub)]
        rw [max_eq_right hub.le] at this
        linarith [hF _ _ (le_max_right u a)]
      · have hbu := not_lt.1 hub
        rw [max_eq_left hbu] at this
        rw [max_eq_left (hab.trans hbu)]
        have := hF a b hab
        split_ifs <;> linarith

/-- what `PointSigmaMAD` is to return, up to its factor: the smallest distance from the median within which a distribution function has half of
its mass -/
def IsMad (F : K → K) (med m : K) : Prop := (∀ t, t < m → F (med + t) - F (med - t) < 1 / 2) ∧ 1 / 2 ≤ F (med + m) - F (med - m)

/-- the grid as the proofs use it -/
theorem grid_shape (lo hi : K) (n : ℕ) (hn : 2 ≤ n) (hlh : lo ≤ hi) : ∃ t, linspace lo hi n = lo :: t ∧ (lo :: t).getLast (by simp) = hi ∧
    (lo :: t).Pairwise (· ≤ ·) ∧ Spaced ((hi - lo) / ((n : K) - 1)) (lo :: t) := by
  have h1 := head_linspace lo hi n hn
  have h2 := last_linspace lo hi n hn
  have h3 := spaced_linspace lo hi n hn
  have h4 : (linspace lo hi n).Pairwise (· ≤ ·) := by
    rcases hlh.lt_or_eq with h | h
    · exact (linspace_pairwise lo hi n hn h).imp le_of_lt
    · subst h
      rw [linspace, List.pairwise_map]
      refine List.pairwise_lt_range.imp ?_
      intro a b _
      simp
  cases hc : linspace lo hi n with
  | nil => rw [hc] at h1; simp at h1
  | cons a t =>
    rw [hc] at h1 h2 h3 h4
    obtain rfl : a = lo := by simpa using h1
    refine ⟨t, rfl, ?_, h4, h3⟩
    rw [List.getLast?_eq_some_getLast (by simp)] at h2
    exact Option.some.inj h2

/-- **C92, when the median absolute deviation is found**: with two or more bin edges, exactly if half of the mass lies between the extremes that the digest reports,
otherwise an `IndexError`. -/
theorem C92_mad_defined (lib : DigestLib K D) (d : D) (n : ℕ) (hn : 2 ≤ n) (hF : ∀ x y, x ≤ y → lib.cdf d x ≤ lib.cdf d y) (hlh : lib.inv d 0 ≤ lib.inv d 1) :
    (1 / 2 ≤ lib.cdf d (lib.inv d 1) - lib.cdf d (lib.inv d 0) → ∃ r, madDigest lib n d = .ok r) ∧
    (lib.cdf d (lib.inv d 1) - lib.cdf d (lib.inv d 0) < 1 / 2 → madDigest lib n d = .error .IndexError) := by
  obtain ⟨t, e, el, ep, es⟩ := grid_shape (lib.inv d 0) (lib.inv d 1) n hn hlh
  have hnn : ∀ p ∈ madSort (madCells (lib.cdf d) (lib.inv d (1 / 2)) (lib.inv d 0 :: t)), 0 ≤ p.2 := fun p hp =>
    cells_nonneg _ hF _ _ ep p ((madSort_perm _).mem_iff.1 hp)
  have htot : ((madSort (madCells (lib.cdf d) (lib.inv d (1 / 2)) (lib.inv d 0 :: t))).map (·.2)).sum = lib.cdf d (lib.inv d 1) - lib.cdf d (lib.inv d 0) := by
    rw [((madSort_perm _).map _).sum_eq, cells_total, el]
  obtain ⟨h1, h2⟩ := pick_exists _ 0 hnn (by norm_num)
  rw [htot, zero_add] at h1 h2
  unfold madDigest
  rw [e]
  refine ⟨fun h => ?_, fun h => ?_⟩
  · obtain ⟨v, hv⟩ := h1 h
    exact ⟨v * (14826 / 10000), by rw [hv]; rfl⟩
  · rw [h2 h]; rfl

/-- **C92, the error of the median absolute deviation**: half a bin, times the factor 1.4826. The distribution function of the digest is only assumed to be
monotone and constant outside its extremes. -/
theorem C92_mad_error (lib : DigestLib K D) (d : D) (n : ℕ) (hn : 2 ≤ n) (hF : ∀ x y, x ≤ y → lib.cdf d x ≤ lib.cdf d y) (hlh : lib.inv d 0 ≤ lib.inv d 1)
    (hlo : ∀ x, x ≤ lib.inv d 0 → lib.cdf d x = lib.cdf d (lib.inv d 0)) (hhi : ∀ x, lib.inv d 1 ≤ x → lib.cdf d x = lib.cdf d (lib.inv d 1))
    (r : K) (h : madDigest lib n d = .ok r) (m : K) (hm : IsMad (lib.cdf d) (lib.inv d (1 / 2)) m) :
    |r - m * (14826 / 10000)| ≤ (lib.inv d 1 - lib.inv d 0) / ((n : K) - 1) / 2 * (14826 / 10000) := by
  obtain ⟨t, e, el, ep, es⟩ := grid_shape (lib.inv d 0) (lib.inv d 1) n hn hlh
  unfold madDigest at h
  rw [e] at h
  set F := lib.cdf d
  set lo := lib.inv d 0
  set hi := lib.inv d 1
  set med := lib.inv d (1 / 2)
  set w := (hi - lo) / ((n : K) - 1) with hw
  have hw0 : 0 ≤ w := by
    apply div_nonneg (by linarith)
    have : (2 : K) ≤ (n : K) := by exact_mod_cast hn
    linarith
  cases hp : madPick 0 (madSort (madCells F med (lo :: t))) with
  | error err => rw [hp] at h; simp [Except.map] at h
  | ok v =>
    rw [hp] at h
    have hr : r = v * (14826 / 10000) := (Except.ok.inj h).symm
    have hnn : ∀ p ∈ madSort (madCells F med (lo :: t)), 0 ≤ p.2 := fun p hp => cells_nonneg _ hF _ _ ep p ((madSort_perm _).mem_iff.1 hp)
    obtain ⟨s1, s2⟩ := pick_spec _ 0 v (madSort_sorted _) hnn (by norm_num) hp
    rw [massOf_perm _ (madSort_perm _), zero_add] at s1 s2
    have hv0 : 0 ≤ v := by
      obtain ⟨mm, hmem⟩ := pick_mem _ _ _ hp
      have hmem := (madSort_perm _).mem_iff.1 hmem
      have : ∀ (g : List K) (p : K × K), p ∈ madCells F med g → 0 ≤ p.1 := by
        intro g
        induction g with
        | nil => intro p hp; simp [madCells] at hp
        | cons a g ih =>
          intro p hp
          cases g with
          | nil => simp [madCells] at hp
          | cons b g =>
            simp only [madCells, List.mem_cons] at hp
            rcases hp with rfl | hp
            · exact abs_nonneg _
            · exact ih p hp
      exact this _ _ hmem
    have low : m ≤ v + w / 2 := by
      by_contra hc
      have hc := hm.1 _ (not_le.1 hc)
      have hle := cells_le F hF med w (med - (v + w / 2)) (med + (v + w / 2)) (fun x => decide (x ≤ v)) (by
        intro a b hab hP
        have hP : |(a + b) / 2 - med| ≤ v := by simpa using hP
        obtain ⟨g1, g2⟩ := abs_le.1 hP
        constructor <;> linarith) t lo ep es
      have g1 : F (max (med - (v + w / 2)) lo) = F (med - (v + w / 2)) := by
        rcases le_total (med - (v + w / 2)) lo with hcase | hcase
        · rw [max_eq_right hcase, hlo _ hcase]
        · rw [max_eq_left hcase]
      rcases le_total (max (med - (v + w / 2)) lo) (med + (v + w / 2)) with hcase | hcase
      · rw [max_eq_left hcase, g1] at hle
        linarith
      · rw [max_eq_right hcase, sub_self] at hle
        linarith
    have high : v - w / 2 ≤ m := by
      by_contra hc
      have hc := not_le.1 hc
      have hge := cells_ge F hF med w (max (med - m) lo) (min (med + m) hi) (fun x => decide (x < v)) (by
        intro a b hab ha hb
        have ha := lt_of_lt_of_le ha (min_le_left _ _)
        have hb := lt_of_le_of_lt (le_max_left _ _) hb
        have : |(a + b) / 2 - med| < v := by rw [abs_lt]; constructor <;> linarith
        simpa using this) t lo ep es (by rw [el]; exact min_le_right _ _)
      rw [max_eq_left (le_max_right _ _)] at hge
      have g1 : F (max (med - m) lo) = F (med - m) := by
        rcases le_total (med - m) lo with hcase | hcase
        · rw [max_eq_right hcase, hlo _ hcase]
        · rw [max_eq_left hcase]
      have g2 : F (min (med + m) hi) = F (med + m) := by
        rcases le_total (med + m) hi with hcase | hcase
        · rw [min_eq_left hcase]
        · rw [min_eq_right hcase, hhi _ hcase]
      rw [g1, g2] at hge
      have := hm.2
      linarith
    rw [hr, ← sub_mul, abs_mul, abs_of_pos (by norm_num : (0 : K) < 14826 / 10000)]
    apply mul_le_mul_of_nonneg_right _ (by norm_num)
    rw [abs_le]
    constructor <;> linarith

/-- **C92, sorting**: the result does not depend on how `argsort` orders bins at equal distances. -/
theorem C92_mad_order (l l' : List (K × K)) (hl : ∀ p ∈ l, 0 ≤ p.2) (hp : l'.Perm l) (hs : l'.Pairwise (fun p q => p.1 ≤ q.1)) :
    madPick 0 l' = madPick 0 (madSort l) := by
  have hn' : ∀ p ∈ l', 0 ≤ p.2 := fun p h => hl p (hp.mem_iff.1 h)
  have hn'' : ∀ p ∈ madSort l, 0 ≤ p.2 := fun p h => hl p ((madSort_perm l).mem_iff.1 h)
  have ht : (l'.map (·.2)).sum = ((madSort l).map (·.2)).sum := ((hp.trans (madSort_perm l).symm).map _).sum_eq
  have e1 := pick_exists l' 0 hn' (by norm_num)
  have e2 := pick_exists (madSort l) 0 hn'' (by norm_num)
  rw [ht] at e1
  rcases lt_or_ge (0 + ((madSort l).map (·.2)).sum) (1 / 2) with h | h
  · rw [e1.2 h, e2.2 h]
  · obtain ⟨d1, h1⟩ := e1.1 h
    obtain ⟨d2, h2⟩ := e2.1 h
    have s1 := pick_spec l' 0 d1 hs hn' (by norm_num) h1
    have s2 := pick_spec _ 0 d2 (madSort_sorted l) hn'' (by norm_num) h2
    rw [massOf_perm _ hp, massOf_perm _ hp] at s1
    rw [massOf_perm _ (madSort_perm l), massOf_perm _ (madSort_perm l)] at s2
    rw [h1, h2]
    rcases lt_trichotomy d1 d2 with hlt | rfl | hlt
    · have := massOf_mono (fun x => decide (x ≤ d1)) (fun x => decide (x < d2)) (fun d hd => by simp at hd ⊢; exact lt_of_le_of_lt hd hlt) l hl
      linarith [s1.2, s2.1]
    · rfl
    · have := massOf_mono (fun x => decide (x ≤ d2)) (fun x => decide (x < d1)) (fun d hd => by simp at hd ⊢; exact lt_of_le_of_lt hd hlt) l hl
      linarith [s2.2, s1.1]

/-- **C92, outlier rate**: a fraction, whatever the digest reports as quartiles, if its weights are not negative and add up to its total weight. -/
theorem C92_outlier_range (lib : DigestLib K D) (d : D) (r : K) (hw : ∀ c ∈ lib.cents d, 0 ≤ c.2) (ht : lib.weight d = ((lib.cents d).map (·.2)).sum)
    (h0 : 0 < lib.weight d) (h : outlierDigest lib d = .ok r) : 0 ≤ r ∧ r ≤ 1 := by
  unfold outlierDigest at h
  obtain rfl := Except.ok.inj h
  set P := fun c : K × K => decide (max (6 / 100) (3 * ((lib.inv d (3 / 4) - lib.inv d (1 / 4)) / (1349 / 1000))) < |c.1|)
  have hs : ∀ l : List K, Np.sum l = l.sum := fun l => rfl
  rw [hs]
  have hle : ∀ l : List (K × K), (∀ c ∈ l, 0 ≤ c.2) → 0 ≤ ((l.filter P).map (·.2)).sum ∧ ((l.filter P).map (·.2)).sum ≤ (l.map (·.2)).sum := by
    intro l
    induction l with
    | nil => intro _; simp
    | cons c l ih =>
      intro hl
      obtain ⟨i1, i2⟩ := ih fun x hx => hl x (List.mem_cons_of_mem _ hx)
      have := hl c (by simp)
      rw [List.filter_cons]
      split_ifs <;> simp only [List.map_cons, List.sum_cons] <;> constructor <;> linarith
  obtain ⟨i1, i2⟩ := hle _ hw
  exact ⟨div_nonneg i1 h0.le, (div_le_one h0).2 (by rw [ht]; exact i2)⟩

/-- a digest that loses nothing: it keeps every value with weight one and answers quantiles like `np.quantile` -/
structure Lossless (lib : DigestLib K D) : Prop where
  compute : ∀ l, (lib.compute l).Perm (l.map fun v => (v, 1))
  ofCentroids : ∀ c, (lib.cents (lib.ofCentroids c)).Perm c
  add : ∀ d e, (lib.cents (lib.add d e)).Perm (lib.cents d ++ lib.cents e)
  weight : ∀ d, lib.weight d = ((lib.cents d).map (·.2)).sum
  inv : ∀ d l p, (lib.cents d).Perm (l.map fun v => (v, 1)) → l ≠ [] → 0 ≤ p → p ≤ 1 → npQuantile p l = .ok (lib.inv d p)

theorem quantile_half (l : List K) (q : K) (h : npQuantile (1 / 2) l = .ok q) : npMedian l = some q := by
  obtain ⟨-, -, i, a, b, ha, hb, h1, h2, rfl⟩ := quantile_ok h
  rw [median_eq]
  have hil := (List.getElem?_eq_some_iff.1 ha).1
  rw [length_sort] at hil
  have c1 : (2 * i + 1 : ℕ) ≤ l.length := by
    have : ((2 * i + 1 : ℕ) : K) ≤ (l.length : K) := by push_cast; linarith
    exact_mod_cast this
  have c2 : l.length < 2 * i + 3 := by
    have : (l.length : K) < ((2 * i + 3 : ℕ) : K) := by push_cast; linarith
    exact_mod_cast this
  rcases (by omega : l.length = 2 * i + 1 ∨ l.length = 2 * i + 2) with hl | hl
  · refine ⟨a, a, by rw [hl, show (2 * i + 1 - 1) / 2 = i by omega]; exact ha, by rw [hl, show (2 * i + 1) / 2 = i by omega]; exact ha, ?_⟩
    rw [hl]; push_cast; ring
  · refine ⟨a, b, by rw [hl, show (2 * i + 2 - 1) / 2 = i by omega]; exact ha, ?_, ?_⟩
    · rw [hl, show min (i + 1) (2 * i + 2 - 1) = i + 1 by omega] at hb
      rw [hl, show (2 * i + 2) / 2 = i + 1 by omega]; exact hb
    · rw [hl]; push_cast; ring

theorem combine_perm (lib : DigestLib K D) (hL : Lossless lib) : ∀ (cs : List (List (K × K))) (d : D),
    (lib.cents (cs.foldl (fun d c => lib.add d (lib.ofCentroids c)) d)).Perm (lib.cents d ++ cs.flatten) := by
  intro cs
  induction cs with
  | nil => intro d; simp
  | cons c cs ih =>
    intro d
    rw [List.foldl_cons, List.flatten_cons]
    refine (ih _).trans ?_
    rw [← List.append_assoc]
    exact ((hL.add _ _).trans ((hL.ofCentroids c).append_left _)).append_right _

theorem ezList_ok {est ref ez : List K} (hl : est.length = ref.length) (h : ezList est ref = .ok ez) : (∀ r ∈ ref, 1 + r ≠ 0) ∧
    ez = List.zipWith (fun e r => (e - r) / (1 + r)) est ref := by
  unfold ezList at h
  rw [if_pos hl] at h
  split_ifs at h with h2
  exact ⟨by simpa using h2, (Except.ok.inj h).symm⟩

theorem ezList_of {est ref : List K} (hl : est.length = ref.length) (h : ∀ r ∈ ref, 1 + r ≠ 0) : ezList est ref = .ok (List.zipWith (fun e r => (e - r) / (1 + r)) est ref) := by
  unfold ezList
  rw [if_pos hl, if_neg]
  simpa using h

theorem ezList_append {e1 r1 z1 e2 r2 z2 : List K} (a1 : e1.length = r1.length) (a2 : e2.length = r2.length) (h1 : ezList e1 r1 = .ok z1) (h2 : ezList e2 r2 = .ok z2) :
    ezList (e1 ++ e2) (r1 ++ r2) = .ok (z1 ++ z2) := by
  obtain ⟨b1, rfl⟩ := ezList_ok a1 h1
  obtain ⟨b2, rfl⟩ := ezList_ok a2 h2
  unfold ezList
  rw [if_pos (by simp [a1, a2]), if_neg, List.zipWith_append a1]
  simp only [List.any_eq_true, List.mem_append, decide_eq_true_eq, not_exists, not_and]
  rintro x (hx | hx)
  · exact b1 x hx
  · exact b2 x hx

/-- **C92, chunks**: through a digest that loses nothing, the evaluation of any division of the objects into chunks gives the median, the interquartile width and
the outlier rate of the undivided data.
Missing: residuals that are all equal (false, `C92_constant_index_error`). -/
theorem C92_chunks_partial (lib : DigestLib K D) (hL : Lossless lib) (chunks : List (List K × List K)) (hok : ∀ c ∈ chunks, c.1.length = c.2.length ∧ ∀ r ∈ c.2, 1 + r ≠ 0)
    (hne : ∃ c ∈ chunks, c.1 ≠ []) :
    (∃ m, digestEvaluate lib (biasDigest lib) chunks = .ok m ∧ pointBias (chunks.flatMap (·.1)) (chunks.flatMap (·.2)) = .ok (some m)) ∧
    digestEvaluate lib (iqrDigest lib) chunks = sigmaIqr (chunks.flatMap (·.1)) (chunks.flatMap (·.2)) ∧
    digestEvaluate lib (outlierDigest lib) chunks = pointOutlier (chunks.flatMap (·.1)) (chunks.flatMap (·.2)) := by
  have hlen : ∀ chunks : List (List K × List K), (∀ c ∈ chunks, c.1.length = c.2.length ∧ ∀ r ∈ c.2, 1 + r ≠ 0) → (chunks.flatMap (·.1)).length = (chunks.flatMap (·.2)).length := by
    intro chunks h
    simp only [List.length_flatMap]
    congr 1
    exact List.map_congr_left fun c hc => (h c hc).1
  have hall : ∀ chunks : List (List K × List K), (∀ c ∈ chunks, c.1.length = c.2.length ∧ ∀ r ∈ c.2, 1 + r ≠ 0) → ∃ ezs, chunks.mapM (fun c => ezList c.1 c.2) = .ok ezs ∧
      ezList (chunks.flatMap (·.1)) (chunks.flatMap (·.2)) = .ok ezs.flatten ∧
      chunks.mapM (fun p => digestAccumulate lib p.1 p.2) = .ok (ezs.map lib.compute) := by
    intro chunks
    induction chunks with
    | nil => intro _; exact ⟨[], rfl, by simp [ezList], rfl⟩
    | cons c t ih =>
      intro h
      obtain ⟨z, hz⟩ : ∃ z, ezList c.1 c.2 = .ok z := ⟨_, ezList_of (h c (by simp)).1 (h c (by simp)).2⟩
      obtain ⟨zs, g1, g2, g3⟩ := ih fun c hc => h c (List.mem_cons_of_mem _ hc)
      refine ⟨z :: zs, ?_, ?_, ?_⟩
      · rw [mapM_cons, hz, g1]
      · rw [List.flatMap_cons, List.flatMap_cons, List.flatten_cons]; exact ezList_append (h c (by simp)).1 (hlen t fun c hc => h c (List.mem_cons_of_mem _ hc)) hz g2
      · rw [mapM_cons, g3]; simp [digestAccumulate, hz, Except.map]
  obtain ⟨ezs, g1, g2, g3⟩ := hall chunks hok
  have hne' : ezs.flatten ≠ [] := by
    obtain ⟨c, hc, hcne⟩ := hne
    have hl := hlen chunks hok
    obtain ⟨-, hez⟩ := ezList_ok hl g2
    rw [hez]
    intro h0
    have := congrArg List.length h0
    rw [List.length_zipWith, hl, Nat.min_self, List.length_nil] at this
    have h1 : chunks.flatMap (·.1) = [] := List.length_eq_zero_iff.1 (hl.trans this)
    rw [List.flatMap_eq_nil_iff] at h1
    exact hcne (h1 c hc)
  cases hcs : ezs with
  | nil => rw [hcs] at hne'; simp at hne'
  | cons z zs =>
  obtain ⟨d, hd, hperm⟩ : ∃ d, digestCombine lib (ezs.map lib.compute) = .ok d ∧ (lib.cents d).Perm (ezs.flatten.map fun v => (v, 1)) := by
    rw [hcs]
    refine ⟨_, rfl, ?_⟩
    have hall2 : ∀ l : List (List K), ((l.map lib.compute).flatten).Perm (l.flatten.map fun v => (v, 1)) := by
      intro l
      induction l with
      | nil => simp
      | cons a l ih => simp only [List.map_cons, List.flatten_cons, List.map_append]; exact (hL.compute a).append ih
    refine (combine_perm lib hL _ _).trans ?_
    rw [List.flatten_cons, List.map_append]
    exact ((hL.ofCentroids _).trans (hL.compute z)).append (hall2 zs)
  have hev : ∀ {R : Type} (f : D → Except Err R), digestEvaluate lib f chunks = f d := by
    intro R f
    unfold digestEvaluate
    rw [g3]
    simp only [Bind.bind, Except.bind, hd]
  have q1 := hL.inv d _ (1 / 4) hperm hne' (by norm_num) (by norm_num)
  have q2 := hL.inv d _ (1 / 2) hperm hne' (by norm_num) (by norm_num)
  have q3 := hL.inv d _ (3 / 4) hperm hne' (by norm_num) (by norm_num)
  have hiqr : sigmaIqrOf ezs.flatten = .ok ((lib.inv d (3 / 4) - lib.inv d (1 / 4)) / (1349 / 1000)) := by
    unfold sigmaIqrOf
    simp only [q3, q1, Bind.bind, Except.bind]
  refine ⟨⟨lib.inv d (1 / 2), by rw [hev]; rfl, ?_⟩, ?_, ?_⟩
  · unfold pointBias
    rw [g2]
    simp only [Except.map, quantile_half _ _ q2]
  · rw [hev]
    unfold sigmaIqr iqrDigest
    rw [g2]
    simp only [Bind.bind, Except.bind, hiqr]
  · rw [hev]
    unfold pointOutlier
    rw [g2]
    simp only [Bind.bind, Except.bind, pointOutlierOf, hiqr, outlierDigest]
    congr 1
    have hw : lib.weight d = (ezs.flatten.length : K) := by
      rw [hL.weight, (hperm.map _).sum_eq, List.map_map]
      have : ((fun x : K × K => x.2) ∘ fun v : K => (v, (1 : K))) = fun _ => 1 := rfl
      rw [this, List.map_const', List.sum_replicate, nsmul_one]
    rw [hw]
    congr 1
    have hs : ∀ l : List K, Np.sum l = l.sum := fun l => rfl
    rw [hs, ((hperm.filter _).map _).sum_eq, List.filter_map, List.map_map]
    have : ((fun x : K × K => x.2) ∘ fun v : K => (v, (1 : K))) = fun _ => 1 := rfl
    rw [this]
    simp [List.countP_eq_length_filter, Function.comp_def]

/-- **C92, a wrong outcome**: if the digest reports the same smallest and largest value (all residuals equal, for instance estimates without error) the median
absolute deviation is an `IndexError`, for any number of bins. -/
theorem C92_constant_index_error (lib : DigestLib K D) (d : D) (n : ℕ) (h : lib.inv d 0 = lib.inv d 1) : madDigest lib n d = .error .IndexError := by
  have hz : ∀ g : List K, (∀ x ∈ g, x = lib.inv d 1) → ∀ c ∈ madCells (lib.cdf d) (lib.inv d (1 / 2)) g, c.2 = 0 := by
    intro g
    induction g with
    | nil => intro _ c hc; simp [madCells] at hc
    | cons a g ih =>
      intro hg c hc
      cases g with
      | nil => simp [madCells] at hc
      | cons b g =>
        simp only [madCells, List.mem_cons] at hc
        rcases hc with rfl | hc
        · simp [hg a (by simp), hg b (by simp)]
        · exact ih (fun x hx => hg x (List.mem_cons_of_mem _ hx)) c hc
  have hg : ∀ x ∈ linspace (lib.inv d 0) (lib.inv d 1) n, x = lib.inv d 1 := by
    intro x hx
    rw [h] at hx
    unfold linspace at hx
    obtain ⟨i, -, rfl⟩ := List.mem_map.1 hx
    simp
  have hz' : ∀ c ∈ madSort (madCells (lib.cdf d) (lib.inv d (1 / 2)) (linspace (lib.inv d 0) (lib.inv d 1) n)), c.2 = 0 := fun c hc =>
    hz _ hg c ((madSort_perm _).mem_iff.1 hc)
  unfold madDigest
  rw [(pick_exists _ 0 (fun c hc => (hz' c hc).ge) (by norm_num)).2 ?_]
  · rfl
  · have : ((madSort (madCells (lib.cdf d) (lib.inv d (1 / 2)) (linspace (lib.inv d 0) (lib.inv d 1) n))).map (·.2)).sum = 0 :=
      List.sum_eq_zero (by simp only [List.mem_map]; rintro _ ⟨c, hc, rfl⟩; exact hz' c hc)
    rw [this]; norm_num

/-- a digest that keeps every value: what the hypotheses of the theorems above allow -/
def exactLib : DigestLib K (List (K × K)) where
  compute l := l.map fun v => (v, 1)
  ofCentroids c := c
  add d e := d ++ e
  cents d := d
  weight d := (d.map (·.2)).sum
  cdf d x := ((d.filter fun c => c.1 ≤ x).map (·.2)).sum / (d.map (·.2)).sum
  inv d p := (npQuantile p (d.map (·.1))).toOption.getD 0

theorem exactLib_lossless : Lossless (exactLib (K := K)) where
  compute _ := List.Perm.refl _
  ofCentroids _ := List.Perm.refl _
  add _ _ := List.Perm.refl _
  weight _ := rfl
  inv d l p h hl hp0 hp1 := by
    have hp' : (d.map (·.1)).Perm l := by
      have := h.map (·.1)
      rw [List.map_map, show ((fun x : K × K => x.1) ∘ fun v : K => (v, (1 : K))) = id from rfl, List.map_id] at this
      exact this
    obtain ⟨q, hq⟩ := quantile_exists (p := p) (l := l) hp0 hp1 hl
    show npQuantile p l = .ok ((npQuantile p (d.map (·.1))).toOption.getD 0)
    rw [quantile_perm hp', hq]
    rfl

end

/-- **C92, a wrong outcome**: two objects estimated without error. Evaluated at once their median absolute deviation is zero; through digests it is an
`IndexError`, for any number of bins and even with a digest that loses nothing. -/
theorem C92_perfect_estimates_wrong (n : ℕ) : digestEvaluate (exactLib (K := ℚ)) (madDigest exactLib n) [([1, 2], [1, 2])] = .error .IndexError ∧
    sigmaMad (K := ℚ) [1, 2] [1, 2] = .ok (some 0) := by
  refine ⟨?_, by decide +kernel⟩
  have h : ∀ f : List (ℚ × ℚ) → Except Err ℚ, digestEvaluate (exactLib (K := ℚ)) f [([1, 2], [1, 2])] = f [(0, 1), (0, 1)] := by
    intro f
    have h1 : digestAccumulate (exactLib (K := ℚ)) [1, 2] [1, 2] = .ok [(0, 1), (0, 1)] := by decide +kernel
    unfold digestEvaluate
    rw [mapM_cons]
    simp only [h1]
    rfl
  rw [h]
  exact C92_constant_index_error _ _ _ (by decide +kernel)

/-! ### Concrete cases -/

/-- three chunks, one of them empty -/
def exChunks : List (List ℚ × List ℚ) := [([1, 2, 4], [1, 1, 1]), ([], []), ([3, 1], [1, 3])]

example := C92_chunks_partial (K := ℚ) exactLib exactLib_lossless exChunks
  (by intro c hc; simp only [exChunks, List.mem_cons, List.not_mem_nil, or_false] at hc; rcases hc with rfl | rfl | rfl <;> norm_num) ⟨([1, 2, 4], [1, 1, 1]), by simp [exChunks], by simp⟩

example : digestEvaluate (exactLib (K := ℚ)) (biasDigest exactLib) exChunks = .ok (1 / 2) ∧ digestEvaluate (exactLib (K := ℚ)) (iqrDigest exactLib) exChunks = .ok (1000 / 1349) := by
  decide +kernel

/-- the uniform distribution on `[0, 1]`: its median absolute deviation is one quarter -/
def uniLib : DigestLib ℚ Unit where
  compute _ := []
  ofCentroids _ := ()
  add _ _ := ()
  cents _ := [(1 / 2, 4), (1, 2)]
  weight _ := 6
  cdf _ x := max 0 (min 1 x)
  inv _ p := p

theorem uniLib_mono (x y : ℚ) (h : x ≤ y) : uniLib.cdf () x ≤ uniLib.cdf () y := max_le_max le_rfl (min_le_min le_rfl h)

theorem uniLib_mad : IsMad (uniLib.cdf ()) (uniLib.inv () (1 / 2)) (1 / 4) := by
  constructor
  · intro t ht
    show max 0 (min 1 (1 / 2 + t)) - max 0 (min 1 (1 / 2 - t)) < (1 / 2 : ℚ)
    have h1 : max 0 (min 1 (1 / 2 + t)) < (3 / 4 : ℚ) := max_lt (by norm_num) (lt_of_le_of_lt (min_le_right _ _) (by linarith))
    have h2 : (1 / 4 : ℚ) < max 0 (min 1 (1 / 2 - t)) := lt_max_of_lt_right (lt_min (by norm_num) (by linarith))
    linarith
  · decide +kernel

example : madDigest uniLib 6 () = .ok (2 / 10 * (14826 / 10000)) := by decide +kernel

example := C92_mad_error uniLib () 6 (by decide) uniLib_mono (by decide +kernel)
  (fun x (hx : x ≤ 0) => by change max 0 (min 1 x) = max 0 (min 1 (0 : ℚ)); rw [max_eq_left (le_trans (min_le_right _ _) hx)]; norm_num)
  (fun x (hx : 1 ≤ x) => by change max 0 (min 1 x) = max 0 (min 1 (1 : ℚ)); rw [min_eq_left hx]; norm_num) _ (by decide +kernel : madDigest uniLib 6 () = .ok (2 / 10 * (14826 / 10000))) (1 / 4) uniLib_mad

example := (C92_mad_defined uniLib () 6 (by decide) uniLib_mono (by decide +kernel)).1 (by decide +kernel)

example := C92_mad_order (K := ℚ) [(1, 1 / 4), (0, 1 / 4), (1, 1 / 2)] [(0, 1 / 4), (1, 1 / 2), (1, 1 / 4)] (by decide +kernel) (by decide +kernel) (by decide +kernel)

example := C92_outlier_range uniLib () _ (by decide +kernel) (by decide +kernel) (by decide +kernel) (rfl : outlierDigest uniLib () = .ok _)

end Verif.Props.Digest
