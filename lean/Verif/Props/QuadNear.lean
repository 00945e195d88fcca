import Verif.Props.QuadSplineMono

/-!
# C149: how near the curve through the quantiles is to the straight lines between them

The quadratic spline through given points, compared with the straight lines between neighbouring points. `D i` is the slope of the line over the `i`-th interval; the slopes of neighbouring
intervals differ by at most `w`, and no interval is more than `r` times as long as its neighbours.
-/

set_option linter.unusedSectionVars false
set_option autoImplicit false

namespace Verif.Props.QuadSpline

open Verif Verif.Np Verif.Model Verif.Spec Verif.Lemmas.QuadSpline

variable {K : Type} [Field K] [LinearOrder K] [IsStrictOrderedRing K]

theorem piece_sub {s s' : K → K} {a b a' b' : K} (h : Piece s s' a b) (ha : a ≤ a') (hb : b' ≤ b) (hab : a' ≤ b') : Piece s s' a' b' := by
  obtain ⟨c, h⟩ := h
  refine ⟨c, fun t h1 h2 => ?_⟩
  rw [(h t (ha.trans h1) (h2.trans hb)).1, (h t (ha.trans h1) (h2.trans hb)).2, (h a' ha (hab.trans hb)).1, (h a' ha (hab.trans hb)).2]
  constructor <;> ring

/-- the slope is linear on a piece -/
theorem piece_affine {s s' : K → K} {a b : K} (h : Piece s s' a b) {x y z : K} (hx : a ≤ x ∧ x ≤ b) (hy : a ≤ y ∧ y ≤ b) (hz : a ≤ z ∧ z ≤ b) :
    s' y * (z - x) = s' x * (z - y) + s' z * (y - x) := by
  obtain ⟨c, h⟩ := h
  rw [(h x hx.1 hx.2).2, (h y hy.1 hy.2).2, (h z hz.1 hz.2).2]
  ring

/-- a slope between two others stays near whatever the two are near to -/
theorem piece_near {s s' : K → K} {a b : K} (h : Piece s s' a b) (hab : a ≤ b) (d B : K) (h1 : |s' a - d| ≤ B) (h2 : |s' b - d| ≤ B) {x : K} (hx : a ≤ x) (hx' : x ≤ b) : |s' x - d| ≤ B := by
  rcases eq_or_lt_of_le hab with rfl | hlt
  · rwa [le_antisymm hx' hx]
  · have e := piece_affine h ⟨le_rfl, hab⟩ ⟨hx, hx'⟩ ⟨hab, le_rfl⟩
    have e2 : (s' x - d) * (b - a) = (s' a - d) * (b - x) + (s' b - d) * (x - a) := by linear_combination e
    rw [abs_le] at h1 h2 ⊢
    have p : 0 < b - a := sub_pos.2 hlt
    have p1 : 0 ≤ b - x := sub_nonneg.2 hx'
    have p2 : 0 ≤ x - a := sub_nonneg.2 hx
    constructor
    · refine le_of_mul_le_mul_right ?_ p
      rw [e2]
      nlinarith [mul_le_mul_of_nonneg_right h1.1 p1, mul_le_mul_of_nonneg_right h2.1 p2]
    · refine le_of_mul_le_mul_right ?_ p
      rw [e2]
      nlinarith [mul_le_mul_of_nonneg_right h1.2 p1, mul_le_mul_of_nonneg_right h2.2 p2]

/-- over a piece whose slopes are near `d` the curve is near the line of slope `d` -/
theorem piece_line {s s' : K → K} {a b : K} (h : Piece s s' a b) (d B : K) (hB : ∀ x, a ≤ x → x ≤ b → |s' x - d| ≤ B) {x y : K} (h1 : a ≤ x) (h2 : x ≤ y) (h3 : y ≤ b) :
    |s y - s x - d * (y - x)| ≤ B * (y - x) := by
  have e := piece_increase h h1 h2 h3
  have b1 := hB x h1 (h2.trans h3)
  have b2 := hB y (h1.trans h2) h3
  rw [show s y - s x - d * (y - x) = ((s' x - d) + (s' y - d)) / 2 * (y - x) by rw [e]; ring, abs_mul, abs_of_nonneg (sub_nonneg.2 h2)]
  refine mul_le_mul_of_nonneg_right ?_ (sub_nonneg.2 h2)
  rw [abs_le] at b1 b2 ⊢
  constructor <;> linarith [b1.1, b1.2, b2.1, b2.2]

/-- the middle of the `i`-th interval -/
def mid (X : ℕ → K) (i : ℕ) : K := (X i + X (i + 1)) / 2

/-- the break points, numbered -/
def brk (X : ℕ → K) (N k : ℕ) : K := if k = 0 then X 0 else if k + 1 = N then X N else mid X k

theorem breaks_eq (X : ℕ → K) (N : ℕ) (hN : 2 ≤ N) : breakPoints ((List.range (N + 1)).map X) = (List.range N).map (brk X N) := by
  have hm : midpoints ((List.range (N + 1)).map X) = (List.range N).map (mid X) := by
    unfold midpoints
    apply List.ext_getElem
    · simp
    · intro i h1 h2
      simp [mid]
  unfold breakPoints
  rw [hm]
  obtain ⟨n, rfl⟩ : ∃ n, N = n + 2 := ⟨N - 2, by omega⟩
  have e1 : ((List.range (n + 2 + 1)).map X).head?.toList = [X 0] := by rw [List.range_succ_eq_map]; simp
  have e2 : ((List.range (n + 2 + 1)).map X).getLast?.toList = [X (n + 2)] := by rw [List.range_succ]; simp
  have e3 : (((List.range (n + 2)).map (mid X)).drop 1).dropLast = (List.range n).map fun k => mid X (k + 1) := by
    rw [List.range_succ_eq_map, List.range_succ]
    simp [Function.comp_def]
  rw [e1, e2, e3]
  rw [List.range_succ_eq_map, List.range_succ]
  simp only [List.map_cons, List.map_append, List.map_map, List.map_nil, List.cons_append, Function.comp_def]
  congr 1
  congr 1
  swap
  · simp [brk]
  apply List.map_congr_left
  intro k hk
  have := List.mem_range.1 hk
  rw [brk, if_neg (by omega), if_neg (by omega)]

/-- `N + 1` points with increasing abscissae -/
def Rising (X : ℕ → K) (N : ℕ) : Prop := ∀ i j : ℕ, i < j → j ≤ N → X i < X j

theorem brk_lower (X : ℕ → K) (N : ℕ) (hX : Rising X N) (i : ℕ) (hi : i + 1 < N) : brk X N i ≤ mid X i := by
  unfold brk
  split_ifs with h h'
  · subst h
    have := hX 0 1 (by omega) (by omega)
    unfold mid
    linarith
  · omega
  · exact le_rfl

theorem brk_upper (X : ℕ → K) (N : ℕ) (hX : Rising X N) (i : ℕ) (h0 : i ≠ 0) (hi : i < N) : mid X i ≤ brk X N i := by
  rw [brk, if_neg h0]
  split_ifs with h'
  · subst h'
    have := hX i (i + 1) (by omega) (by omega)
    unfold mid
    linarith
  · exact le_rfl

/-- the half intervals and the pieces around the points of a spline through numbered points -/
structure Cells (X Y : ℕ → K) (N : ℕ) (s s' : K → K) : Prop where
  through : ∀ i : ℕ, i ≤ N → s (X i) = Y i
  inner : ∀ i : ℕ, i + 1 < N → Piece s s' (mid X i) (mid X (i + 1))
  first : Piece s s' (X 0) (mid X 1)
  last : ∀ n : ℕ, n + 2 = N → Piece s s' (mid X n) (X N)

theorem cells (X Y : ℕ → K) (N : ℕ) (hN : 2 ≤ N) (hX : Rising X N) (s : K → K) (h : QuadraticSpline ((List.range (N + 1)).map fun i => (X i, Y i)) s) :
    ∃ s', Cells X Y N s s' ∧ (breakPoints ((List.range (N + 1)).map X)).IsChain (Piece s s') := by
  obtain ⟨ht, s', hc⟩ := h
  have e : ((List.range (N + 1)).map fun i => (X i, Y i)).map Prod.fst = (List.range (N + 1)).map X := by simp [Function.comp_def]
  rw [e] at hc
  have hc0 := hc
  rw [breaks_eq X N hN] at hc
  have hp : ∀ i : ℕ, i + 1 < N → Piece s s' (brk X N i) (brk X N (i + 1)) := by
    intro i hi
    have := List.isChain_iff_getElem.1 hc i (by simpa using hi)
    simp only [List.getElem_map, List.getElem_range] at this
    exact this
  have lt : ∀ i : ℕ, i + 1 < N → mid X i < mid X (i + 1) := fun i hi => by
    have h1 := hX i (i + 1) (by omega) (by omega)
    have h2 := hX (i + 1) (i + 1 + 1) (by omega) (by omega)
    unfold mid
    linarith
  refine ⟨s', ⟨fun i hi => ht _ (List.mem_map.2 ⟨i, List.mem_range.2 (by omega), rfl⟩), fun i hi => ?_, ?_, fun n hn => ?_⟩, hc0⟩
  · exact piece_sub (hp i hi) (brk_lower X N hX i hi) (brk_upper X N hX (i + 1) (by omega) hi) (lt i hi).le
  · refine piece_sub (hp 0 (by omega)) (by simp [brk]) (brk_upper X N hX 1 (by omega) (by omega)) ?_
    have h1 := hX 0 1 (by omega) (by omega)
    have h2 := hX 1 2 (by omega) (by omega)
    unfold mid
    norm_num
    linarith
  · subst hn
    refine piece_sub (hp n (by omega)) (brk_lower X _ hX n (by omega)) ?_ ?_
    · rw [brk, if_neg (by omega), if_pos (by omega)]
    · have h1 := hX n (n + 1) (by omega) (by omega)
      have h2 := hX (n + 1) (n + 2) (by omega) (by omega)
      unfold mid
      linarith

/-- the slope of the line between two neighbouring points -/
def chord (X Y : ℕ → K) (i : ℕ) : K := (Y (i + 1) - Y i) / (X (i + 1) - X i)

section

variable {X Y : ℕ → K} {N : ℕ} {s s' : K → K}

theorem mid_bounds (hX : Rising X N) (i : ℕ) (hi : i < N) : X i < mid X i ∧ mid X i < X (i + 1) := by
  have := hX i (i + 1) (by omega) (by omega)
  unfold mid
  constructor <;> linarith

/-- the two halves of every interval -/
theorem Cells.left (c : Cells X Y N s s') (hN : 2 ≤ N) (hX : Rising X N) (i : ℕ) (hi : i < N) : Piece s s' (X i) (mid X i) := by
  have b := mid_bounds hX i hi
  match i with
  | 0 =>
    refine piece_sub c.first le_rfl ?_ b.1.le
    exact b.2.le.trans (mid_bounds hX 1 (by omega)).1.le
  | i + 1 => exact piece_sub (c.inner i hi) (mid_bounds hX i (by omega)).2.le le_rfl b.1.le

theorem Cells.right (c : Cells X Y N s s') (hN : 2 ≤ N) (hX : Rising X N) (i : ℕ) (hi : i < N) : Piece s s' (mid X i) (X (i + 1)) := by
  have b := mid_bounds hX i hi
  by_cases h : i + 1 < N
  · exact piece_sub (c.inner i h) le_rfl (mid_bounds hX (i + 1) h).1.le b.2.le
  · obtain ⟨n, rfl⟩ : ∃ n, N = n + 2 := ⟨N - 2, by omega⟩
    obtain rfl : i = n + 1 := by omega
    exact piece_sub (c.last n rfl) ((mid_bounds hX n (by omega)).2.le.trans b.1.le) le_rfl b.2.le

/-- the slope at a point between its two midpoints -/
theorem Cells.at_point (c : Cells X Y N s s') (hX : Rising X N) (i : ℕ) (hi : i + 1 < N) :
    s' (X (i + 1)) * (X (i + 2) - X i) = s' (mid X i) * (X (i + 2) - X (i + 1)) + s' (mid X (i + 1)) * (X (i + 1) - X i) := by
  have b := mid_bounds hX i (by omega)
  have b' := mid_bounds hX (i + 1) hi
  have e := piece_affine (c.inner i hi) ⟨le_rfl, b.2.le.trans b'.1.le⟩ ⟨b.2.le, b'.1.le⟩ ⟨b.2.le.trans b'.1.le, le_rfl⟩
  have e1 : mid X (i + 1) - mid X i = (X (i + 2) - X i) / 2 := by unfold mid; ring
  have e2 : mid X (i + 1) - X (i + 1) = (X (i + 2) - X (i + 1)) / 2 := by unfold mid; ring
  have e3 : X (i + 1) - mid X i = (X (i + 1) - X i) / 2 := by unfold mid; ring
  rw [e1, e2, e3] at e
  linear_combination 2 * e

/-- what an interval adds -/
theorem Cells.chord_eq (c : Cells X Y N s s') (hN : 2 ≤ N) (hX : Rising X N) (i : ℕ) (hi : i < N) :
    4 * chord X Y i = s' (X i) + 2 * s' (mid X i) + s' (X (i + 1)) := by
  have b := mid_bounds hX i hi
  have e1 := piece_increase (c.left hN hX i hi) le_rfl b.1.le le_rfl
  have e2 := piece_increase (c.right hN hX i hi) le_rfl b.2.le le_rfl
  have h : 0 < X (i + 1) - X i := sub_pos.2 (b.1.trans b.2)
  rw [c.through i (by omega)] at e1
  rw [c.through (i + 1) (by omega)] at e2
  have m1 : mid X i - X i = (X (i + 1) - X i) / 2 := by unfold mid; ring
  have m2 : X (i + 1) - mid X i = (X (i + 1) - X i) / 2 := by unfold mid; ring
  rw [m1] at e1
  rw [m2] at e2
  have : Y (i + 1) - Y i = (X (i + 1) - X i) * ((s' (X i) + 2 * s' (mid X i) + s' (X (i + 1))) / 4) := by linear_combination e1 + e2
  rw [chord, this]
  field_simp

/-- at the two ends the parabola covers the whole first and the whole last interval -/
theorem Cells.first_chord (c : Cells X Y N s s') (hN : 2 ≤ N) (hX : Rising X N) : s' (mid X 0) = chord X Y 0 := by
  have b := mid_bounds hX 0 (by omega)
  have b' := mid_bounds hX 1 (by omega)
  have e := piece_affine c.first ⟨le_rfl, b.1.le.trans (b.2.le.trans b'.1.le)⟩ ⟨b.1.le, b.2.le.trans b'.1.le⟩ ⟨b.1.le.trans b.2.le, b'.1.le⟩
  have h : 0 < X (0 + 1) - X 0 := sub_pos.2 (b.1.trans b.2)
  have m1 : mid X 0 - X 0 = (X (0 + 1) - X 0) / 2 := by unfold mid; ring
  have m2 : X (0 + 1) - mid X 0 = (X (0 + 1) - X 0) / 2 := by unfold mid; ring
  rw [m1, m2] at e
  have e' : s' (mid X 0) = (s' (X 0) + s' (X (0 + 1))) / 2 := by
    apply mul_right_cancel₀ h.ne'
    linear_combination e
  have := c.chord_eq hN hX 0 (by omega)
  linear_combination (1/2) * e' - (1/4) * this

theorem Cells.last_chord (c : Cells X Y N s s') (n : ℕ) (hn : n + 2 = N) (hX : Rising X N) : s' (mid X (n + 1)) = chord X Y (n + 1) := by
  subst hn
  have b := mid_bounds hX n (by omega)
  have b' := mid_bounds hX (n + 1) (by omega)
  have e := piece_affine (c.last n rfl) ⟨b.2.le, b'.1.le.trans b'.2.le⟩ ⟨b.2.le.trans b'.1.le, b'.2.le⟩ ⟨b.2.le.trans (b'.1.le.trans b'.2.le), le_rfl⟩
  have h : 0 < X (n + 2) - X (n + 1) := sub_pos.2 (b'.1.trans b'.2)
  have m1 : mid X (n + 1) - X (n + 1) = (X (n + 2) - X (n + 1)) / 2 := by unfold mid; ring
  have m2 : X (n + 2) - mid X (n + 1) = (X (n + 2) - X (n + 1)) / 2 := by unfold mid; ring
  rw [m1, m2] at e
  have e' : s' (mid X (n + 1)) = (s' (X (n + 1)) + s' (X (n + 2))) / 2 := by
    apply mul_right_cancel₀ h.ne'
    linear_combination e
  have := c.chord_eq (by omega) hX (n + 1) (by omega)
  linear_combination (1/2) * e' - (1/4) * this

/-- how uneven the points are, and how much the lines between them bend -/
structure Bends (X Y : ℕ → K) (N : ℕ) (r w : K) : Prop where
  ratio_right : ∀ i : ℕ, i + 1 < N → X (i + 2) - X (i + 1) ≤ r * (X (i + 1) - X i)
  ratio_left : ∀ i : ℕ, i + 1 < N → X (i + 1) - X i ≤ r * (X (i + 2) - X (i + 1))
  bend : ∀ i : ℕ, i + 1 < N → |chord X Y (i + 1) - chord X Y i| ≤ w

theorem share (p q r d A : K) (hp : 0 < p) (hq : 0 < q) (hr : p ≤ r * q) (hr0 : 0 ≤ r) (hA : |d| ≤ A) : |p / (p + q) * d| ≤ r / (1 + r) * A := by
  rw [abs_mul, abs_of_pos (div_pos hp (by linarith))]
  have : p / (p + q) ≤ r / (1 + r) := by
    rw [div_le_div_iff₀ (by linarith) (by linarith)]
    nlinarith
  exact mul_le_mul this hA (abs_nonneg _) (div_nonneg hr0 (by linarith))

/-- the slopes at the midpoints are near the slopes of the lines -/
theorem Cells.mid_near (c : Cells X Y N s s') (hN : 2 ≤ N) (hX : Rising X N) (r w : K) (hw : 0 ≤ w) (h : Bends X Y N r w) :
    ∀ i : ℕ, i < N → |s' (mid X i) - chord X Y i| ≤ r / 2 * w := by
  obtain ⟨k, hk, hmax⟩ := Finset.exists_max_image (Finset.range N) (fun i => |s' (mid X i) - chord X Y i|) ⟨0, Finset.mem_range.2 (by omega)⟩
  have hk := Finset.mem_range.1 hk
  have hmax : ∀ i : ℕ, i < N → |s' (mid X i) - chord X Y i| ≤ |s' (mid X k) - chord X Y k| := fun i hi => hmax i (Finset.mem_range.2 hi)
  have hr0 : 0 ≤ r := by
    have h1 := h.ratio_right 0 (by omega)
    have h2 := hX 0 1 (by omega) (by omega)
    have h3 := hX 1 2 (by omega) (by omega)
    norm_num at h1
    by_contra hn
    push Not at hn
    nlinarith
  suffices hs : |s' (mid X k) - chord X Y k| ≤ r / 2 * w from fun i hi => (hmax i hi).trans hs
  set M := |s' (mid X k) - chord X Y k| with hM
  have hM0 : 0 ≤ M := abs_nonneg _
  rcases Nat.eq_zero_or_pos k with rfl | h0
  · rw [hM, c.first_chord hN hX, sub_self, abs_zero]
    positivity
  · by_cases hl : k + 1 < N
    · obtain ⟨i, rfl⟩ : ∃ i, k = i + 1 := ⟨k - 1, by omega⟩
      have g0 : 0 < X (i + 1) - X i := sub_pos.2 (hX _ _ (by omega) (by omega))
      have g1 : 0 < X (i + 2) - X (i + 1) := sub_pos.2 (hX _ _ (by omega) (by omega))
      have g2 : 0 < X (i + 3) - X (i + 2) := sub_pos.2 (hX _ _ (by omega) (by omega))
      have a1 := c.at_point hX i (by omega)
      have a2 := c.at_point hX (i + 1) hl
      have a3 := c.chord_eq hN hX (i + 1) hk
      simp only [show i + 1 + 1 = i + 2 by omega, show i + 1 + 2 = i + 3 by omega] at a1 a2 a3
      -- the equation of the middle
      have q1 : s' (mid X (i + 1)) - s' (X (i + 1)) = (X (i + 2) - X (i + 1)) / ((X (i + 2) - X (i + 1)) + (X (i + 1) - X i)) * (s' (mid X (i + 1)) - s' (mid X i)) := by
        rw [show (X (i + 2) - X (i + 1)) + (X (i + 1) - X i) = X (i + 2) - X i by ring]
        have : X (i + 2) - X i ≠ 0 := by linarith
        field_simp
        linear_combination -a1
      have q2 : s' (mid X (i + 1)) - s' (X (i + 2)) = (X (i + 2) - X (i + 1)) / ((X (i + 2) - X (i + 1)) + (X (i + 3) - X (i + 2))) * (s' (mid X (i + 1)) - s' (mid X (i + 2))) := by
        rw [show (X (i + 2) - X (i + 1)) + (X (i + 3) - X (i + 2)) = X (i + 3) - X (i + 1) by ring]
        have : X (i + 3) - X (i + 1) ≠ 0 := by linarith
        field_simp
        linear_combination -a2
      have d1 : |s' (mid X (i + 1)) - s' (mid X i)| ≤ 2 * M + w := by
        have := h.bend i (by omega)
        have h1 := hmax i (by omega)
        have h2 := hmax (i + 1) hk
        rw [abs_le] at this h1 h2 ⊢
        constructor <;> linarith [this.1, this.2, h1.1, h1.2, h2.1, h2.2]
      have d2 : |s' (mid X (i + 1)) - s' (mid X (i + 2))| ≤ 2 * M + w := by
        have := h.bend (i + 1) hl
        simp only [show i + 1 + 1 = i + 2 by omega] at this
        have h1 := hmax (i + 2) (by omega)
        have h2 := hmax (i + 1) hk
        rw [abs_le] at this h1 h2 ⊢
        constructor <;> linarith [this.1, this.2, h1.1, h1.2, h2.1, h2.2]
      have r1 := share _ _ r _ _ g1 g0 (h.ratio_right i (by omega)) hr0 d1
      have r2 := share _ _ r _ _ g1 g2 (h.ratio_left (i + 1) hl) hr0 d2
      rw [← q1] at r1
      rw [← q2] at r2
      have tot : 4 * M ≤ 2 * (r / (1 + r) * (2 * M + w)) := by
        rw [hM, ← abs_of_pos (show (0:K) < 4 by norm_num), ← abs_mul,
          show 4 * (s' (mid X (i + 1)) - chord X Y (i + 1)) = (s' (mid X (i + 1)) - s' (X (i + 1))) + (s' (mid X (i + 1)) - s' (X (i + 2))) by linear_combination -a3]
        exact (abs_add_le _ _).trans (by linarith)
      have hp : 0 < 1 + r := by linarith
      have e : r / (1 + r) * (1 + r) = r := by field_simp
      have tot' := mul_le_mul_of_nonneg_right tot hp.le
      rw [show 2 * (r / (1 + r) * (2 * M + w)) * (1 + r) = 2 * (2 * M + w) * (r / (1 + r) * (1 + r)) by ring, e] at tot'
      linarith
    · obtain ⟨n, rfl⟩ : ∃ n, N = n + 2 := ⟨N - 2, by omega⟩
      obtain rfl : k = n + 1 := by omega
      rw [hM, c.last_chord n rfl hX, sub_self, abs_zero]
      positivity

/-- over each interval all slopes are near that of the line -/
theorem Cells.slope_near (c : Cells X Y N s s') (hN : 2 ≤ N) (hX : Rising X N) (r w : K) (hw : 0 ≤ w) (hr : 0 ≤ r) (h : Bends X Y N r w) (i : ℕ) (hi : i < N) (x : K) (h1 : X i ≤ x) (h2 : x ≤ X (i + 1)) :
    |s' x - chord X Y i| ≤ (1 + r / 2) * w := by
  have near := c.mid_near hN hX r w hw h
  have b := mid_bounds hX i hi
  have hrw : 0 ≤ r / 2 * w := by positivity
  have hm : |s' (mid X i) - chord X Y i| ≤ (1 + r / 2) * w := (near i hi).trans (by linarith)
  -- the slope at the left end
  have hl : |s' (X i) - chord X Y i| ≤ (1 + r / 2) * w := by
    rcases Nat.eq_zero_or_pos i with rfl | h0
    · have b' := mid_bounds hX 1 (by omega)
      have e := piece_affine c.first ⟨le_rfl, b.1.le.trans (b.2.le.trans b'.1.le)⟩ ⟨b.1.le, b.2.le.trans b'.1.le⟩ ⟨b.1.le.trans (b.2.le.trans b'.1.le), le_rfl⟩
      have p : 0 < mid X 1 - mid X 0 := by linarith
      have pq : mid X 0 - X 0 ≤ mid X 1 - mid X 0 := by
        have := hX 1 2 (by omega) (by omega)
        unfold mid
        norm_num
        linarith
      have e' : (s' (X 0) - chord X Y 0) * (mid X 1 - mid X 0) = (chord X Y 0 - s' (mid X 1)) * (mid X 0 - X 0) := by
        rw [← c.first_chord hN hX]
        linear_combination -e
      have d : |chord X Y 0 - s' (mid X 1)| ≤ (1 + r / 2) * w := by
        have h1 := near 1 (by omega)
        have h2 := h.bend 0 (by omega)
        norm_num at h2
        rw [abs_le] at h1 h2 ⊢
        constructor <;> linarith [h1.1, h1.2, h2.1, h2.2]
      refine le_of_mul_le_mul_right ?_ p
      rw [← abs_of_pos p, ← abs_mul, e', abs_mul, abs_of_pos p, abs_of_pos (sub_pos.2 b.1)]
      exact mul_le_mul d pq (sub_pos.2 b.1).le (by positivity)
    · obtain ⟨j, rfl⟩ : ∃ j, i = j + 1 := ⟨i - 1, by omega⟩
      refine piece_near (c.inner j hi) ((mid_bounds hX j (by omega)).2.le.trans b.1.le) _ _ ?_ hm (mid_bounds hX j (by omega)).2.le b.1.le
      have h1 := near j (by omega)
      have h2 := h.bend j hi
      rw [abs_le] at h1 h2 ⊢
      constructor <;> linarith [h1.1, h1.2, h2.1, h2.2]
  have hrt : |s' (X (i + 1)) - chord X Y i| ≤ (1 + r / 2) * w := by
    by_cases hl : i + 1 < N
    · refine piece_near (c.inner i hl) (b.2.le.trans (mid_bounds hX (i + 1) hl).1.le) _ _ hm ?_ b.2.le (mid_bounds hX (i + 1) hl).1.le
      have h1 := near (i + 1) hl
      have h2 := h.bend i hl
      rw [abs_le] at h1 h2 ⊢
      constructor <;> linarith [h1.1, h1.2, h2.1, h2.2]
    · obtain ⟨n, rfl⟩ : ∃ n, N = n + 2 := ⟨N - 2, by omega⟩
      obtain rfl : i = n + 1 := by omega
      have b' := mid_bounds hX n (by omega)
      have e := piece_affine (c.last n rfl) ⟨le_rfl, b'.2.le.trans (b.1.le.trans b.2.le)⟩ ⟨b'.2.le.trans b.1.le, b.2.le⟩ ⟨b'.2.le.trans (b.1.le.trans b.2.le), le_rfl⟩
      have p : 0 < mid X (n + 1) - mid X n := by linarith
      have pq : X (n + 2) - mid X (n + 1) ≤ mid X (n + 1) - mid X n := by
        have := hX n (n + 1) (by omega) (by omega)
        have e : mid X (n + 1) = (X (n + 1) + X (n + 2)) / 2 := rfl
        have e' : mid X n = (X n + X (n + 1)) / 2 := rfl
        rw [e, e']
        linarith
      have e' : (s' (X (n + 2)) - chord X Y (n + 1)) * (mid X (n + 1) - mid X n) = (chord X Y (n + 1) - s' (mid X n)) * (X (n + 2) - mid X (n + 1)) := by
        rw [← c.last_chord n rfl hX]
        linear_combination -e
      have d : |chord X Y (n + 1) - s' (mid X n)| ≤ (1 + r / 2) * w := by
        have h1 := near n (by omega)
        have h2 := h.bend n (by omega)
        rw [abs_le] at h1 h2 ⊢
        constructor <;> linarith [h1.1, h1.2, h2.1, h2.2]
      refine le_of_mul_le_mul_right ?_ p
      rw [← abs_of_pos p, ← abs_mul, e', abs_mul, abs_of_pos p, abs_of_pos (sub_pos.2 b.2)]
      exact mul_le_mul d pq (sub_pos.2 b.2).le (by positivity)
  rcases le_total x (mid X i) with hx | hx
  · exact piece_near (c.left hN hX i hi) b.1.le _ _ hl hm h1 hx
  · exact piece_near (c.right hN hX i hi) b.2.le _ _ hm hrt hx h2

/-- over each interval the curve is near the line -/
theorem Cells.line_near (c : Cells X Y N s s') (hN : 2 ≤ N) (hX : Rising X N) (r w : K) (hw : 0 ≤ w) (hr : 0 ≤ r) (h : Bends X Y N r w) (i : ℕ) (hi : i < N) (x : K) (h1 : X i ≤ x) (h2 : x ≤ X (i + 1)) :
    |s x - (Y i + chord X Y i * (x - X i))| ≤ (1 + r / 2) * w * (x - X i) := by
  have near := c.slope_near hN hX r w hw hr h i hi
  have b := mid_bounds hX i hi
  rcases le_total x (mid X i) with hx | hx
  · have := piece_line (c.left hN hX i hi) (chord X Y i) ((1 + r / 2) * w) (fun t g1 g2 => near t g1 (g2.trans b.2.le)) le_rfl h1 hx
    rw [c.through i (by omega)] at this
    rwa [← sub_sub]
  · have t1 := piece_line (c.left hN hX i hi) (chord X Y i) ((1 + r / 2) * w) (fun t g1 g2 => near t g1 (g2.trans b.2.le)) le_rfl b.1.le le_rfl
    have t2 := piece_line (c.right hN hX i hi) (chord X Y i) ((1 + r / 2) * w) (fun t g1 g2 => near t (b.1.le.trans g1) g2) le_rfl hx h2
    rw [c.through i (by omega)] at t1
    rw [show s x - (Y i + chord X Y i * (x - X i)) = (s x - s (mid X i) - chord X Y i * (x - mid X i)) + (s (mid X i) - Y i - chord X Y i * (mid X i - X i)) by ring]
    refine (abs_add_le _ _).trans ?_
    linarith

end

theorem rising_le {X : ℕ → K} {N : ℕ} (hX : Rising X N) (i j : ℕ) (h : i ≤ j) (hj : j ≤ N) : X i ≤ X j := by
  rcases h.eq_or_lt with rfl | h
  · exact le_rfl
  · exact (hX i j h hj).le

/-- every point of the range lies in an interval -/
theorem in_interval (X : ℕ → K) : ∀ (N : ℕ) (x : K), 1 ≤ N → X 0 ≤ x → x ≤ X N → ∃ i : ℕ, i < N ∧ X i ≤ x ∧ x ≤ X (i + 1)
  | 0, _, h, _, _ => absurd h (by omega)
  | 1, _, _, h1, h2 => ⟨0, by omega, h1, h2⟩
  | N + 2, x, _, h1, h2 => by
    rcases le_total (X (N + 1)) x with h | h
    · exact ⟨N + 1, by omega, h, h2⟩
    · obtain ⟨i, hi, g⟩ := in_interval X (N + 1) x (by omega) h1 h
      exact ⟨i, by omega, g⟩

theorem pairwise_rising {X : ℕ → K} {N : ℕ} (hX : Rising X N) : ((List.range (N + 1)).map X).Pairwise (· < ·) := by
  rw [List.pairwise_iff_getElem]
  intro i j hi hj hij
  simp only [List.length_map, List.length_range] at hi hj
  simpa using hX i j hij (by omega)

theorem brk_range {X : ℕ → K} {N : ℕ} (hN : 2 ≤ N) (hX : Rising X N) : ∀ x ∈ breakPoints ((List.range (N + 1)).map X), X 0 ≤ x ∧ x ≤ X N := by
  rw [breaks_eq X N hN]
  intro x hx
  obtain ⟨k, hk, rfl⟩ := List.mem_map.1 hx
  have hk := List.mem_range.1 hk
  unfold brk
  split_ifs
  · exact ⟨le_rfl, (hX 0 N (by omega) le_rfl).le⟩
  · exact ⟨(hX 0 N (by omega) le_rfl).le, le_rfl⟩
  · have b := mid_bounds hX k hk
    exact ⟨(rising_le hX 0 k (by omega) (by omega)).trans b.1.le, b.2.le.trans (rising_le hX (k + 1) N (by omega) le_rfl)⟩

/-- **C149: the curve through the quantiles stays near the lines between them.** For the computed curve through at least three points with increasing abscissae: if the slopes of the lines
over neighbouring intervals differ by at most `w` and no interval is more than `r` times as long as a neighbour, then over every interval the curve differs from the line by at most
`(1 + r/2) w` times the distance from the left end of the interval. -/
theorem C149_near_lines (X Y : ℕ → K) (N : ℕ) (hN : 2 ≤ N) (hX : ∀ i j : ℕ, i < j → j ≤ N → X i < X j) (r w : K)
    (hr : ∀ i : ℕ, i + 1 < N → X (i + 2) - X (i + 1) ≤ r * (X (i + 1) - X i) ∧ X (i + 1) - X i ≤ r * (X (i + 2) - X (i + 1)))
    (hw : ∀ i : ℕ, i + 1 < N → |(Y (i + 2) - Y (i + 1)) / (X (i + 2) - X (i + 1)) - (Y (i + 1) - Y i) / (X (i + 1) - X i)| ≤ w) (i : ℕ) (hi : i < N) (x : K) (h1 : X i ≤ x) (h2 : x ≤ X (i + 1)) :
    |quadSpline ((List.range (N + 1)).map fun i => (X i, Y i)) x - (Y i + (Y (i + 1) - Y i) / (X (i + 1) - X i) * (x - X i))| ≤ (1 + r / 2) * w * (x - X i) := by
  have e : ((List.range (N + 1)).map fun i => (X i, Y i)).map Prod.fst = (List.range (N + 1)).map X := by simp [Function.comp_def]
  obtain ⟨s', c, -⟩ := cells X Y N hN hX _ (C139_exists ((List.range (N + 1)).map fun i => (X i, Y i)) (by rw [e]; exact pairwise_rising hX) (by simp; omega))
  have hw0 : 0 ≤ w := (abs_nonneg _).trans (hw 0 (by omega))
  have hr0 : 0 ≤ r := by
    have h1 := (hr 0 (by omega)).1
    have h2 := hX 0 1 (by omega) (by omega)
    have h3 := hX 1 2 (by omega) (by omega)
    norm_num at h1
    by_contra hn
    push Not at hn
    nlinarith
  exact c.line_near hN hX r w hw0 hr0 ⟨fun i hi => (hr i hi).1, fun i hi => (hr i hi).2, hw⟩ i hi x h1 h2

/-- **C149, C19: when neighbouring slopes are alike, the CDF is one.** Quantiles from 0 to 1 at increasing locations, no interval between locations more than `r` times as long as a neighbour, and
the steps of probability per length of neighbouring intervals differing by at most `w`: if every interval has a slope of at least `(1 + r/2) w`, the CDF never decreases and lies in [0,1]. -/
theorem C149_enough (X Y : ℕ → K) (N : ℕ) (hN : 2 ≤ N) (hX : ∀ i j : ℕ, i < j → j ≤ N → X i < X j) (h0 : Y 0 = 0) (h1 : Y N = 1) (r w : K)
    (hr : ∀ i : ℕ, i + 1 < N → X (i + 2) - X (i + 1) ≤ r * (X (i + 1) - X i) ∧ X (i + 1) - X i ≤ r * (X (i + 2) - X (i + 1)))
    (hw : ∀ i : ℕ, i + 1 < N → |(Y (i + 2) - Y (i + 1)) / (X (i + 2) - X (i + 1)) - (Y (i + 1) - Y i) / (X (i + 1) - X i)| ≤ w)
    (hs : ∀ i : ℕ, i < N → (1 + r / 2) * w ≤ (Y (i + 1) - Y i) / (X (i + 1) - X i)) :
    (∀ x y F G, x ≤ y → quantCdf quadSpline ((List.range (N + 1)).map Y) ((List.range (N + 1)).map X) x = some F →
      quantCdf quadSpline ((List.range (N + 1)).map Y) ((List.range (N + 1)).map X) y = some G → F ≤ G) ∧
    ∀ x, ∃ F, quantCdf quadSpline ((List.range (N + 1)).map Y) ((List.range (N + 1)).map X) x = some F ∧ 0 ≤ F ∧ F ≤ 1 := by
  have e : ((List.range (N + 1)).map fun i => (X i, Y i)).map Prod.fst = (List.range (N + 1)).map X := by simp [Function.comp_def]
  have ez : ((List.range (N + 1)).map X).zip ((List.range (N + 1)).map Y) = (List.range (N + 1)).map fun i => (X i, Y i) := by
    rw [List.zip_map']
  obtain ⟨s', c, hch⟩ := cells X Y N hN hX _ (C139_exists ((List.range (N + 1)).map fun i => (X i, Y i)) (by rw [e]; exact pairwise_rising hX) (by simp; omega))
  have hw0 : 0 ≤ w := (abs_nonneg _).trans (hw 0 (by omega))
  have hr0 : 0 ≤ r := by
    have h1 := (hr 0 (by omega)).1
    have h2 := hX 0 1 (by omega) (by omega)
    have h3 := hX 1 2 (by omega) (by omega)
    norm_num at h1
    by_contra hn
    push Not at hn
    nlinarith
  have hpos : ∀ m ∈ breakPoints ((List.range (N + 1)).map X), 0 ≤ s' m := by
    intro m hm
    obtain ⟨g1, g2⟩ := brk_range hN hX m hm
    obtain ⟨i, hi, g3, g4⟩ := in_interval X N m (by omega) g1 g2
    have := c.slope_near hN hX r w hw0 hr0 ⟨fun i hi => (hr i hi).1, fun i hi => (hr i hi).2, hw⟩ i hi m g3 g4
    have := (abs_le.1 this).1
    have := hs i hi
    unfold chord at *
    linarith
  obtain ⟨k1, k2⟩ := C19_monotone_iff_partial ((List.range (N + 1)).map Y) ((List.range (N + 1)).map X) (pairwise_rising hX) (by simp) (by simp; omega)
    (by rw [List.range_succ_eq_map]; simp [h0]) (by rw [List.range_succ]; simp [h1]) s' (by rw [ez]; exact hch)
  exact ⟨k1.2 hpos, k2 hpos⟩

/-! ### a case: four quantiles whose slopes vary little -/

example : ∀ x y F G, x ≤ y → quantCdf quadSpline [0, 3/10, 3/5, 1] [0, 1, 2, 3] x = some F → quantCdf quadSpline [0, 3/10, 3/5, 1] [0, 1, 2, (3 : ℚ)] y = some G → F ≤ G := by
  have := (C149_enough (fun i => (i : ℚ)) (fun i => if i = 3 then 1 else 3/10 * i) 3 (by norm_num) (fun i j h _ => by simpa using h) (by norm_num) (by norm_num) 1 (1/10)
    (fun i _ => by push_cast; constructor <;> linarith)
    (fun i hi => by
      have : i < 2 := by omega
      interval_cases i <;> norm_num [abs_le])
    (fun i hi => by interval_cases i <;> norm_num)).1
  rw [show (List.range (3 + 1)).map (fun i : ℕ => if i = 3 then (1 : ℚ) else 3/10 * i) = [0, 3/10, 3/5, 1] by decide +kernel,
    show (List.range (3 + 1)).map (fun i : ℕ => (i : ℚ)) = [0, 1, 2, 3] by decide +kernel] at this
  exact this

example (x : ℚ) (h : 1 ≤ x) (h' : x ≤ 2) : |quadSpline [(0, 0), (1, 3/10), (2, 6/10), (3, 1)] x - (3/10 + 3/10 * (x - 1))| ≤ 3/20 * (x - 1) := by
  have := C149_near_lines (fun i => (i : ℚ)) (fun i => if i = 3 then 1 else 3/10 * i) 3 (by norm_num) (fun i j h _ => by simpa using h) 1 (1/10)
    (fun i _ => by push_cast; constructor <;> linarith)
    (fun i hi => by
      have : i < 2 := by omega
      interval_cases i <;> norm_num [abs_le]) 1 (by norm_num) x (by simpa using h) (by push_cast; linarith)
  norm_num [List.range_succ] at this ⊢
  exact this

end Verif.Props.QuadSpline
