import Verif.Props.BrierChunks
import Verif.Props.CdeLoss
import Mathlib.Algebra.BigOperators.Intervals
import Mathlib.Tactic.FieldSimp

/-!
# C111: which predictions the Brier score and the CDE loss prefer

A group of objects that get the same prediction `f`, with true values `ts`: which `f` has the best score? Both scores are means over the
objects, so this answers the question for objects of different kinds as well.
-/

set_option linter.unusedSectionVars false
set_option autoImplicit false

namespace Verif.Props.Metrics

open Verif Verif.Np Verif.Model Verif.Props.Convert

variable {K : Type} [Field K] [LinearOrder K] [IsStrictOrderedRing K]

/-- the fraction of the true values that `pos` puts at grid position `j` -/
def freq (pos : K → ℕ) (ts : List K) (j : ℕ) : K := ((ts.countP fun t => pos t = j : ℕ) : K) / (ts.length : K)

/-- half the distance between the two neighbours of grid point `j` (at the ends: half the distance to the only neighbour) -/
def cellWidth (xs : List K) (j : ℕ) : K := (xs.getD (j + 1) (xs.getD j 0) - xs.getD (j - 1) 0) / 2

/-- a group of objects with the same prediction -/
def same (f : K → K) (ts : List K) : FnEns K := ⟨[ts.length], List.replicate ts.length f⟩

theorem sum_delta (pos : K → ℕ) (ts : List K) (a b : ℕ → K) (n : ℕ) (hp : ∀ t ∈ ts, pos t < n) :
    (ts.map fun t => ∑ j ∈ Finset.range n, (a j + if j = pos t then b j else 0)).sum
      = ∑ j ∈ Finset.range n, ((ts.length : K) * a j + ((ts.countP fun t => pos t = j : ℕ) : K) * b j) := by
  induction ts with
  | nil => simp
  | cons t ts ih =>
    rw [List.map_cons, List.sum_cons, ih fun s hs => hp s (by simp [hs]), ← Finset.sum_add_distrib]
    apply Finset.sum_congr rfl
    intro j _
    by_cases h : pos t = j
    · simp [h]; ring
    · simp [h, Ne.symm h]; ring

theorem freq_sum (pos : K → ℕ) (ts : List K) (n : ℕ) (hp : ∀ t ∈ ts, pos t < n) (hne : ts ≠ []) : ∑ j ∈ Finset.range n, freq pos ts j = 1 := by
  have h := sum_delta pos ts (fun _ => 0) (fun _ => 1) n hp
  have hl : (ts.length : K) ≠ 0 := by simpa using hne
  simp only [zero_add, mul_zero, mul_one] at h
  unfold freq
  rw [← Finset.sum_div, ← h, div_eq_one_iff_eq hl]
  have : (ts.map fun t => ∑ j ∈ Finset.range n, if j = pos t then (1 : K) else 0) = ts.map fun _ => 1 := by
    apply List.map_congr_left
    intro t ht
    simp [hp t ht]
  rw [this]; simp

omit [LinearOrder K] [IsStrictOrderedRing K] in
theorem list_range_sum (F : ℕ → K) (n : ℕ) : ((List.range n).map F).sum = ∑ j ∈ Finset.range n, F j := by
  induction n with
  | zero => simp
  | succ n ih => rw [List.range_succ, List.map_append, List.sum_append, ih, Finset.sum_range_succ]; simp

theorem sqDist_hot (v : List K) (i : ℕ) : sqDist v ((oneHot v.length i).map fun (c : ℕ) => (c : K))
    = ∑ j ∈ Finset.range v.length, (v.getD j 0 ^ 2 + if j = i then 1 - 2 * v.getD j 0 else 0) := by
  have : List.zipWith (fun a b : K => (a - b) ^ 2) v ((oneHot v.length i).map fun (c : ℕ) => (c : K))
      = (List.range v.length).map fun j => v.getD j 0 ^ 2 + if j = i then 1 - 2 * v.getD j 0 else 0 := by
    apply List.ext_getElem
    · simp [oneHot]
    · intro j h1 h2
      have hj : j < v.length := by simpa using h2
      have hg : v.getD j 0 = v[j] := by simp [hj]
      simp only [oneHot, List.getElem_zipWith, List.getElem_map, List.getElem_range, hg]
      split
      · simp; ring
      · simp
  unfold sqDist
  rw [this, ← list_range_sum]
  rfl

/-- minimal at the fractions -/
theorem square_gap (n : ℕ) (c a r : ℕ → K) (k : K) (hc : ∀ j < n, 0 < c j) : k ≤ (∑ j ∈ Finset.range n, c j * (a j - r j) ^ 2) + k ∧
    ((∑ j ∈ Finset.range n, c j * (a j - r j) ^ 2) + k = k ↔ ∀ j < n, a j = r j) := by
  have hnn : ∀ j ∈ Finset.range n, 0 ≤ c j * (a j - r j) ^ 2 := fun j hj => mul_nonneg (hc j (Finset.mem_range.1 hj)).le (sq_nonneg _)
  refine ⟨by linarith [Finset.sum_nonneg hnn], ?_⟩
  rw [add_eq_right, Finset.sum_eq_zero_iff_of_nonneg hnn]
  constructor
  · intro h j hj
    have := h j (Finset.mem_range.2 hj)
    rcases mul_eq_zero.1 this with h0 | h0
    · exact absurd h0 (hc j hj).ne'
    · exact sub_eq_zero.1 (pow_eq_zero_iff (by norm_num) |>.1 h0)
  · intro h j hj
    rw [h j (Finset.mem_range.1 hj)]; simp

section
variable [FloorRing K]

/-- **C111**, Brier. For two or more objects with the same prediction the score is, up to the part `∑ r (1 - r)` on which the prediction has
no influence, the squared distance between the predicted *densities* on the grid and the *fractions* `r` of the true values nearest to the
grid points. Hence the best prediction is the one that has these fractions as its densities, and it is the only one. -/
theorem C111_brier_partial (ts : List K) (l0 l1 dx : K) (g : MGrid K) (h : gridParams l0 l1 dx = .ok g) (h2 : 2 ≤ ts.length)
    (ht : InLimits l0 l1 ts) :
    ∃ pos : K → ℕ, (∀ t ∈ ts, pos t < g.card ∧ NearestAt g.values g.resolution t (pos t)) ∧
      ∃ best, ∀ f, ∃ score, calculateBrier (same f ts) ts l0 l1 dx = .ok (some score) ∧
        score = (∑ j ∈ Finset.range g.card, (f (g.values.getD j 0) - freq pos ts j) ^ 2)
          + ∑ j ∈ Finset.range g.card, freq pos ts j * (1 - freq pos ts j) ∧
        best ≤ score ∧ (score = best ↔ ∀ j < g.card, f (g.values.getD j 0) = freq pos ts j) := by
  have hne : ts ≠ [] := by rintro rfl; simp at h2
  have hl := lt_of_grid h ht hne
  have hv : g.values.length = g.card := (C60_grid_partial l0 l1 dx g hl h).1
  have hpos : ∀ t, ∃ i, t ∈ ts → i < g.card ∧ npHistogram g.edges [t] = .ok (oneHot g.card i) ∧ NearestAt g.values g.resolution t i := by
    intro t
    by_cases htt : t ∈ ts
    · obtain ⟨i, h3, h4, h5⟩ := C61_one_hot l0 l1 dx g hl h t (ht t htt).1 (ht t htt).2
      exact ⟨i, fun _ => ⟨h3, h4, h5⟩⟩
    · exact ⟨0, fun h => absurd h htt⟩
  choose pos hp using hpos
  refine ⟨pos, fun t htt => ⟨(hp t htt).1, (hp t htt).2.2⟩, ∑ j ∈ Finset.range g.card, freq pos ts j * (1 - freq pos ts j), ?_⟩
  intro f
  have hN : (ts.length : K) ≠ 0 := by simpa using hne
  have hgood : GoodChunk l0 l1 (same f ts, ts) := ⟨rfl, by simp [same], ht⟩
  obtain ⟨p, t, h3, h4⟩ := brierSums_chunk l0 l1 dx g h (same f ts, ts) hgood h2
  have hterms : brierTerms g (same f ts, ts) = ts.map fun t => ∑ j ∈ Finset.range g.card,
      (f (g.values.getD j 0) ^ 2 + if j = pos t then 1 - 2 * f (g.values.getD j 0) else 0) := by
    unfold brierTerms same
    apply List.ext_getElem
    · simp
    · intro i h5 h6
      have hi : i < ts.length := by simpa using h6
      simp only [List.getElem_zipWith, List.getElem_map, List.getElem_replicate]
      have hhot : histRow g.edges ts[i] = (oneHot (g.values.map f).length (pos ts[i])).map fun (c : ℕ) => (c : K) := by
        simp [histRow, (hp ts[i] (List.getElem_mem hi)).2.1, Except.toOption, hv]
      rw [hhot, sqDist_hot, List.length_map, hv]
      apply Finset.sum_congr rfl
      intro j hj
      have hj : j < g.values.length := by rw [hv]; exact Finset.mem_range.1 hj
      have e1 : (g.values.map f).getD j 0 = f g.values[j] := by simp [hj]
      have e2 : g.values.getD j 0 = g.values[j] := by simp [hj]
      rw [e1, e2]
  have hscore : calculateBrier (same f ts) ts l0 l1 dx = .ok (some ((∑ j ∈ Finset.range g.card, (f (g.values.getD j 0) - freq pos ts j) ^ 2)
      + ∑ j ∈ Finset.range g.card, freq pos ts j * (1 - freq pos ts j))) := by
    simp only [calculateBrier, h3, Bind.bind, Except.bind, brierEvaluate, h4, Except.map]
    rw [hterms]
    congr 1
    unfold npMean
    rw [if_neg (by simpa using hne)]
    congr 1
    rw [sum_eq, sum_delta pos ts _ _ g.card (fun t htt => (hp t htt).1), List.length_map, Finset.sum_div, ← Finset.sum_add_distrib]
    apply Finset.sum_congr rfl
    intro j _
    unfold freq
    field_simp
    ring
  refine ⟨_, hscore, rfl, ?_⟩
  have := square_gap g.card (fun _ => 1) (fun j => f (g.values.getD j 0)) (freq pos ts) (∑ j ∈ Finset.range g.card, freq pos ts j * (1 - freq pos ts j))
    (fun _ _ => one_pos)
  simpa using this

/-- **C111, the code**, for all grids: the prediction whose densities are those of the true values (fraction divided by grid spacing) has the best
score exactly when the spacing is one. -/
theorem C111_brier_true_density (ts : List K) (l0 l1 dx : K) (g : MGrid K) (h : gridParams l0 l1 dx = .ok g) (h2 : 2 ≤ ts.length)
    (ht : InLimits l0 l1 ts) : ∃ pos : K → ℕ, (∀ t ∈ ts, pos t < g.card ∧ NearestAt g.values g.resolution t (pos t)) ∧
      ∀ f, (∀ j < g.card, f (g.values.getD j 0) = freq pos ts j / g.resolution) → ∀ s, calculateBrier (same f ts) ts l0 l1 dx = .ok (some s) →
        ((∀ f' s', calculateBrier (same f' ts) ts l0 l1 dx = .ok (some s') → s ≤ s') ↔ g.resolution = 1) := by
  have hne : ts ≠ [] := by rintro rfl; simp at h2
  have hl := lt_of_grid h ht hne
  obtain ⟨hlen, _, _, hr, _, hsp, _, _⟩ := C60_grid_partial l0 l1 dx g hl h
  obtain ⟨pos, hp, best, hb⟩ := C111_brier_partial ts l0 l1 dx g h h2 ht
  have hcard : g.values.Pairwise (· < ·) := by
    obtain ⟨_, _, _, hcard, _, hval, _⟩ := gridParams_ok h
    rw [hval]; exact linspace_pairwise _ _ _ (by omega) hl
  have hinj : ∀ i < g.card, ∀ j < g.card, g.values.getD i 0 = g.values.getD j 0 → i = j := by
    intro i hi j hj he
    rw [← hlen] at hi hj
    have := (List.Nodup.getElem_inj_iff (hcard.imp fun h => h.ne) (hi := hi) (hj := hj)).1 (by simpa [hi, hj] using he)
    exact this
  refine ⟨pos, hp, fun f hf s hs => ?_⟩
  obtain ⟨s1, h1, -, h3, h4⟩ := hb f
  obtain rfl : s1 = s := by rw [h1] at hs; simpa using hs
  constructor
  · intro hmin
    -- a prediction with the fractions as densities
    let f' : K → K := fun x => ((List.range g.card).find? fun j => g.values.getD j 0 = x).elim 0 (freq pos ts)
    have hf' : ∀ j < g.card, f' (g.values.getD j 0) = freq pos ts j := by
      intro j hj
      have : ((List.range g.card).find? fun i => g.values.getD i 0 = g.values.getD j 0) = some j := by
        have hsome : ((List.range g.card).find? fun i => g.values.getD i 0 = g.values.getD j 0).isSome := by
          rw [List.find?_isSome]; exact ⟨j, List.mem_range.2 hj, by simp⟩
        obtain ⟨i, hi⟩ := Option.isSome_iff_exists.1 hsome
        have h5 := List.find?_some hi
        have h6 := List.mem_range.1 (List.mem_of_find?_eq_some hi)
        rw [hi, hinj i h6 j hj (by simpa using h5)]
      simp only [f', this, Option.elim_some]
    obtain ⟨s2, h5, -, -, h6⟩ := hb f'
    have h7 := h6.2 hf'
    have h8 := hmin f' s2 h5
    have h9 := h4.1 (le_antisymm (h8.trans h7.le) h3)
    have hsum := freq_sum pos ts g.card (fun t htt => (hp t htt).1) hne
    obtain ⟨j, hj, hj0⟩ : ∃ j ∈ Finset.range g.card, freq pos ts j ≠ 0 := Finset.exists_ne_zero_of_sum_ne_zero (by rw [hsum]; exact one_ne_zero)
    have hj := Finset.mem_range.1 hj
    have h10 := h9 j hj
    rw [hf j hj, div_eq_iff hr.ne'] at h10
    exact mul_left_cancel₀ hj0 (by rw [← h10, mul_one])
  · intro h5 f' s' hs'
    obtain ⟨s2, h6, -, h7, -⟩ := hb f'
    obtain rfl : s2 = s' := by rw [h6] at hs'; simpa using hs'
    rw [h4.2 fun j hj => by rw [hf j hj, h5, div_one]]
    exact h7

/-- **C111, the code.** Densities are compared with fractions, so a true prediction does not get the best score unless the grid spacing is one.
Four objects have the true value 1/2; the grid is 0, 1/2, 1. The prediction that puts all its probability next to 1/2 (density 2 there, falling
to 0 at 0 and at 1) gets a worse score than one that puts a quarter of it further away. Both have total probability one. -/
theorem C111_brier_improper : ∃ (f f' : ℚ → ℚ) (ts : List ℚ) (l0 l1 dx s s' : ℚ) (g : MGrid ℚ),
    gridParams l0 l1 dx = .ok g ∧ trapz g.values (g.values.map f) = 1 ∧ trapz g.values (g.values.map f') = 1 ∧
    (∀ x ∈ g.values, 0 ≤ f x ∧ 0 ≤ f' x) ∧ (∀ t ∈ ts, ∀ x ∈ g.values, x ≠ t → f x = 0) ∧
    calculateBrier (same f ts) ts l0 l1 dx = .ok (some s) ∧ calculateBrier (same f' ts) ts l0 l1 dx = .ok (some s') ∧ s' < s :=
  ⟨fun x => if x = 1/2 then 2 else 0, fun x => if x = 1/2 then 3/2 else 1/2, [1/2, 1/2, 1/2, 1/2], 0, 1, 1/3, 1, 3/4,
    ⟨[0, 1/2, 1], 3, 1/2, [-1/4, 1/4, 3/4, 5/4], (0, 1)⟩, by decide +kernel, by decide +kernel, by decide +kernel, by decide +kernel,
    by decide +kernel, by decide +kernel, by decide +kernel, by decide +kernel⟩

end

/-! ## CDE loss -/

omit [LinearOrder K] [IsStrictOrderedRing K] in
theorem trapz_cells (xs ys : List K) (hl : ys.length = xs.length) :
    trapz xs ys = ∑ j ∈ Finset.range (xs.length - 1), (xs.getD (j + 1) 0 - xs.getD j 0) * (ys.getD j 0 + ys.getD (j + 1) 0) / 2 := by
  unfold trapz
  induction xs, ys using trapezoids.induct with
  | case1 a b xs u v ys ih =>
    have := ih (by simpa using hl)
    simp only [trapezoids, Np.sum, List.foldr_cons] at this ⊢
    rw [this]
    simp only [List.length_cons, Nat.add_sub_cancel]
    rw [Finset.sum_range_succ']
    simp only [List.getD_cons_succ, List.getD_cons_zero]
    ring
  | case2 xs ys h =>
    match xs, ys, hl with
    | [], [], _ => simp [trapezoids, Np.sum]
    | [_], [_], _ => simp [trapezoids, Np.sum]
    | a :: b :: xs, u :: v :: ys, _ => exact absurd rfl (h a b xs u v ys rfl)

/-- the trapezoidal rule as a weighted sum -/
theorem trapz_weights (xs ys : List K) (hl : ys.length = xs.length) (hne : xs ≠ []) :
    trapz xs ys = ∑ j ∈ Finset.range xs.length, cellWidth xs j * ys.getD j 0 := by
  rw [trapz_cells xs ys hl]
  obtain ⟨n, hn⟩ : ∃ n, xs.length = n + 1 := ⟨xs.length - 1, by have := List.length_pos_iff.2 hne; omega⟩
  rw [hn, Nat.add_sub_cancel]
  have e : ∀ j ∈ Finset.range (n + 1), cellWidth xs j * ys.getD j 0
      = (xs.getD (j + 1) (xs.getD j 0) - xs.getD j 0) * ys.getD j 0 / 2 + (xs.getD j 0 - xs.getD (j - 1) 0) * ys.getD j 0 / 2 := by
    intro j _; unfold cellWidth; ring
  rw [Finset.sum_congr rfl e, Finset.sum_add_distrib, Finset.sum_range_succ, Finset.sum_range_succ' (fun j => (xs.getD j 0 - xs.getD (j - 1) 0) * ys.getD j 0 / 2)]
  have hlast : xs.getD (n + 1) (xs.getD n 0) = xs.getD n 0 := by
    simp [show xs.length ≤ n + 1 by omega]
  rw [hlast]
  simp only [sub_self, zero_mul, zero_div, add_zero, Nat.add_sub_cancel, Nat.zero_sub]
  rw [← Finset.sum_add_distrib]
  apply Finset.sum_congr rfl
  intro j hj
  have hj := Finset.mem_range.1 hj
  have : xs.getD (j + 1) (xs.getD j 0) = xs.getD (j + 1) 0 := by
    simp [show j + 1 < xs.length by omega]
  rw [this]
  ring

theorem cellWidth_pos (xs : List K) (hs : xs.Pairwise (· < ·)) (h2 : 2 ≤ xs.length) (j : ℕ) (hj : j < xs.length) : 0 < cellWidth xs j := by
  unfold cellWidth
  have lt : ∀ (a b : ℕ) (hb : b < xs.length), a < b → xs.getD a 0 < xs.getD b 0 := by
    intro a b hb hab
    have := List.pairwise_iff_getElem.1 hs a b (by omega) hb hab
    simpa [hb, show a < xs.length by omega] using this
  apply div_pos _ two_pos
  by_cases h : j + 1 < xs.length
  · have e : xs.getD (j + 1) (xs.getD j 0) = xs.getD (j + 1) 0 := by simp [h]
    rw [e]
    exact sub_pos.2 (lt _ _ h (by omega))
  · have e : xs.getD (j + 1) (xs.getD j 0) = xs.getD j 0 := by simp [show xs.length ≤ j + 1 by omega]
    rw [e]
    exact sub_pos.2 (lt _ _ hj (by omega))

/-- **C111**, CDE loss. For objects with the same prediction on an increasing grid the loss is, up to a part on which the prediction has no
influence, the weighted squared distance between the predicted densities and the *densities* `r / w` of the true values: the fraction `r` that
is nearest to a grid point, divided by the width `w` of its cell. Hence these densities, which have total probability one, have the smallest
loss, and no others. -/
theorem C111_cde (xs ts : List K) (hs : xs.Pairwise (· < ·)) (h2 : 2 ≤ xs.length) (hne : ts ≠ []) :
    ∃ pos : K → ℕ, (∀ t ∈ ts, IsNearest xs t (pos t)) ∧
      (∑ j ∈ Finset.range xs.length, cellWidth xs j * (freq pos ts j / cellWidth xs j) = 1) ∧
      ∃ best, ∀ f, ∃ loss, cdeEvaluate xs (same f ts) ts = .ok (some loss) ∧
        loss = (∑ j ∈ Finset.range xs.length, cellWidth xs j * (f (xs.getD j 0) - freq pos ts j / cellWidth xs j) ^ 2)
          - ∑ j ∈ Finset.range xs.length, freq pos ts j ^ 2 / cellWidth xs j ∧
        best ≤ loss ∧ (loss = best ↔ ∀ j < xs.length, f (xs.getD j 0) = freq pos ts j / cellWidth xs j) := by
  have hxne : xs ≠ [] := by rintro rfl; simp at h2
  have hpos : ∀ t, ∃ i, nearest xs t = .ok i ∧ IsNearest xs t i := fun t => nearest_ok xs t hxne
  choose pos hp1 hp2 using hpos
  have hlt : ∀ t ∈ ts, pos t < xs.length := by
    intro t _
    obtain ⟨x, hx, -⟩ := hp2 t
    exact (List.getElem?_eq_some_iff.1 hx).1
  have hw := cellWidth_pos xs hs h2
  refine ⟨pos, fun t _ => hp2 t, ?_, - ∑ j ∈ Finset.range xs.length, freq pos ts j ^ 2 / cellWidth xs j, ?_⟩
  · rw [← freq_sum pos ts xs.length hlt hne]
    apply Finset.sum_congr rfl
    intro j hj
    have := (hw j (Finset.mem_range.1 hj)).ne'
    field_simp
  intro f
  have hN : (ts.length : K) ≠ 0 := by simpa using hne
  have hval := C64_value xs (same f ts, ts) hxne ⟨rfl, by simp [same]⟩ hne
  have hnear : ∀ t, nearPoint xs t = xs.getD (pos t) 0 := by
    intro t
    simp [nearPoint, hp1 t, Except.toOption]
  have hhits : (List.zipWith (fun f z => f (nearPoint xs z)) (same f ts).fns ts).sum
      = ∑ j ∈ Finset.range xs.length, ((ts.countP fun t => pos t = j : ℕ) : K) * f (xs.getD j 0) := by
    have h5 := sum_delta pos ts (fun _ => 0) (fun j => f (xs.getD j 0)) xs.length hlt
    simp only [zero_add, mul_zero] at h5
    rw [← h5]
    congr 1
    apply List.ext_getElem
    · simp [same]
    · intro i h6 h7
      have hi : i < ts.length := by simpa using h7
      simp only [same, List.getElem_zipWith, List.getElem_replicate, List.getElem_map, hnear]
      rw [Finset.sum_ite_eq' , if_pos (Finset.mem_range.2 (hlt _ (List.getElem_mem hi)))]
  have hsq : ((same f ts).fns.map fun f => trapz xs (xs.map fun x => f x ^ 2)).sum
      = (ts.length : K) * ∑ j ∈ Finset.range xs.length, cellWidth xs j * f (xs.getD j 0) ^ 2 := by
    have : trapz xs (xs.map fun x => f x ^ 2) = ∑ j ∈ Finset.range xs.length, cellWidth xs j * f (xs.getD j 0) ^ 2 := by
      rw [trapz_weights xs _ (by simp) hxne]
      apply Finset.sum_congr rfl
      intro j hj
      have hj := Finset.mem_range.1 hj
      simp [hj]
    simp [same, this]
  simp only at hval
  rw [hhits, hsq] at hval
  refine ⟨_, hval, ?_⟩
  have hmain : (ts.length : K) * (∑ j ∈ Finset.range xs.length, cellWidth xs j * f (xs.getD j 0) ^ 2) / (ts.length : K)
      - 2 * ((∑ j ∈ Finset.range xs.length, ((ts.countP fun t => pos t = j : ℕ) : K) * f (xs.getD j 0)) / (ts.length : K))
      = (∑ j ∈ Finset.range xs.length, cellWidth xs j * (f (xs.getD j 0) - freq pos ts j / cellWidth xs j) ^ 2)
        - ∑ j ∈ Finset.range xs.length, freq pos ts j ^ 2 / cellWidth xs j := by
    rw [mul_div_cancel_left₀ _ hN, Finset.sum_div, Finset.mul_sum, ← Finset.sum_sub_distrib, ← Finset.sum_sub_distrib]
    apply Finset.sum_congr rfl
    intro j hj
    have := (hw j (Finset.mem_range.1 hj)).ne'
    unfold freq
    field_simp
    ring
  rw [hmain]
  refine ⟨rfl, ?_⟩
  have := square_gap xs.length (cellWidth xs) (fun j => f (xs.getD j 0)) (fun j => freq pos ts j / cellWidth xs j)
    (- ∑ j ∈ Finset.range xs.length, freq pos ts j ^ 2 / cellWidth xs j) hw
  simpa [sub_eq_add_neg] using this

/-- three true values on an uneven grid: the best densities are 2/3 at 0 and 1/9 at 2 -/
example := C111_cde (K := ℚ) [0, 1, 4] [1/10, 3, 1/4] (by decide +kernel) (by decide) (by decide)

example := C111_brier_partial (K := ℚ) [1/10, 7/10, 1/4] 0 1 (1/3) ⟨[0, 1/2, 1], 3, 1/2, [-1/4, 1/4, 3/4, 5/4], (0, 1)⟩ (by decide +kernel) (by decide)
  (by intro t ht; simp at ht; rcases ht with rfl | rfl | rfl <;> norm_num)

end Verif.Props.Metrics
