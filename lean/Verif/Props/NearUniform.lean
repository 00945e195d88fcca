import Verif.Props.Hist
import Mathlib.Data.List.TakeWhile
import Mathlib.Tactic.Linarith

/-!
# C05, C06: lookup in arbitrary bins

`C05_bin_lookup_partial` leaves out edges that are unequal by less than the tolerance with which the code decides that all bins have the same
width. Here are no conditions on the edges except that they increase: the bin that is found holds the point up to the sum of the tolerances, and it is
the right one for points farther than that from the edges.
-/

set_option linter.unusedSectionVars false
set_option autoImplicit false

namespace Verif.Props.Bins

open Verif Verif.Np Verif.Model

variable {K : Type*} [Field K] [LinearOrder K] [IsStrictOrderedRing K] [FloorRing K]

/-- the tolerance of `np.allclose` for the widths, given the first width -/
def widthTol (w : K) : K := 1 / 100000000 + 1 / 100000 * |w|

theorem widthTol_nonneg (w : K) : 0 ≤ widthTol w := by unfold widthTol; positivity

theorem near_edge {b0 b1 : K} {t : List K} (h : allcloseScalar (binWidths (b0 :: b1 :: t)) (b1 - b0) = true) (i : ℕ) (a : K)
    (ha : (b0 :: b1 :: t)[i]? = some a) : |a - (b0 + i * (b1 - b0))| ≤ i * widthTol (b1 - b0) := by
  induction i generalizing a with
  | zero => simp at ha; simp [ha]
  | succ i ih =>
    have hi : i + 1 < (b0 :: b1 :: t).length := (List.getElem?_eq_some_iff.1 ha).1
    have hc : (b0 :: b1 :: t)[i]? = some (b0 :: b1 :: t)[i] := List.getElem?_eq_getElem (by omega)
    have h1 := ih _ hc
    set c := (b0 :: b1 :: t)[i]
    have h2 := getElem?_diff (b0 :: b1 :: t) i c a hc ha
    simp only [allcloseScalar, List.all_eq_true, isclose, decide_eq_true_eq] at h
    have h3 := h _ (List.mem_of_getElem? h2)
    have e : a - (b0 + ((i + 1 : ℕ) : K) * (b1 - b0)) = (c - (b0 + i * (b1 - b0))) + ((a - c) - (b1 - b0)) := by push_cast; ring
    rw [e]
    refine (abs_add_le _ _).trans ?_
    push_cast
    have : (i : K) * widthTol (b1 - b0) + widthTol (b1 - b0) = ((i : K) + 1) * widthTol (b1 - b0) := by ring
    rw [← this]
    exact add_le_add h1 h3

theorem edge_mono {edges : List K} (hs : edges.Pairwise (· < ·)) {i j : ℕ} (h : i ≤ j) {a b : K} (ha : edges[i]? = some a) (hb : edges[j]? = some b) : a ≤ b := by
  rcases Nat.lt_or_eq_of_le h with h | h
  · obtain ⟨hi, rfl⟩ := List.getElem?_eq_some_iff.1 ha
    obtain ⟨hj, rfl⟩ := List.getElem?_eq_some_iff.1 hb
    exact (List.pairwise_iff_getElem.1 hs i j hi hj h).le
  · subst h
    rw [ha] at hb
    exact (Option.some.inj hb).le

/-- **C05, any increasing edges.** A point that is put into bin `i` lies between the edges of this bin up to `i + 1` times the tolerance. A point that
is put into no bin lies before the first edge, or after the last one up to the number of bins times the tolerance. -/
theorem C05_within_tolerance (edges : List K) (hs : edges.Pairwise (· < ·)) (b0 b1 : K) (h0 : edges[0]? = some b0) (h1 : edges[1]? = some b1) (x : K) :
    (∀ (i : ℕ) a b, getBinIndex edges x = .ok (i, true) → edges[i]? = some a → edges[i+1]? = some b →
      b0 ≤ x ∧ a - i * widthTol (b1 - b0) ≤ x ∧ x ≤ b + (i + 1) * widthTol (b1 - b0)) ∧
    (∀ (i : ℕ) z, getBinIndex edges x = .ok (i, false) → edges[edges.length - 1]? = some z →
      i = 0 ∧ (x ≤ b0 ∨ z - (edges.length - 1 : ℕ) * widthTol (b1 - b0) ≤ x)) := by
  match edges, h0, h1 with
  | c0 :: c1 :: t, h0, h1 =>
    obtain rfl : c0 = b0 := by simpa using h0
    obtain rfl : c1 = b1 := by simpa using h1
    have hw : 0 < c1 - c0 := by rw [List.pairwise_cons] at hs; exact sub_pos.2 (hs.1 c1 (by simp))
    have hT := widthTol_nonneg (c1 - c0)
    by_cases hall : allcloseScalar (binWidths (c0 :: c1 :: t)) (c1 - c0) = true
    · rw [getBinIndex_cons c0 c1 t x _ (if_pos hall).symm]
      refine ⟨fun i a b h ha hb => ?_, fun i z h hz => ?_⟩
      · split_ifs at h with hc
        swap
        · simp at h
        simp only [Except.ok.injEq, Prod.mk.injEq, and_true] at h
        have hi : (i : ℤ) = ⌊(x - c0) / (c1 - c0)⌋ := by omega
        have hf := (Int.floor_eq_iff (z := (i : ℤ))).1 hi.symm
        rw [le_div_iff₀ hw, div_lt_iff₀ hw] at hf
        have ea := abs_le.1 (near_edge hall i a ha)
        have eb := abs_le.1 (near_edge hall (i + 1) b hb)
        push_cast at ea eb hf
        have hi0 : (0 : K) ≤ i * (c1 - c0) := by positivity
        refine ⟨?_, ?_, ?_⟩ <;> linarith [ea.1, ea.2, eb.1, eb.2, hf.1, hf.2]
      · split_ifs at h with hc
        · simp at h
        simp only [Except.ok.injEq, Prod.mk.injEq, and_true] at h
        refine ⟨h.symm, ?_⟩
        by_cases hneg : ⌊(x - c0) / (c1 - c0)⌋ < 0
        · left
          have := Int.floor_lt.1 hneg
          rw [div_lt_iff₀ hw] at this
          simp at this
          linarith
        · right
          have hge : (((c0 :: c1 :: t).length - 1 : ℕ) : ℤ) ≤ ⌊(x - c0) / (c1 - c0)⌋ := by
            by_contra hh
            apply hc
            refine ⟨by omega, ?_⟩
            push Not at hh
            simp only [List.length_cons] at hh ⊢
            push_cast at hh ⊢
            omega
          have := Int.le_floor.1 hge
          rw [le_div_iff₀ hw] at this
          have ez := abs_le.1 (near_edge hall _ z hz)
          rw [Int.cast_natCast] at this
          linarith [ez.1, ez.2]
    · rw [getBinIndex_cons c0 c1 t x _ (if_neg hall).symm]
      refine ⟨fun i a b h ha hb => ?_, fun i z h hz => ?_⟩
      · split_ifs at h with hc
        swap
        · simp at h
        simp only [Except.ok.injEq, Prod.mk.injEq, and_true] at h
        have hi : searchsortedLeft (c0 :: c1 :: t) x = i + 1 := by omega
        obtain ⟨a', b', ha', hb', h1, h2⟩ := searchsortedLeft_bracket hi (List.getElem?_eq_some_iff.1 hb).1
        rw [ha] at ha'; rw [hb] at hb'; cases ha'; cases hb'
        have e1 : (0 : K) ≤ i * widthTol (c1 - c0) := by positivity
        have e2 : (0 : K) ≤ (i + 1) * widthTol (c1 - c0) := by positivity
        have e3 := edge_mono hs (Nat.zero_le i) h0 ha
        refine ⟨?_, ?_, ?_⟩ <;> linarith
      · split_ifs at h with hc
        · simp at h
        simp only [Except.ok.injEq, Prod.mk.injEq, and_true] at h
        refine ⟨h.symm, ?_⟩
        by_cases hx0 : x ≤ c0
        · exact .inl hx0
        · right
          have hs1 : 1 ≤ searchsortedLeft (c0 :: c1 :: t) x := by
            simp [searchsortedLeft, List.takeWhile, not_le.1 hx0]
          have hfull : searchsortedLeft (c0 :: c1 :: t) x = (c0 :: c1 :: t).length := by
            have hle : searchsortedLeft (c0 :: c1 :: t) x ≤ (c0 :: c1 :: t).length := (List.takeWhile_sublist _).length_le
            by_contra hne
            apply hc
            constructor <;> omega
          have hall' : ∀ v ∈ (c0 :: c1 :: t), v < x := by
            have := (List.takeWhile_sublist (fun v => decide (v < x))).eq_of_length hfull
            intro v hv
            rw [← this] at hv
            simpa using List.mem_takeWhile_imp hv
          have := hall' z (List.mem_of_getElem? hz)
          have e1 : (0 : K) ≤ ((c0 :: c1 :: t).length - 1 : ℕ) * widthTol (c1 - c0) := by positivity
          linarith

/-- **C05, away from the edges.** In any increasing edges, a point that is farther from the edges of its bin than the number of bins times the
tolerance is found in its bin, and a point outside the range that is farther than that from its ends is in no bin. -/
theorem C05_away_from_edges (edges : List K) (hs : edges.Pairwise (· < ·)) (b0 b1 : K) (h0 : edges[0]? = some b0) (h1 : edges[1]? = some b1) (x : K) :
    (∀ (j : ℕ) a b, edges[j]? = some a → edges[j+1]? = some b → a + (edges.length - 1 : ℕ) * widthTol (b1 - b0) < x →
      x < b - (edges.length - 1 : ℕ) * widthTol (b1 - b0) → getBinIndex edges x = .ok (j, true)) ∧
    (x < b0 ∨ (∀ e ∈ edges, e + (edges.length - 1 : ℕ) * widthTol (b1 - b0) < x) → getBinIndex edges x = .ok (0, false)) := by
  have hlen : 2 ≤ edges.length := by
    have := (List.getElem?_eq_some_iff.1 h1).1
    omega
  obtain ⟨hin, hout⟩ := C05_within_tolerance edges hs b0 b1 h0 h1 x
  have hT := widthTol_nonneg (b1 - b0)
  obtain ⟨i, m, hi, hil⟩ := C05_index_valid edges hlen x
  have hmul : ∀ k : ℕ, k ≤ edges.length - 1 → (k : K) * widthTol (b1 - b0) ≤ (edges.length - 1 : ℕ) * widthTol (b1 - b0) := by
    intro k hk
    exact mul_le_mul_of_nonneg_right (by exact_mod_cast hk) hT
  have hN : (0 : K) ≤ (edges.length - 1 : ℕ) * widthTol (b1 - b0) := by positivity
  have hia : edges[i]? = some edges[i] := List.getElem?_eq_getElem (by omega)
  have hib : edges[i+1]? = some edges[i+1] := List.getElem?_eq_getElem (by omega)
  have hz : edges[edges.length - 1]? = some edges[edges.length - 1] := List.getElem?_eq_getElem (by omega)
  constructor
  · intro j a b ha hb hxa hxb
    have hj : j + 1 < edges.length := (List.getElem?_eq_some_iff.1 hb).1
    cases m with
    | true =>
      obtain ⟨e0, e1, e2⟩ := hin i _ _ hi hia hib
      have m1 := hmul i (by omega)
      have m2 := hmul (i + 1) (by omega)
      push_cast at m2
      rcases Nat.lt_trichotomy i j with h | h | h
      · have := edge_mono hs (show i + 1 ≤ j by omega) hib ha
        linarith
      · rw [hi, h]
      · have := edge_mono hs (show j + 1 ≤ i by omega) hb hia
        linarith
    | false =>
      exfalso
      rcases (hout i _ hi hz).2 with h | h
      · have := edge_mono hs (Nat.zero_le j) h0 ha
        linarith
      · have := edge_mono hs (show j + 1 ≤ edges.length - 1 by omega) hb hz
        linarith
  · intro h
    cases m with
    | true =>
      exfalso
      obtain ⟨e0, e1, e2⟩ := hin i _ _ hi hia hib
      have m2 := hmul (i + 1) (by omega)
      push_cast at m2
      rcases h with h | h
      · linarith
      · have := h _ (List.mem_of_getElem? hib)
        linarith
    | false =>
      rw [hi, (hout i _ hi hz).1]

/-- the lookup in edges that differ by less than the tolerance, away from the edges -/
example : getBinIndex ([0, 1, 2000001/1000000, 3] : List ℚ) (3/2) = .ok (1, true) ∧
    (1 : ℚ) + (4 - 1 : ℕ) * widthTol ((1 : ℚ) - 0) < 3/2 ∧ (3/2 : ℚ) < 2000001/1000000 - (4 - 1 : ℕ) * widthTol ((1 : ℚ) - 0) ∧
    getBinIndex ([0, 1, 2000001/1000000, 3] : List ℚ) (2000001/1000000 - 1/2000000) = .ok (2, true) := by
  refine ⟨by decide +kernel, ?_, ?_, by decide +kernel⟩ <;> norm_num [widthTol]

end Verif.Props.Bins

namespace Verif.Props.Hist

open Verif Verif.Np Verif.Model Verif.Spec Verif.Lemmas.Hist Verif.Props.Bins

variable {K : Type*} [Field K] [LinearOrder K] [IsStrictOrderedRing K] [FloorRing K]

/-- **C06, any increasing edges.** The density of a constructed histogram is that of the bin at every point that is farther from the edges of the bin
than the number of bins times the tolerance, and it is zero before the first edge and farther than that behind the last. -/
theorem C06_away_from_edges (edges row p : List K) (hg : Grid edges row.length) (b0 b1 : K) (h0 : edges[0]? = some b0) (h1 : edges[1]? = some b1)
    (hp : histNormRow edges row = some p) (x : K) :
    (∀ (i : ℕ) a b v, edges[i]? = some a → edges[i+1]? = some b → row[i]? = some v → a + row.length * widthTol (b1 - b0) < x →
      x < b - row.length * widthTol (b1 - b0) → histPdf edges p x = .ok (v / totalMass edges row)) ∧
    (x < b0 ∨ (∀ e ∈ edges, e + row.length * widthTol (b1 - b0) < x) → histPdf edges p x = .ok 0) := by
  obtain ⟨g1, g2⟩ := C05_away_from_edges edges hg.strict b0 b1 h0 h1 x
  rw [show edges.length - 1 = row.length by have := hg.size; omega] at g1 g2
  have hpe : p = row.map (· / totalMass edges row) := by
    unfold histNormRow at hp
    split at hp
    · simp at hp
    · rw [histSum_eq] at hp; exact (Option.some.inj hp).symm
  constructor
  · intro i a b v ha hb hv hxa hxb
    unfold histPdf evalHist
    rw [g1 i a b ha hb hxa hxb, hpe]
    simp [hv]
  · intro hout
    unfold histPdf evalHist
    rw [g2 hout, hpe]
    have : ∃ v, row[0]? = some v := by
      have := hg.pos
      exact ⟨row[0], List.getElem?_eq_getElem (by omega)⟩
    obtain ⟨v, hv⟩ := this
    simp [hv]

example : histNormRow ([0, 1, 2000001/1000000, 3] : List ℚ) [1, 2, 1] = some [1000000/4000001, 2000000/4000001, 1000000/4000001] ∧
    histPdf ([0, 1, 2000001/1000000, 3] : List ℚ) [1000000/4000001, 2000000/4000001, 1000000/4000001] (3/2) = .ok (2000000/4000001) := by
  decide +kernel

end Verif.Props.Hist
