import Verif.Lemmas.Bins
import Mathlib.Algebra.Order.Ring.Rat
import Mathlib.Data.Rat.Floor
import Mathlib.Tactic.NormNum

/-!
# C05: bin lookup
-/

set_option linter.unusedSectionVars false

namespace Verif.Props.Bins

open Verif Verif.Np Verif.Model

variable {K : Type*} [Field K] [LinearOrder K] [IsStrictOrderedRing K] [FloorRing K]

/-! ## Specification -/

/-- `x` lies strictly between edge `i` and edge `i+1`. -/
def Inside (edges : List K) (i : ℕ) (x : K) : Prop :=
  ∃ a b, edges[i]? = some a ∧ edges[i+1]? = some b ∧ a < x ∧ x < b

/-- all bins have exactly the same width -/
def Uniform (edges : List K) : Prop :=
  ∃ w, ∀ i a b, edges[i]? = some a → edges[i+1]? = some b → b - a = w

/-- some bin differs from the first one by more than numpy's `allclose` tolerance -/
def DetectablyNonUniform (edges : List K) : Prop :=
  ∃ b0 b1 i a b, edges[0]? = some b0 ∧ edges[1]? = some b1 ∧ edges[i]? = some a ∧ edges[i+1]? = some b ∧
    1 / 100000000 + 1 / 100000 * |b1 - b0| < |(b - a) - (b1 - b0)|

/-! ## Proof -/

private theorem mem_diff_iff (l : List K) (v : K) :
    v ∈ diff l ↔ ∃ i a b, l[i]? = some a ∧ l[i+1]? = some b ∧ v = b - a := by
  constructor
  · intro h
    obtain ⟨i, hi, rfl⟩ := List.mem_iff_getElem.1 h
    have hl := length_diff l
    have h1 : i < l.length := by omega
    have h2 : i + 1 < l.length := by omega
    refine ⟨i, l[i], l[i+1], by simp [h1], by simp [h2], ?_⟩
    have := getElem?_diff l i _ _ (List.getElem?_eq_getElem h1) (List.getElem?_eq_getElem h2)
    rw [List.getElem?_eq_getElem hi] at this
    exact Option.some.inj this
  · rintro ⟨i, a, b, ha, hb, rfl⟩
    exact List.mem_of_getElem? (getElem?_diff l i a b ha hb)

/-- the code path for exactly uniform bins -/
private theorem lookup_uniform {b0 b1 : K} {t : List K} (hs : (b0 :: b1 :: t).Pairwise (· < ·))
    (hu : Uniform (b0 :: b1 :: t)) (x : K) :
    getBinIndex (b0 :: b1 :: t) x =
      let idx := ⌊(x - b0) / (b1 - b0)⌋
      let n : ℤ := ((b0 :: b1 :: t).length : ℤ) - 1
      if 0 ≤ idx ∧ idx < n then .ok (idx.toNat, true) else .ok (0, false) := by
  obtain ⟨w, hw⟩ := hu
  have hw0 : b1 - b0 = w := hw 0 b0 b1 rfl rfl
  have hall : allcloseScalar (binWidths (b0 :: b1 :: t)) (b1 - b0) = true := by
    simp only [allcloseScalar, List.all_eq_true, isclose, decide_eq_true_eq]
    intro v hv
    obtain ⟨i, a, b, ha, hb, rfl⟩ := (mem_diff_iff _ _).1 hv
    rw [hw i a b ha hb, hw0, sub_self, abs_zero]
    positivity
  rw [getBinIndex_cons b0 b1 t x _ (if_pos hall).symm]

/-- the code path for detectably non-uniform bins -/
private theorem lookup_nonuniform {b0 b1 : K} {t : List K}
    (hd : DetectablyNonUniform (b0 :: b1 :: t)) (x : K) :
    getBinIndex (b0 :: b1 :: t) x =
      let s := searchsortedLeft (b0 :: b1 :: t) x
      if 1 ≤ s ∧ s < (b0 :: b1 :: t).length then .ok (s - 1, true) else .ok (0, false) := by
  obtain ⟨b0', b1', i, a, b, h0, h1, ha, hb, hgt⟩ := hd
  obtain rfl : b0 = b0' := by simpa using h0
  obtain rfl : b1 = b1' := by simpa using h1
  have hall : ¬ allcloseScalar (binWidths (b0 :: b1 :: t)) (b1 - b0) = true := by
    simp only [allcloseScalar, List.all_eq_true, isclose, decide_eq_true_eq]
    intro hc
    exact absurd (hc _ ((mem_diff_iff _ _).2 ⟨i, a, b, ha, hb, rfl⟩)) (not_le.2 hgt)
  rw [getBinIndex_cons b0 b1 t x _ (if_neg hall).symm]
  set s := searchsortedLeft (b0 :: b1 :: t) x
  by_cases h : 1 ≤ s ∧ s < (b0 :: b1 :: t).length
  · rw [if_pos h, if_pos ⟨by omega, by omega⟩]
    congr 2; omega
  · rw [if_neg h, if_neg]
    rintro ⟨h1, h2⟩
    exact h ⟨by omega, by omega⟩

private theorem uniform_edge {b0 b1 : K} {t : List K} (hu : Uniform (b0 :: b1 :: t)) {i : ℕ} {a : K}
    (ha : (b0 :: b1 :: t)[i]? = some a) : a = b0 + i * (b1 - b0) := by
  obtain ⟨w, hw⟩ := hu
  have hw0 : b1 - b0 = w := hw 0 b0 b1 rfl rfl
  rw [hw0]
  refine arith_of_diff _ b0 (b1 :: t) rfl ?_ i a ha
  intro v hv
  obtain ⟨i, a, b, ha, hb, rfl⟩ := (mem_diff_iff _ _).1 hv
  exact hw i a b ha hb

private theorem two_edges {edges : List K} (h : 2 ≤ edges.length) : ∃ b0 b1 t, edges = b0 :: b1 :: t := by
  match edges, h with
  | b0 :: b1 :: t, _ => exact ⟨b0, b1, t, rfl⟩

/-- **C05: on exactly uniform bins** a bin is closed on the left: `edge_i <= x < edge_{i+1}` gives bin `i`. -/
theorem C05_uniform_left_closed (edges : List K) (hs : edges.Pairwise (· < ·)) (hu : Uniform edges)
    (x : K) (i : ℕ) (a b : K) (ha : edges[i]? = some a) (hb : edges[i+1]? = some b) (h1 : a ≤ x) (h2 : x < b) :
    getBinIndex edges x = .ok (i, true) := by
  have hlen : i + 1 < edges.length := (List.getElem?_eq_some_iff.1 hb).1
  obtain ⟨b0, b1, t, rfl⟩ := two_edges (edges := edges) (by omega)
  have hw : 0 < b1 - b0 := by
    rw [List.pairwise_cons] at hs; exact sub_pos.2 (hs.1 b1 (by simp))
  rw [lookup_uniform hs hu]
  have ea := uniform_edge hu ha
  have eb := uniform_edge hu hb
  have hidx : ⌊(x - b0) / (b1 - b0)⌋ = (i : ℤ) := by
    rw [Int.floor_eq_iff]
    constructor
    · rw [le_div_iff₀ hw]; push_cast; linarith
    · rw [div_lt_iff₀ hw]; push_cast at *; linarith
  simp only [hidx]
  rw [if_pos ⟨by omega, by omega⟩]
  simp

/-- **C05: on detectably non-uniform bins** a bin is closed on the right: `edge_i < x <= edge_{i+1}` gives bin `i`. -/
theorem C05_nonuniform_right_closed (edges : List K) (hs : edges.Pairwise (· < ·))
    (hd : DetectablyNonUniform edges)
    (x : K) (i : ℕ) (a b : K) (ha : edges[i]? = some a) (hb : edges[i+1]? = some b) (h1 : a < x) (h2 : x ≤ b) :
    getBinIndex edges x = .ok (i, true) := by
  have hlen : i + 1 < edges.length := (List.getElem?_eq_some_iff.1 hb).1
  obtain ⟨b0, b1, t, rfl⟩ := two_edges (edges := edges) (by omega)
  rw [lookup_nonuniform hd, searchsortedLeft_eq hs ha hb h1 h2]
  simp only
  rw [if_pos ⟨by omega, by omega⟩]
  simp

/-- **C05 (partial).** For strictly increasing edges that are exactly uniform or detectably non-uniform, a point
strictly inside bin `i` is looked up as bin `i`, in range; a point below the first or above the last
edge is flagged out of range. Missing: edges that are non-uniform by less than the `allclose` tolerance, where the
statement is false (`C05_tiny_bins_wrong`, `C05_near_uniform_wrong`). -/
theorem C05_bin_lookup_partial (edges : List K) (h2 : 2 ≤ edges.length) (hs : edges.Pairwise (· < ·))
    (hu : Uniform edges ∨ DetectablyNonUniform edges) (x : K) :
    (∀ i, Inside edges i x → getBinIndex edges x = .ok (i, true)) ∧
    ((∀ e ∈ edges, x < e) ∨ (∀ e ∈ edges, e < x) → getBinIndex edges x = .ok (0, false)) := by
  constructor
  · rintro i ⟨a, b, ha, hb, h1, h2⟩
    rcases hu with hu | hd
    · exact C05_uniform_left_closed edges hs hu x i a b ha hb h1.le h2
    · exact C05_nonuniform_right_closed edges hs hd x i a b ha hb h1 h2.le
  · intro hout
    obtain ⟨b0, b1, t, rfl⟩ := two_edges h2
    have hw : 0 < b1 - b0 := by
      rw [List.pairwise_cons] at hs; exact sub_pos.2 (hs.1 b1 (by simp))
    rcases hu with hu | hd
    · rw [lookup_uniform hs hu]
      simp only
      rw [if_neg]
      rintro ⟨g1, g2⟩
      rcases hout with hlo | hhi
      · have : (x - b0) / (b1 - b0) < 0 := div_neg_of_neg_of_pos (by linarith [hlo b0 (by simp)]) hw
        have := Int.floor_lt.2 (this.trans_eq Int.cast_zero.symm)
        omega
      · have hl : (t.length + 1) < (b0 :: b1 :: t).length := by simp
        have := uniform_edge hu (List.getElem?_eq_getElem hl)
        have h3 := hhi _ (List.getElem_mem hl)
        rw [this] at h3
        have h4 : ((t.length + 1 : ℕ) : ℤ) ≤ ⌊(x - b0) / (b1 - b0)⌋ := by
          rw [Int.le_floor, le_div_iff₀ hw]; push_cast at *; linarith
        simp at g2 h4; omega
    · rw [lookup_nonuniform hd]
      simp only
      rw [if_neg]
      rintro ⟨g1, g2⟩
      rcases hout with hlo | hhi
      · rw [searchsortedLeft_eq_zero rfl (hlo b0 (by simp)).le] at g1; omega
      · rw [searchsortedLeft_eq_length hhi] at g2; omega

/-- **C05: the index is always usable**: for *any* list of at least two numbers and any point, the lookup succeeds and
the returned index is a valid bin number. -/
theorem C05_index_valid (edges : List K) (h2 : 2 ≤ edges.length) (x : K) :
    ∃ i m, getBinIndex edges x = .ok (i, m) ∧ i < edges.length - 1 := by
  obtain ⟨b0, b1, t, rfl⟩ := two_edges h2
  obtain ⟨idx, hidx⟩ := exists_eq (a' := if allcloseScalar (binWidths (b0 :: b1 :: t)) (b1 - b0) = true then
    ⌊(x - b0) / (b1 - b0)⌋ else (searchsortedLeft (b0 :: b1 :: t) x : ℤ) - 1)
  rw [getBinIndex_cons b0 b1 t x idx hidx]
  split
  · next h =>
    refine ⟨_, _, rfl, ?_⟩
    have h1 := h.1
    have h2 := h.2
    omega
  · exact ⟨_, _, rfl, by simp⟩

/-- **C05 on exactly uniform bins, both directions**: a point is in bin `i` exactly when `edge_i <= x < edge_{i+1}`. -/
theorem C05_uniform_iff (edges : List K) (h2 : 2 ≤ edges.length) (hs : edges.Pairwise (· < ·)) (hu : Uniform edges) (x : K) (i : ℕ) :
    getBinIndex edges x = .ok (i, true) ↔ ∃ a b, edges[i]? = some a ∧ edges[i+1]? = some b ∧ a ≤ x ∧ x < b := by
  refine ⟨?_, fun ⟨a, b, ha, hb, h1, h2⟩ => C05_uniform_left_closed edges hs hu x i a b ha hb h1 h2⟩
  obtain ⟨b0, b1, t, rfl⟩ := two_edges h2
  have hw : 0 < b1 - b0 := by
    rw [List.pairwise_cons] at hs; exact sub_pos.2 (hs.1 b1 (by simp))
  rw [lookup_uniform hs hu]
  simp only
  split_ifs with hc
  · intro h
    simp only [Except.ok.injEq, Prod.mk.injEq, and_true] at h
    have hi : ⌊(x - b0) / (b1 - b0)⌋ = (i : ℤ) := by omega
    have hlen : i + 1 < (b0 :: b1 :: t).length := by omega
    have ga := List.getElem?_eq_getElem (show i < (b0 :: b1 :: t).length by omega)
    have gb := List.getElem?_eq_getElem hlen
    refine ⟨_, _, ga, gb, ?_, ?_⟩
    · rw [uniform_edge hu ga]
      have := (Int.floor_eq_iff.1 hi).1
      rw [le_div_iff₀ hw] at this
      push_cast at this
      linarith
    · rw [uniform_edge hu gb]
      have := (Int.floor_eq_iff.1 hi).2
      rw [div_lt_iff₀ hw] at this
      push_cast at this ⊢
      linarith
  · intro h; simp at h

/-- **C05 on detectably non-uniform bins, both directions**: a point is in bin `i` exactly when `edge_i < x <= edge_{i+1}`. -/
theorem C05_nonuniform_iff (edges : List K) (h2 : 2 ≤ edges.length) (hs : edges.Pairwise (· < ·)) (hd : DetectablyNonUniform edges) (x : K)
    (i : ℕ) : getBinIndex edges x = .ok (i, true) ↔ ∃ a b, edges[i]? = some a ∧ edges[i+1]? = some b ∧ a < x ∧ x ≤ b := by
  refine ⟨?_, fun ⟨a, b, ha, hb, h1, h2⟩ => C05_nonuniform_right_closed edges hs hd x i a b ha hb h1 h2⟩
  obtain ⟨b0, b1, t, rfl⟩ := two_edges h2
  rw [lookup_nonuniform hd]
  simp only
  split_ifs with hc
  · intro h
    simp only [Except.ok.injEq, Prod.mk.injEq, and_true] at h
    exact searchsortedLeft_bracket (by omega) (by omega)
  · intro h; simp at h

/-- **C05 is violated for tiny bins**: widths `1e-9` and `2e-9` pass for equal because of the absolute tolerance
`1e-8` in `np.allclose`; the point `2.5e-9`, well inside the second bin, is flagged out of range. -/
theorem C05_tiny_bins_wrong :
    ∃ (edges : List ℚ) (x : ℚ), edges.Pairwise (· < ·) ∧ Inside edges 1 x ∧
      getBinIndex edges x = .ok (0, false) := by
  refine ⟨[0, 1/1000000000, 3/1000000000], 5/2000000000, by decide +kernel, ?_, by decide +kernel⟩
  exact ⟨1/1000000000, 3/1000000000, rfl, rfl, by norm_num, by norm_num⟩

/-- **C05 is violated for nearly uniform bins of ordinary size**: widths `1, 1.00001, 0.99999`; the point `2.000005`
of bin 1 is looked up as bin 2. -/
theorem C05_near_uniform_wrong :
    ∃ (edges : List ℚ) (x : ℚ), edges.Pairwise (· < ·) ∧ Inside edges 1 x ∧
      getBinIndex edges x = .ok (2, true) := by
  refine ⟨[0, 1, 200001/100000, 3], 2000005/1000000, by decide +kernel, ?_, by decide +kernel⟩
  exact ⟨1, 200001/100000, rfl, rfl, by norm_num, by norm_num⟩

/-! non-vacuity -/
example : Uniform ([0, 1/2, 1, 3/2] : List ℚ) := by
  refine ⟨1/2, ?_⟩
  rintro (_ | _ | _ | _ | i) a b ha hb <;> simp at ha hb <;> subst ha hb <;> norm_num
example : DetectablyNonUniform ([0, 1, 3] : List ℚ) := ⟨0, 1, 1, 1, 3, rfl, rfl, rfl, rfl, by norm_num⟩
example : (getBinIndex ([0, 1, 3] : List ℚ) 2).toOption = some (1, true) := by decide +kernel
example : (getBinIndex ([0, 1/2, 1, 3/2] : List ℚ) 1).toOption = some (2, true) := by decide +kernel

end Verif.Props.Bins
