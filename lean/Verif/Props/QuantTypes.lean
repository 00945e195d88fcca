import Verif.Model.QuantTypes
import Verif.Model.QuantEval
import Verif.Props.Quant
import Verif.Props.SinglePrecision
import Verif.Props.AcceptMore

/-!
# C153: the element type of the probabilities and the locations of the quantiles
-/

set_option linter.unusedSectionVars false
set_option autoImplicit false

namespace Verif.Props.QuantTypes

open Verif Verif.Np Verif.Model Verif.Props.Quant Verif.Props.SinglePrecision Verif.Props.Accept

variable {K : Type} [Field K] [LinearOrder K] [IsStrictOrderedRing K]

/-- **C153, nothing to add.** If the probabilities start at (nearly) zero and end at one, or input is not checked, the constructor stores all locations as they
are, whatever the element type of the probabilities. -/
theorem C153_kept (store : K → K) (quants : List K) (locs : List (List K)) (hl : ∀ r ∈ locs, r.length = quants.length) :
    quantInitAs store quants locs false = .ok (quants, locs) ∧
    ∀ a b, quants.head? = some a → a ≤ 1 / 2 ^ 52 → quants.getLast? = some b → 1 ≤ b → quantInitAs store quants locs true = .ok (quants, locs) := by
  refine ⟨by simpa [quantInitAs] using hl, ?_⟩
  intro a b ha h0 hb h1
  have hne : quants ≠ [] := by rintro rfl; simp at ha
  have heps : (floatEps : K) = 1 / 2 ^ 52 := by norm_num [floatEps]
  have hp : ¬ Padded quants := by
    rintro (⟨x, hx, h⟩ | ⟨x, hx, h⟩)
    · rw [ha] at hx
      obtain rfl := Option.some.inj hx
      rw [heps] at h
      exact absurd h0 (not_le.2 h)
    · rw [hb] at hx
      obtain rfl := Option.some.inj hx
      exact absurd h1 (not_le.2 h)
  simpa [quantInitAs, padQuantilesAs, Verif.Props.Accept.pad_none quants hne hp locs] using hl

/-- **C153, exactly.** Probabilities that have to be completed at an end (`store` leaves them, zero and one as they are: they are of their own type). The constructor stores
the completed probabilities; every location, given or added, is stored as `store` converts it. -/
theorem C153_typed (store : K → K) (quants : List K) (locs : List (List K)) (h : QuantData quants locs) (hpad : Padded quants) (hs : ∀ q ∈ quants, store q = q)
    (hs0 : store 0 = 0) (hs1 : store 1 = 1) :
    ∃ qs ls k, quantInit quants locs true = .ok (qs, ls) ∧ quantInitAs store quants locs true = .ok (qs, ls.map fun r => r.map store) ∧
      (qs.drop k).take quants.length = quants ∧ ∀ (i : ℕ) r, locs[i]? = some r → ∃ r', ls[i]? = some r' ∧ r'.length = qs.length ∧ (r'.drop k).take quants.length = r := by
  obtain ⟨qs, ls, k, h1, -, -, -, -, h2, -, h3, h4, -⟩ := C18_padding quants locs h
  obtain ⟨q', ls', e1, e2, -, e4⟩ := pad_some quants h.two hpad locs fun r hr => (h.rows r hr).1
  rw [h1] at e1
  obtain ⟨rfl, rfl⟩ := Prod.mk.inj (Except.ok.inj e1)
  have hq : qs.map store = qs := by
    have hmem : ∀ v ∈ qs, store v = v := by
      unfold padQuantiles at h1
      have hne : quants ≠ [] := by intro h0; have := h.two; simp [h0] at this
      rw [List.head?_eq_some_head hne, List.getLast?_eq_some_getLast hne] at h1
      simp only at h1
      split_ifs at h1
      · obtain ⟨rfl, -⟩ := Prod.mk.inj (Except.ok.inj h1)
        exact hs
      all_goals
        split at h1
        · cases h1
        · obtain ⟨rfl, -⟩ := Prod.mk.inj (Except.ok.inj h1)
          intro v hv
          simp only [List.mem_append, List.mem_cons, List.not_mem_nil, or_false, false_or] at hv
          grind
    conv_rhs => rw [← List.map_id qs]
    exact List.map_congr_left hmem
  refine ⟨qs, ls, k, ?_, ?_, h2, fun i r hr => ?_⟩
  · simpa [quantInit, h1] using e4
  · have hlen : qs.length ≠ quants.length := by omega
    have hany : ((ls.map fun r => r.map store).any fun r => decide (r.length ≠ qs.length)) = false := by
      rw [List.any_eq_false]
      intro r hr
      obtain ⟨r0, hr0, rfl⟩ := List.mem_map.1 hr
      simp [e4 r0 hr0]
    simp only [quantInitAs, padQuantilesAs, h1, if_true, if_neg hlen, hq, hany]
    simp
  · obtain ⟨r', a1, a2, -, a4⟩ := h4 i r hr
    exact ⟨r', a1, a2, a4⟩

section
variable [FloorRing K]

/-- **C153, single precision (partial).** Double-precision locations given with single-precision probabilities that have to be completed: the stored locations are off by a relative `2⁻²⁴` (plus
`2⁻¹⁵⁰`), stay in order, and are what the quantile function returns at the probabilities, for every interpolation that passes through its points. What is missing: the locations themselves are
not kept, although both arrays are accepted and with 0 and 1 among the probabilities they would be (`C153_kept`); close ones become equal (`C153_coincide`). -/
theorem C153_single_partial (quants : List K) (locs : List (List K)) (h : QuantData quants locs) (hpad : Padded quants) (hs : ∀ q ∈ quants, single q = q)
    (h0 : single (0 : K) = 0) (h1 : single (1 : K) = 1) :
    ∃ qs ls k, quantInitAs single quants locs true = .ok (qs, ls) ∧ qs.Pairwise (· < ·) ∧ (qs.drop k).take quants.length = quants ∧
      ∀ (i : ℕ) r, locs[i]? = some r → ∃ r', ls[i]? = some r' ∧ r'.length = qs.length ∧ r'.Pairwise (· ≤ ·) ∧
        (∀ (j : ℕ) q l, quants[j]? = some q → r[j]? = some l → ∃ l', r'[k + j]? = some l' ∧ |l' - l| ≤ max (|l| / 2 ^ 24) (1 / 2 ^ 150) ∧
          ∀ (spl : List (K × K) → K → K) lo hi, (∀ p ∈ qs.zip r', spl (qs.zip r') p.1 = p.2) → quantPpf spl lo hi qs r' q = some l') := by
  obtain ⟨qs, ls, k, a1, a2, a3, a4⟩ := C153_typed single quants locs h hpad hs h0 h1
  obtain ⟨qs', ls', k', b1, b2, -, -, -, -, -, -, b4, -⟩ := C18_padding quants locs h
  have hqq : qs = qs' ∧ ls = ls' := by
    simp only [quantInit, if_true, b1] at a1
    split_ifs at a1
    · simp only [Except.ok.injEq, Prod.mk.injEq] at a1
      exact ⟨a1.1.symm, a1.2.symm⟩
  obtain ⟨rfl, rfl⟩ := hqq
  refine ⟨qs, _, k, a2, b2, a3, fun i r hr => ?_⟩
  obtain ⟨r', c1, c2, c3⟩ := a4 i r hr
  obtain ⟨r'', d1, d2, d3, -⟩ := b4 i r hr
  rw [c1] at d1
  obtain rfl := Option.some.inj d1
  obtain ⟨f1, f2, -⟩ := C125_locations_partial r' (d3.imp le_of_lt)
  refine ⟨r'.map single, by simp [c1], by simp [c2], f1, fun j q l hq hl => ?_⟩
  have hl' : r'[k + j]? = some l := by
    have hj : j < quants.length := (List.getElem?_eq_some_iff.1 hq).1
    rw [← c3, List.getElem?_take_of_lt hj, List.getElem?_drop] at hl
    exact hl
  have hq' : qs[k + j]? = some q := by
    have hj : j < quants.length := (List.getElem?_eq_some_iff.1 hq).1
    rw [← a3, List.getElem?_take_of_lt hj, List.getElem?_drop] at hq
    exact hq
  refine ⟨single l, by simp [hl'], f2 l (List.mem_of_getElem? hl'), fun spl lo hi hspl => ?_⟩
  have hmem : (q, single l) ∈ qs.zip (r'.map single) := by
    apply List.mem_of_getElem? (i := k + j)
    rw [List.getElem?_zip_eq_some]
    exact ⟨hq', by simp [hl']⟩
  have hqm := List.mem_of_getElem? hq'
  cases qs with
  | nil => simp at hqm
  | cons a t =>
    unfold quantPpf
    have g1 : ¬ q < a := by
      rw [not_lt]
      rcases List.mem_cons.1 hqm with rfl | hm
      · exact le_rfl
      · exact ((List.pairwise_cons.1 b2).1 q hm).le
    have g2 : ¬ (a :: t).getLast (by simp) < q := by
      rw [not_lt]
      exact (b2.imp le_of_lt).rel_getLast hqm
    simp only [if_neg g1, if_neg g2]
    exact congrArg some (hspl _ hmem)

end

/-- **C153 is violated**: three different locations (dates, in days) given in double precision with the probabilities 1/4, 1/2, 3/4 in single precision are all stored as 59000; with double-precision
probabilities they stay, and with the probabilities 0, 1/2, 1 in single precision they stay as well. -/
theorem C153_coincide :
    quantInitAs (K := ℚ) single [1 / 4, 1 / 2, 3 / 4] [[118000001 / 2000, 590000010 / 10000, 118000003 / 2000]] true =
      .ok ([0, 1 / 4, 1 / 2, 3 / 4, 1], [[59000, 59000, 59000, 59000, 59000 + 1 / 256]]) ∧
    quantInitAs (K := ℚ) id [1 / 4, 1 / 2, 3 / 4] [[118000001 / 2000, 590000010 / 10000, 118000003 / 2000]] true =
      .ok ([0, 1 / 4, 1 / 2, 3 / 4, 1], [[59000, 118000001 / 2000, 590000010 / 10000, 118000003 / 2000, 59000 + 2 / 1000]]) ∧
    quantInitAs (K := ℚ) single [0, 1 / 2, 1] [[118000001 / 2000, 590000010 / 10000, 118000003 / 2000]] true =
      .ok ([0, 1 / 2, 1], [[118000001 / 2000, 590000010 / 10000, 118000003 / 2000]]) := by
  refine ⟨by decide +kernel, by decide +kernel, by decide +kernel⟩

/-- the hypotheses of `C153_single_partial` are met -/
example : ∃ qs ls, quantInitAs (K := ℚ) single [1 / 4, 3 / 4] [[1 / 3, 2 / 3]] true = .ok (qs, ls) := by
  obtain ⟨qs, ls, k, h, -⟩ := C153_single_partial (K := ℚ) [1 / 4, 3 / 4] [[1 / 3, 2 / 3]] ⟨by decide +kernel, by simp, by decide +kernel, by decide +kernel⟩
    (Or.inl ⟨1 / 4, by simp, by decide +kernel⟩) (by decide +kernel) (by decide +kernel) (by decide +kernel)
  exact ⟨qs, ls, h⟩

end Verif.Props.QuantTypes
