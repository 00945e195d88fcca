import Verif.Props.ConvertGrid

/-!
# C59: conversion through samples to a histogram
-/

set_option linter.unusedSectionVars false
set_option autoImplicit false

namespace Verif.Props.Convert

open Verif Verif.Np Verif.Model

variable {K : Type} [Field K] [LinearOrder K] [IsStrictOrderedRing K]

/-- a value is in bin `i`: bins contain their left edge, the last bin also its right edge -/
def InBin (bins : List K) (i : ℕ) (s : K) : Prop :=
  ∃ lo hi, bins[i]? = some lo ∧ bins[i + 1]? = some hi ∧ lo ≤ s ∧ (s < hi ∨ i + 2 = bins.length ∧ s = hi)

/-- the value lies between the first and the last edge -/
def InRange (bins : List K) (s : K) : Prop := ∃ lo hi, bins.head? = some lo ∧ bins.getLast? = some hi ∧ lo ≤ s ∧ s ≤ hi

theorem diff_sorted (bins : List K) : (Np.diff bins).any (· < 0) = false ↔ bins.Pairwise (· ≤ ·) := by
  induction bins with
  | nil => simp [Np.diff]
  | cons a l ih =>
    cases l with
    | nil => simp [Np.diff]
    | cons b l =>
      simp only [Np.diff, List.any_cons, Bool.or_eq_false_iff, ih]
      constructor
      · rintro ⟨h1, h2⟩
        have h1 : a ≤ b := by simpa using h1
        refine List.pairwise_cons.2 ⟨?_, h2⟩
        intro c hc
        rcases List.mem_cons.1 hc with rfl | hc
        · exact h1
        · exact h1.trans ((List.pairwise_cons.1 h2).1 c hc)
      · intro h
        have := List.pairwise_cons.1 h
        refine ⟨?_, this.2⟩
        simpa using this.1 b (by simp)

/-- **C59.** With non-decreasing edges, every value between the first and the last edge is in exactly one bin. -/
theorem C59_one_bin (bins : List K) (hs : bins.Pairwise (· ≤ ·)) (h2 : 2 ≤ bins.length) (s : K) (hr : InRange bins s) :
    ∃! i, InBin bins i s := by
  induction bins with
  | nil => simp at h2
  | cons a l ih =>
    match l, h2, hs, hr, ih with
    | [b], _, hs, hr, _ =>
      obtain ⟨lo, hi, h1, h2, h3, h4⟩ := hr
      simp at h1 h2
      subst h1 h2
      refine ⟨0, ⟨a, b, rfl, rfl, h3, ?_⟩, ?_⟩
      · rcases lt_or_eq_of_le h4 with h | h
        · exact Or.inl h
        · exact Or.inr ⟨rfl, h⟩
      · rintro j ⟨_, _, _, h6, _⟩
        match j with
        | 0 => rfl
        | j + 1 => simp at h6
    | b :: c :: l, _, hs, hr, ih =>
      have hs' := List.pairwise_cons.1 hs
      obtain ⟨lo, hi, h1, h2, h3, h4⟩ := hr
      obtain rfl : a = lo := by simpa using h1
      have succ : ∀ j, InBin (a :: b :: c :: l) (j + 1) s ↔ InBin (b :: c :: l) j s := by
        intro j
        unfold InBin
        simp only [List.getElem?_cons_succ, List.length_cons]
        constructor
        · rintro ⟨u, v, h5, h6, h7, h8⟩
          exact ⟨u, v, h5, h6, h7, h8.imp id (fun h => ⟨by omega, h.2⟩)⟩
        · rintro ⟨u, v, h5, h6, h7, h8⟩
          exact ⟨u, v, h5, h6, h7, h8.imp id (fun h => ⟨by omega, h.2⟩)⟩
      rcases lt_or_ge s b with hlt | hge
      · refine ⟨0, ⟨a, b, rfl, rfl, h3, Or.inl hlt⟩, ?_⟩
        intro j hj
        match j with
        | 0 => rfl
        | j + 1 =>
          obtain ⟨u, v, h5, _, h7, _⟩ := (succ j).1 hj
          exfalso
          have : b ≤ u := by
            rcases List.mem_cons.1 (List.mem_of_getElem? h5) with rfl | h
            · exact le_rfl
            · exact (List.pairwise_cons.1 hs'.2).1 u h
          exact absurd (this.trans h7) (not_le.2 hlt)
      · obtain ⟨i, hi1, hi2⟩ := ih hs'.2 (by simp) ⟨b, hi, rfl, by simpa using h2, hge, h4⟩
        refine ⟨i + 1, (succ i).2 hi1, ?_⟩
        intro j hj
        match j with
        | 0 =>
          exfalso
          obtain ⟨u, v, h5, h6, _, h8⟩ := hj
          simp at h5 h6
          subst h5 h6
          rcases h8 with h8 | ⟨h8, _⟩
          · exact absurd hge (not_le.2 h8)
          · simp at h8
        | j + 1 => rw [hi2 j ((succ j).1 hj)]

open Classical in
/-- **C59.** With non-decreasing edges every bin holds the number of sample values that are in it (so every value in range is counted
in exactly one bin, by `C59_one_bin`, and no other is counted); decreasing edges raise `ValueError`. -/
theorem C59_counts (bins sample : List K) :
    (bins.Pairwise (· ≤ ·) → ∃ cs, npHistogram bins sample = .ok cs ∧ cs.length = bins.length - 1 ∧
      ∀ (i : ℕ) (c : ℕ), cs[i]? = some c → c = sample.countP (fun s => InBin bins i s)) ∧
    (¬ bins.Pairwise (· ≤ ·) → npHistogram bins sample = .error .ValueError) := by
  constructor
  · intro hs
    unfold npHistogram
    rw [if_neg (by rw [(diff_sorted bins).2 hs]; simp)]
    refine ⟨_, rfl, by simp, ?_⟩
    intro i c hc
    rw [List.getElem?_map] at hc
    by_cases hi : i < bins.length - 1
    · rw [List.getElem?_range hi] at hc
      replace hc := (Option.some.inj hc).symm
      rw [hc]
      clear hc
      set lo := bins[i]'(by omega)
      set hi' := bins[i + 1]'(by omega)
      have hlo : bins[i]? = some lo := List.getElem?_eq_getElem (by omega)
      have hhi : bins[i + 1]? = some hi' := List.getElem?_eq_getElem (by omega)
      have hle : lo ≤ hi' := List.pairwise_iff_getElem.1 hs i (i + 1) (by omega) (by omega) (by omega)
      have e1 : (bins.dropLast.map (fun b => sample.countP (· < b)) ++ (bins.getLast?.map fun b => sample.countP (· ≤ b)).toList).getD i 0
          = sample.countP (· < lo) := by
        rw [List.getD_eq_getElem?_getD, List.getElem?_append_left (by simp; omega), List.getElem?_map, List.getElem?_dropLast, if_pos (by omega), hlo]
        rfl
      by_cases hl : i + 2 = bins.length
      · have e2 : (bins.dropLast.map (fun b => sample.countP (· < b)) ++ (bins.getLast?.map fun b => sample.countP (· ≤ b)).toList).getD (i + 1) 0
            = sample.countP (· ≤ hi') := by
          rw [List.getD_eq_getElem?_getD, List.getElem?_append_right (by simp; omega)]
          have : bins.getLast? = some hi' := by rw [List.getLast?_eq_getElem?, show bins.length - 1 = i + 1 by omega, hhi]
          rw [this, show i + 1 - (bins.dropLast.map (fun b => sample.countP (· < b))).length = 0 by simp; omega]
          rfl
        beta_reduce
        rw [e1, e2]
        clear e1 e2
        have key : sample.countP (· ≤ hi') = sample.countP (· < lo) + sample.countP (fun s => decide (InBin bins i s)) := by
          induction sample with
          | nil => rfl
          | cons s sample ih =>
            simp only [List.countP_cons, ih]
            have hb : InBin bins i s ↔ lo ≤ s ∧ s ≤ hi' := by
              unfold InBin
              constructor
              · rintro ⟨u, v, h1, h2, h3, h4⟩
                rw [hlo] at h1
                rw [hhi] at h2
                obtain rfl := Option.some.inj h1
                obtain rfl := Option.some.inj h2
                exact ⟨h3, h4.elim le_of_lt (fun h => h.2.le)⟩
              · rintro ⟨h1, h2⟩
                exact ⟨lo, hi', hlo, hhi, h1, (lt_or_eq_of_le h2).imp id fun h => ⟨hl, h⟩⟩
            simp only [hb, decide_eq_true_eq]
            by_cases h1 : s < lo
            · rw [if_pos (h1.le.trans hle), if_pos h1, if_neg (fun h => absurd h.1 (not_le.2 h1))]; omega
            · by_cases h2 : s ≤ hi'
              · rw [if_pos h2, if_neg h1, if_pos ⟨not_lt.1 h1, h2⟩]; omega
              · rw [if_neg h2, if_neg h1, if_neg (fun h => h2 h.2)]; omega
        omega
      · have e2 : (bins.dropLast.map (fun b => sample.countP (· < b)) ++ (bins.getLast?.map fun b => sample.countP (· ≤ b)).toList).getD (i + 1) 0
            = sample.countP (· < hi') := by
          rw [List.getD_eq_getElem?_getD, List.getElem?_append_left (by simp; omega), List.getElem?_map, List.getElem?_dropLast, if_pos (by omega), hhi]
          rfl
        beta_reduce
        rw [e1, e2]
        clear e1 e2
        have key : sample.countP (· < hi') = sample.countP (· < lo) + sample.countP (fun s => decide (InBin bins i s)) := by
          induction sample with
          | nil => rfl
          | cons s sample ih =>
            simp only [List.countP_cons, ih]
            have hb : InBin bins i s ↔ lo ≤ s ∧ s < hi' := by
              unfold InBin
              constructor
              · rintro ⟨u, v, h1, h2, h3, h4⟩
                rw [hlo] at h1
                rw [hhi] at h2
                obtain rfl := Option.some.inj h1
                obtain rfl := Option.some.inj h2
                exact ⟨h3, h4.elim id (fun h => absurd h.1 hl)⟩
              · rintro ⟨h1, h2⟩
                exact ⟨lo, hi', hlo, hhi, h1, Or.inl h2⟩
            simp only [hb, decide_eq_true_eq]
            by_cases h1 : s < lo
            · rw [if_pos (h1.trans_le hle), if_pos h1, if_neg (fun h => absurd h.1 (not_le.2 h1))]; omega
            · by_cases h2 : s < hi'
              · rw [if_pos h2, if_neg h1, if_pos ⟨not_lt.1 h1, h2⟩]; omega
              · rw [if_neg h2, if_neg h1, if_neg (fun h => h2 h.2)]; omega
        omega
    · rw [List.getElem?_eq_none (by simpa using hi)] at hc
      simp at hc
  · intro hs
    unfold npHistogram
    rw [if_pos]
    cases h : (Np.diff bins).any (· < 0) with
    | true => rfl
    | false => exact absurd ((diff_sorted bins).1 h) hs

/-- **C59 (partial), exact.** The conversion succeeds exactly when there is at least one PDF, at least one edge, the edges do not
decrease, and the number of PDFs is not equal to the number of bins - unless the number of samples per PDF is the same number, too.
The result then has the counts of `C59_counts` for each PDF. All failures are `ValueError`. -/
theorem C59_success_partial (bins : List K) (samples : List (List K)) (size : ℕ) :
    (bins ≠ [] ∧ samples ≠ [] ∧ bins.Pairwise (· ≤ ·) ∧ (samples.length = bins.length - 1 → size = bins.length - 1) →
      ∃ rows, histVectorize bins samples size = .ok rows ∧ List.Forall₂ (fun s r => npHistogram bins s = .ok r) samples rows) ∧
    (¬ (bins ≠ [] ∧ samples ≠ [] ∧ bins.Pairwise (· ≤ ·) ∧ (samples.length = bins.length - 1 → size = bins.length - 1)) →
      histVectorize bins samples size = .error .ValueError) := by
  unfold histVectorize
  constructor
  · rintro ⟨h1, h2, h3, h4⟩
    rw [if_neg h1, if_neg h2]
    have : ∃ rows, samples.mapM (npHistogram bins) = .ok rows := by
      have h : ∀ s, ∃ r, npHistogram bins s = .ok r := fun s => by
        obtain ⟨cs, h, -⟩ := (C59_counts bins s).1 h3
        exact ⟨cs, h⟩
      choose f hf using h
      exact ⟨_, Lemmas.mapM_ok_map _ f samples (fun s _ => hf s)⟩
    obtain ⟨rows, hr⟩ := this
    refine ⟨rows, ?_, (Lemmas.mapM_ok_iff _ _ _).1 hr⟩
    rw [hr]
    simp only [Bind.bind, Except.bind]
    rw [if_neg (fun h => h.2 (h4 h.1))]
  · intro h
    by_cases h1 : bins = []
    · rw [if_pos h1]
    · by_cases h2 : samples = []
      · rw [if_neg h1, if_pos h2]
      · rw [if_neg h1, if_neg h2]
        by_cases h3 : bins.Pairwise (· ≤ ·)
        · have h4 : samples.length = bins.length - 1 ∧ size ≠ bins.length - 1 := by
            by_contra hc
            exact h ⟨h1, h2, h3, fun hl => by by_contra hs; exact hc ⟨hl, hs⟩⟩
          have h : ∀ s, ∃ r, npHistogram bins s = .ok r := fun s => by
            obtain ⟨cs, h, -⟩ := (C59_counts bins s).1 h3
            exact ⟨cs, h⟩
          choose f hf using h
          rw [Lemmas.mapM_ok_map _ f samples (fun s _ => hf s)]
          simp only [Bind.bind, Except.bind]
          rw [if_pos h4]
        · cases samples with
          | nil => exact absurd rfl h2
          | cons s t =>
            rw [Lemmas.mapM_error_head _ _ _ _ ((C59_counts bins s).2 h3)]
            rfl

/-- **C59 is violated**: two PDFs with three samples each cannot be converted to two bins; with one bin, or with one PDF more, they can. -/
theorem C59_size_collision_wrong : ∃ (s : List ℚ), s.length = 3 ∧ histVectorize [0, 1, 2] [s, s] 3 = .error .ValueError ∧
    histVectorize [0, 2] [s, s] 3 = .ok [[3], [3]] ∧ histVectorize [0, 1, 2] [s, s, s] 3 = .ok [[1, 2], [1, 2], [1, 2]] :=
  ⟨[1 / 2, 1, 2], by decide, by decide +kernel, by decide +kernel, by decide +kernel⟩

/-- the shared edge 1 belongs to the second bin, the last edge to the last bin -/
example : ∃! i, InBin ([0, 1, 2] : List ℚ) i 1 := C59_one_bin _ (by decide +kernel) (by decide) 1 ⟨0, 2, rfl, rfl, by norm_num, by norm_num⟩
example : npHistogram ([0, 1, 2] : List ℚ) [1 / 2, 1, 2, 5] = .ok [1, 2] := by decide +kernel

end Verif.Props.Convert
