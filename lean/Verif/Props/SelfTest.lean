import Verif.Model.SelfTest
import Verif.Props.Convert
import Mathlib.Tactic.NormNum

/-!
# C157: what the generic tests of a distribution class establish
-/

set_option linter.unusedSectionVars false
set_option autoImplicit false

namespace Verif.Props.SelfTest

open Verif Verif.Model

variable {K : Type} [Field K] [LinearOrder K] [IsStrictOrderedRing K]

/-! ## Specification -/

/-- two numbers, neither of them `nan`, that differ by at most `tol` -/
def Agree (tol : K) (u v : Option K) : Prop := ∃ a b, u = some a ∧ v = some b ∧ |a - b| ≤ tol

/-- the area under the broken line through the values `p` from the first point of `xs` to point `j` -/
def areaUpTo (xs : List K) (p : ℕ → K) (j : ℕ) : K := ∑ k ∈ Finset.range j, (p k + p (k + 1)) * (xs.getD (k + 1) 0 - xs.getD k 0) / 2

/-- the probabilities `0.01, 0.03, ..., 0.99` -/
def quantOf (k : ℕ) : K := (2 * k + 1) / 100

/-- the density and the distribution function at the points `xs` fit together: the trapezoid rule up to every point but the first gives the
distribution function there up to one fifth -/
def CdfFits (xs : List K) (n : ℕ) (P C : Vals K) : Prop :=
  ∀ i < n, ∀ (j : ℕ), 1 ≤ j → j < xs.length → ∃ (p : ℕ → K) (c : K), (∀ k ≤ j, P i k = some (p k)) ∧ C i j = some c ∧ |areaUpTo xs p j - c| ≤ 1 / 5

/-! ## Proofs -/

theorem bind_unit (x y : Except Err Unit) : (x >>= fun _ => y) = .ok () ↔ x = .ok () ∧ y = .ok () := by
  cases x with
  | error e => simp [bind, Except.bind]
  | ok u => simp [bind, Except.bind]

theorem bind_some {α : Type} (x : Except Err α) (f : α → Except Err Unit) : (x >>= f) = .ok () ↔ ∃ a, x = .ok a ∧ f a = .ok () := by
  cases x with
  | error e => simp [bind, Except.bind]
  | ok u => simp [bind, Except.bind]

theorem ok_bind {α : Type} (a : α) (f : α → Except Err Unit) : ((Except.ok a : Except Err α) >>= f) = f a := rfl

theorem assertAllSmall_ok (tol : K) (n m : ℕ) (arr : Vals K) :
    assertAllSmall tol n m arr = .ok () ↔ ∀ i < n, ∀ j < m, ∃ a, arr i j = some a ∧ |a| ≤ tol := by
  unfold assertAllSmall
  have h : ∀ v : Option K, isSmall tol v = true ↔ ∃ a, v = some a ∧ |a| ≤ tol := by
    intro v; cases v <;> simp [isSmall]
  split_ifs with hc
  · simp only [List.all_eq_true, List.mem_range, h] at hc
    simpa using hc
  · simp only [List.all_eq_true, List.mem_range, h] at hc
    simpa using hc

theorem nanSub_small (tol : K) (u v : Option K) : (∃ a, nanSub u v = some a ∧ |a| ≤ tol) ↔ Agree tol u v := by
  unfold Agree
  cases u <;> cases v <;> simp [nanSub]

theorem trapTerm_some (xs : List K) (f : ℕ → Option K) (k : ℕ) (a : K) :
    trapTerm xs f k = some a ↔ ∃ u v, f k = some u ∧ f (k + 1) = some v ∧ a = (u + v) * (xs.getD (k + 1) 0 - xs.getD k 0) / 2 := by
  unfold trapTerm
  cases f k <;> cases f (k + 1) <;> simp [nanAdd, eq_comm]

theorem cumTrap_some (xs : List K) (f : ℕ → Option K) (j : ℕ) (a : K) :
    cumTrap xs f j = some a ↔ ∃ p : ℕ → K, (∀ k ≤ j + 1, f k = some (p k)) ∧ a = areaUpTo xs p (j + 1) := by
  induction j generalizing a with
  | zero =>
    rw [cumTrap, trapTerm_some]
    constructor
    · rintro ⟨u, v, h1, h2, rfl⟩
      refine ⟨fun k => if k = 0 then u else v, ?_, by simp [areaUpTo]⟩
      intro k hk
      rcases Nat.eq_zero_or_pos k with rfl | hk'
      · simpa using h1
      · obtain rfl : k = 1 := by omega
        simpa using h2
    · rintro ⟨p, hp, rfl⟩
      exact ⟨_, _, hp 0 (by omega), hp 1 (by omega), by simp [areaUpTo]⟩
  | succ j ih =>
    rw [cumTrap]
    constructor
    · intro h
      match hc : cumTrap xs f j, ht : trapTerm xs f (j + 1), h with
      | some b, some c, h =>
        simp only [nanAdd, Option.some.injEq] at h
        obtain ⟨p, hp, rfl⟩ := (ih b).1 hc
        obtain ⟨u, v, hu, hv, rfl⟩ := (trapTerm_some xs f (j + 1) c).1 ht
        have hpu : p (j + 1) = u := by have := hp (j + 1) le_rfl; rw [hu] at this; exact (Option.some.inj this).symm
        refine ⟨fun k => if k ≤ j + 1 then p k else v, ?_, ?_⟩
        · intro k hk
          by_cases hk' : k ≤ j + 1
          · simp only [hk', if_true]; exact hp k hk'
          · obtain rfl : k = j + 1 + 1 := by omega
            simpa using hv
        · have e1 : areaUpTo xs (fun k => if k ≤ j + 1 then p k else v) (j + 1) = areaUpTo xs p (j + 1) := by
            unfold areaUpTo
            refine Finset.sum_congr rfl fun k hk => ?_
            rw [Finset.mem_range] at hk
            simp only [show k ≤ j + 1 by omega, show k + 1 ≤ j + 1 by omega, if_true]
          have e2 : areaUpTo xs (fun k => if k ≤ j + 1 then p k else v) (j + 1 + 1) =
              areaUpTo xs (fun k => if k ≤ j + 1 then p k else v) (j + 1) + (u + v) * (xs.getD (j + 1 + 1) 0 - xs.getD (j + 1) 0) / 2 := by
            rw [areaUpTo, Finset.sum_range_succ, ← areaUpTo]
            simp [hpu]
          rw [e2, e1, h]
      | none, _, h => simp [nanAdd] at h
      | some b, none, h => simp [nanAdd] at h
    · rintro ⟨p, hp, rfl⟩
      have h1 := (ih _).2 ⟨p, fun k hk => hp k (by omega), rfl⟩
      have h2 := (trapTerm_some xs f (j + 1) _).2 ⟨_, _, hp (j + 1) (by omega), hp (j + 1 + 1) le_rfl, rfl⟩
      rw [h1, h2, nanAdd, areaUpTo, areaUpTo, Finset.sum_range_succ _ (j + 1)]

theorem selfQuants_get (k : ℕ) (hk : k < 50) : (selfQuants (K := K))[k]? = some (quantOf k) := by
  unfold selfQuants
  rw [Np.getElem?_linspace _ _ _ (by norm_num) _ hk]
  unfold quantOf
  congr 1
  norm_num
  ring

theorem selfQuants_rev (k : ℕ) (hk : k < 50) : (selfQuants (K := K)).reverse[k]? = some (1 - quantOf k) := by
  have hl : (selfQuants (K := K)).length = 50 := Np.length_linspace _ _ _
  rw [List.getElem?_reverse (by omega), hl, selfQuants_get _ (by omega)]
  unfold quantOf
  congr 1
  rw [show 50 - 1 - k = 49 - k by omega, Nat.cast_sub (by omega)]
  push_cast
  ring

theorem cdfStage_ok (t : Tested K) (xs : List K) (P C : Vals K) : cdfStage t xs P C = .ok () ↔ CdfFits xs t.shape.prod P C := by
  unfold cdfStage CdfFits
  rw [assertAllSmall_ok]
  simp only [nanSub_small]
  constructor
  · intro h i hi j hj1 hj2
    obtain ⟨a, b, h1, h2, h3⟩ := h i hi (j - 1) (by omega)
    obtain ⟨p, hp, rfl⟩ := (cumTrap_some xs (P i) (j - 1) a).1 h1
    rw [show j - 1 + 1 = j by omega] at hp h2 h3
    exact ⟨p, b, hp, h2, h3⟩
  · intro h i hi j hj
    obtain ⟨p, c, h1, h2, h3⟩ := h i hi (j + 1) (by omega) (by omega)
    exact ⟨_, c, (cumTrap_some xs (P i) j _).2 ⟨p, h1, rfl⟩, h2, h3⟩

theorem propsStage_ok (t : Tested K) (keys : List String) (cp : Bool) :
    propsStage t keys cp = .ok () ↔
      (cp = true → ∀ k ∈ keys, k ∈ t.kwds ∨ k ∈ t.attrs) ∧ (∀ m, t.distNpdf = some m → m = t.shape.prod) ∧ t.shape.getLast? = some 11 := by
  unfold propsStage
  have e1 : (cp && !(keys.all fun k => t.kwds.contains k || t.attrs.contains k)) = true ↔ ¬ (cp = true → ∀ k ∈ keys, k ∈ t.kwds ∨ k ∈ t.attrs) := by
    cases cp <;> simp
  have e2 : t.distNpdf.any (· != t.shape.prod) = true ↔ ¬ (∀ m, t.distNpdf = some m → m = t.shape.prod) := by
    cases t.distNpdf <;> simp
  split_ifs with h1 h2
  · rw [e1] at h1; simp [h1]
  · rw [e2] at h2; simp [h2]
  · rw [e1, not_not] at h1
    rw [e2, not_not] at h2
    cases hl : t.shape.getLast? with
    | none => simp
    | some l =>
      simp only [selfNpdf, Option.some.injEq]
      split_ifs with h3
      · exact ⟨fun _ => ⟨h1, h2, h3⟩, fun _ => if_pos h3⟩
      · simp [h3]

/-- the first comparison of the quantiles -/
def QuantFits (n : ℕ) (B : Vals K) : Prop := ∀ i < n, ∀ k < 50, Agree (1 / 50) (B i k) (some (quantOf k))

theorem quantFits_ok (n : ℕ) (B : Vals K) :
    assertAllSmall (1 / 50) n 50 (fun i k => nanSub (B i k) (selfQuants[k]?)) = .ok () ↔ QuantFits n B := by
  rw [assertAllSmall_ok]
  simp only [nanSub_small]
  constructor
  · intro h i hi k hk
    have := h i hi k hk
    rwa [selfQuants_get k hk] at this
  · intro h i hi k hk
    rw [selfQuants_get k hk]
    exact h i hi k hk

/-- the comparison labelled `isf` repeats the one of the quantiles with a larger tolerance -/
theorem isf_check_implied (n : ℕ) (B : Vals K) (h : QuantFits n B) :
    assertAllSmall (1 / 20) n 50 (fun i k => nanSub (nanAdd (B i k) (selfQuants.reverse[k]?)) (some 1)) = .ok () := by
  rw [assertAllSmall_ok]
  intro i hi k hk
  obtain ⟨a, b, h1, h2, h3⟩ := h i hi k hk
  rw [h1, selfQuants_rev k hk]
  obtain rfl : quantOf k = b := Option.some.inj h2
  refine ⟨_, rfl, ?_⟩
  have e : a + (1 - quantOf k) - 1 = a - quantOf k := by ring
  rw [e]
  have : (1 : K) / 50 ≤ 1 / 20 := by norm_num
  linarith

/-- the survival function and the distribution function add up to one -/
def SfFits (xs : List K) (n : ℕ) (S C : Vals K) : Prop :=
  ∀ i < n, ∀ j < xs.length, ∃ s c, S i j = some s ∧ C i j = some c ∧ |s + c - 1| ≤ 1 / 100000

theorem sfFits_ok (xs : List K) (n : ℕ) (S C : Vals K) :
    assertAllSmall (1 / 100000) n xs.length (fun i j => nanSub (nanAdd (S i j) (C i j)) (some 1)) = .ok () ↔ SfFits xs n S C := by
  rw [assertAllSmall_ok]
  unfold SfFits
  constructor
  · intro h i hi j hj
    obtain ⟨a, h1, h2⟩ := h i hi j hj
    match hs : S i j, hc : C i j, h1 with
    | some s, some c, h1 =>
      simp only [nanAdd, nanSub, Option.some.injEq] at h1
      exact ⟨s, c, rfl, rfl, by rw [h1]; exact h2⟩
    | none, _, h1 => simp [nanAdd, nanSub] at h1
    | some s, none, h1 => simp [nanAdd, nanSub] at h1
  · intro h i hi j hj
    obtain ⟨s, c, h1, h2, h3⟩ := h i hi j hj
    rw [h1, h2]
    exact ⟨_, rfl, h3⟩

/-- **C157 (partial).** The generic test of eleven PDFs, none of whose evaluations raises, accepts exactly if: the arguments of the constructor are kept, the class
counts eleven PDFs, there are at least eleven points, densities at single points and at one point per PDF agree with those on the grid (up to 0.02), the trapezoid rule
agrees with the CDF at all points but the first (up to 0.2), the CDF of the quantiles is the probability (up to 0.02), survival function and CDF add up to
one (up to 0.00001). Missing: that the relations between all functions are verified; `isf` does not occur (`C157_isf_unchecked`), and densities that are wrong by a
factor are accepted (`C157_scaled_density`). -/
theorem C157_accepts_iff_partial (t : Tested K) (hn : t.shape = [11]) (xpts : List K) (keys : List String) (cp : Bool)
    (P C Q B S I : Vals K) (A E q b : ℕ → Option K) (hP : t.pdf xpts = .ok P) (hA : ∀ x, xpts[5]? = some x → t.pdfAt x = .ok A)
    (hE : t.pdfEach (xpts.take 11) = .ok E) (hC : t.cdf xpts = .ok C) (hQ : t.ppf selfQuants = .ok Q) (hB : t.cdfOf Q = .ok B)
    (hq : t.ppfEach (selfQuants.take 11) = .ok q) (hb : t.cdfEach q = .ok b) (hS : t.sf xpts = .ok S) (hI : t.isf selfQuants = .ok I) :
    pdfFuncTests t xpts keys false cp = .ok () ↔
      (cp = true → ∀ k ∈ keys, k ∈ t.kwds ∨ k ∈ t.attrs) ∧ (∀ m, t.distNpdf = some m → m = 11) ∧ 11 ≤ xpts.length ∧
      (∀ i < 11, Agree (1 / 50) (P i 5) (A i)) ∧ (∀ i < 11, Agree (1 / 50) (P i i) (E i)) ∧ CdfFits xpts 11 P C ∧
      QuantFits 11 B ∧ (∀ i < 11, Agree (1 / 50) (b i) (some (quantOf i))) ∧ SfFits xpts 11 S C := by
  have hprod : t.shape.prod = 11 := by rw [hn]; rfl
  have hlen : t.shape.length = 1 := by rw [hn]; rfl
  have hslice : sliceStage t xpts P = .ok () ↔ 11 ≤ xpts.length ∧ (∀ i < 11, Agree (1 / 50) (P i 5) (A i)) ∧ (∀ i < 11, Agree (1 / 50) (P i i) (E i)) := by
    unfold sliceStage
    cases hx : xpts[5]? with
    | none =>
      have : xpts.length ≤ 5 := List.getElem?_eq_none_iff.1 hx
      simp; omega
    | some x5 =>
      simp only [hA x5 hx, hprod]
      rw [bind_some]
      simp only [Except.ok.injEq, exists_eq_left', bind_unit, assertAllSmall_ok, nanSub_small]
      by_cases hl : xpts.length < 11
      · simp [hl]
      · rw [if_neg hl, hE, bind_some]
        simp only [Except.ok.injEq, exists_eq_left', assertAllSmall_ok, nanSub_small]
        constructor
        · rintro ⟨h1, h2⟩
          exact ⟨by omega, fun i hi => h1 i hi 0 (by omega), fun i hi => h2 i hi 0 (by omega)⟩
        · rintro ⟨-, h1, h2⟩
          exact ⟨fun i hi _ _ => h1 i hi, fun i hi _ _ => h2 i hi⟩
  have hppf : ppfStage t B = .ok () ↔ QuantFits 11 B ∧ ∀ i < 11, Agree (1 / 50) (b i) (some (quantOf i)) := by
    unfold ppfStage
    rw [bind_unit, hprod, quantFits_ok, if_pos hlen, if_neg (by norm_num), hq, bind_some]
    simp only [Except.ok.injEq, exists_eq_left', hb]
    rw [bind_some]
    simp only [Except.ok.injEq, exists_eq_left', assertAllSmall_ok, nanSub_small]
    refine and_congr_right fun _ => ?_
    constructor
    · intro h i hi
      have := h i hi 0 (by omega)
      rwa [selfQuants_get i (by omega)] at this
    · intro h i hi _ _
      rw [selfQuants_get i (by omega)]
      exact h i hi
  have hsf : QuantFits 11 B → (sfStage t xpts C B = .ok () ↔ SfFits xpts 11 S C) := by
    intro hqf
    unfold sfStage
    rw [hS, bind_some]
    simp only [Except.ok.injEq, exists_eq_left', hprod, hI]
    rw [bind_unit, sfFits_ok, bind_some]
    simp only [Except.ok.injEq, isf_check_implied 11 B hqf, and_true, exists_eq']
  unfold pdfFuncTests longStage
  rw [bind_unit, propsStage_ok, hprod, if_neg (by omega), hP, bind_some]
  simp only [Except.ok.injEq, exists_eq_left', if_pos hlen, bind_unit, Bool.false_eq_true, if_false]
  rw [hslice, hC, bind_some]
  simp only [Except.ok.injEq, exists_eq_left', bind_unit]
  rw [cdfStage_ok, hprod, hQ, bind_some]
  simp only [Except.ok.injEq, exists_eq_left']
  rw [hB, bind_some]
  simp only [Except.ok.injEq, exists_eq_left', bind_unit]
  rw [hppf]
  have hlast : t.shape.getLast? = some 11 := by rw [hn]; rfl
  constructor
  · rintro ⟨⟨h1, h2, -⟩, ⟨h3, h4, h5⟩, h6, ⟨h7, h8⟩, h9⟩
    exact ⟨h1, h2, h3, h4, h5, h6, h7, h8, (hsf h7).1 h9⟩
  · rintro ⟨h1, h2, h3, h4, h5, h6, h7, h8, h9⟩
    exact ⟨⟨h1, h2, hlast⟩, ⟨h3, h4, h5⟩, h6, ⟨h7, h8⟩, (hsf h7).2 h9⟩

/-- **C157: what an accepted class guarantees**, for one or two indices and all points. No evaluation raised, there are eleven PDFs along the last axis, and
the functions fit together at the points and probabilities of the test. -/
theorem C157_accepted (t : Tested K) (xpts : List K) (keys : List String) (cp : Bool) (h : pdfFuncTests t xpts keys false cp = .ok ()) :
    t.shape.getLast? = some 11 ∧ (∀ m, t.distNpdf = some m → m = t.shape.prod) ∧
    ∃ P C Q B S I, t.pdf xpts = .ok P ∧ t.cdf xpts = .ok C ∧ t.ppf selfQuants = .ok Q ∧ t.cdfOf Q = .ok B ∧ t.sf xpts = .ok S ∧ t.isf selfQuants = .ok I ∧
      CdfFits xpts t.shape.prod P C ∧ QuantFits t.shape.prod B ∧ SfFits xpts t.shape.prod S C := by
  unfold pdfFuncTests longStage at h
  rw [bind_unit, propsStage_ok] at h
  obtain ⟨⟨-, h2, h3⟩, h⟩ := h
  by_cases hl : 2 < t.shape.length
  · rw [if_pos hl] at h; simp at h
  rw [if_neg hl, bind_some] at h
  obtain ⟨P, hP, h⟩ := h
  simp only [bind_unit, Bool.false_eq_true, if_false] at h
  obtain ⟨-, h⟩ := h
  rw [bind_some] at h
  obtain ⟨C, hC, h⟩ := h
  rw [bind_unit, cdfStage_ok, bind_some] at h
  obtain ⟨h4, Q, hQ, h⟩ := h
  rw [bind_some] at h
  obtain ⟨B, hB, h⟩ := h
  rw [bind_unit] at h
  obtain ⟨h5, h6⟩ := h
  unfold ppfStage at h5
  rw [bind_unit, quantFits_ok] at h5
  unfold sfStage at h6
  rw [bind_some] at h6
  obtain ⟨S, hS, h6⟩ := h6
  rw [bind_unit, sfFits_ok, bind_some] at h6
  obtain ⟨h7, I, hI, -⟩ := h6
  exact ⟨h3, h2, P, C, Q, B, S, I, hP, hC, hQ, hB, hS, hI, h4, h5.1, h7⟩

/-- **C157: `isf` is not tested.** Two classes that differ in `isf` only, both without raising, are accepted or refused alike. -/
theorem C157_isf_unchecked (t : Tested K) (f g : List K → Except Err (Vals K)) (I J : Vals K) (hf : f selfQuants = .ok I) (hg : g selfQuants = .ok J)
    (xpts : List K) (keys : List String) (short cp : Bool) :
    pdfFuncTests { t with isf := f } xpts keys short cp = pdfFuncTests { t with isf := g } xpts keys short cp := by
  have h : ∀ C B, sfStage { t with isf := f } xpts C B = sfStage { t with isf := g } xpts C B := by
    intro C B
    unfold sfStage
    simp only [hf, hg]
    rfl
  unfold pdfFuncTests longStage
  simp only [h]
  rfl

/-- the same class with all densities multiplied by `s` -/
def scaled (s : K) (t : Tested K) : Tested K :=
  { t with
    pdf := fun xs => (t.pdf xs).map fun v i j => (v i j).map (s * ·)
    pdfAt := fun x => (t.pdfAt x).map fun v i => (v i).map (s * ·)
    pdfEach := fun xs => (t.pdfEach xs).map fun v i => (v i).map (s * ·) }

/-- **C157: densities that are wrong by a fifth are accepted.** If eleven PDFs are accepted and their densities and distribution functions are exactly consistent, then
they are accepted also with all densities multiplied by a number between 0.8 and 1.2. -/
theorem C157_scaled_density (t : Tested K) (hn : t.shape = [11]) (xpts : List K) (keys : List String) (cp : Bool)
    (p c : ℕ → ℕ → K) (hP : t.pdf xpts = .ok fun i j => some (p i j)) (hA : ∀ x, xpts[5]? = some x → t.pdfAt x = .ok fun i => some (p i 5))
    (hE : t.pdfEach (xpts.take 11) = .ok fun i => some (p i i)) (hC : t.cdf xpts = .ok fun i j => some (c i j))
    (Q B S I : Vals K) (q b : ℕ → Option K) (hQ : t.ppf selfQuants = .ok Q) (hB : t.cdfOf Q = .ok B)
    (hq : t.ppfEach (selfQuants.take 11) = .ok q) (hb : t.cdfEach q = .ok b) (hS : t.sf xpts = .ok S) (hI : t.isf selfQuants = .ok I)
    (hex : ∀ i < 11, ∀ j, 1 ≤ j → j < xpts.length → c i j = areaUpTo xpts (p i) j ∧ 0 ≤ c i j ∧ c i j ≤ 1)
    (hok : pdfFuncTests t xpts keys false cp = .ok ()) (s : K) (h1 : 4 / 5 ≤ s) (h2 : s ≤ 6 / 5) :
    pdfFuncTests (scaled s t) xpts keys false cp = .ok () := by
  rw [C157_accepts_iff_partial t hn xpts keys cp _ _ Q B S I _ _ q b hP hA hE hC hQ hB hq hb hS hI] at hok
  obtain ⟨g1, g2, g3, -, -, -, g7, g8, g9⟩ := hok
  rw [C157_accepts_iff_partial (scaled s t) hn xpts keys cp (fun i j => some (s * p i j)) (fun i j => some (c i j)) Q B S I (fun i => some (s * p i 5))
    (fun i => some (s * p i i)) q b (by simp [scaled, hP, Except.map]) (fun x hx => by simp [scaled, hA x hx, Except.map])
    (by simp [scaled, hE, Except.map]) hC hQ hB hq hb hS hI]
  have hpos : (0 : K) ≤ 1 / 50 := by norm_num
  refine ⟨g1, g2, g3, fun i _ => ⟨_, _, rfl, rfl, by rw [sub_self, abs_zero]; exact hpos⟩, fun i _ => ⟨_, _, rfl, rfl, by rw [sub_self, abs_zero]; exact hpos⟩, ?_,
    g7, g8, g9⟩
  intro i hi j hj1 hj2
  obtain ⟨e1, e2, e3⟩ := hex i hi j hj1 hj2
  refine ⟨fun k => s * p i k, c i j, fun k _ => rfl, rfl, ?_⟩
  have : areaUpTo xpts (fun k => s * p i k) j = s * c i j := by
    rw [e1, areaUpTo, areaUpTo, Finset.mul_sum]
    refine Finset.sum_congr rfl fun k _ => ?_
    ring
  rw [this, abs_le]
  constructor <;> nlinarith

theorem forM_ok {α : Type} (f : α → Except Err Unit) : ∀ l : List α, l.forM f = .ok () ↔ ∀ a ∈ l, f a = .ok ()
  | [] => by simp [List.forM, pure, Except.pure]
  | a :: l => by
    change (f a >>= fun _ => l.forM f) = .ok () ↔ _
    rw [bind_unit, forM_ok f l]
    simp

/-- **C157: the whole test of a class** accepts exactly if the constructor of the stated name exists and does not raise, the space that the class asks for a file
has as many entries as every argument of the constructor, and the distribution is accepted. -/
theorem C157_class_iff (ctor : Option (Except Err (Tested K))) (alloc : List (String × List ℕ)) (size : String → Option ℕ) (xpts : List K) (keys : List String)
    (short cp : Bool) :
    runPdfFuncTests ctor alloc size xpts keys short cp = .ok () ↔
      ∃ t, ctor = some (.ok t) ∧ (∀ a ∈ alloc, size a.1 = some a.2.prod) ∧ pdfFuncTests t xpts keys short cp = .ok () := by
  unfold runPdfFuncTests
  match ctor with
  | none => simp
  | some (.error e) => simp
  | some (.ok t) =>
    simp only [Option.some.injEq, Except.ok.injEq, exists_eq_left']
    rw [bind_unit, forM_ok]
    refine and_congr_left fun _ => forall₂_congr fun a _ => ?_
    cases size a.1 with
    | none => simp
    | some s => simp [eq_comm]

/-- eleven uniform distributions between 0 and 1 -/
def uniforms : Tested ℚ where
  shape := [11]
  distNpdf := none
  kwds := ["loc", "scale"]
  attrs := []
  pdf := fun _ => .ok fun _ _ => some 1
  pdfAt := fun _ => .ok fun _ => some 1
  pdfEach := fun _ => .ok fun _ => some 1
  cdf := fun xs => .ok fun _ j => xs[j]?
  cdfOf := fun v => .ok v
  cdfEach := fun v => .ok v
  ppf := fun qs => .ok fun _ k => qs[k]?
  ppfEach := fun qs => .ok fun i => qs[i]?
  sf := fun xs => .ok fun _ j => xs[j]?.map (1 - ·)
  isf := fun qs => .ok fun _ k => qs[k]?.map (1 - ·)

/-- they are accepted; they are accepted, too, with a constant `isf` and with densities of 0.8, and refused with densities of 0.7, with a wrong survival function, if the
constructor has an argument that is not kept, or if there are ten -/
example : pdfFuncTests uniforms (Np.linspace 0 1 11) ["loc", "scale"] false true = .ok () ∧
    pdfFuncTests { uniforms with isf := fun _ => .ok fun _ _ => some 7 } (Np.linspace 0 1 11) ["loc", "scale"] false true = .ok () ∧
    pdfFuncTests (scaled (4 / 5) uniforms) (Np.linspace 0 1 11) ["loc", "scale"] false true = .ok () ∧
    pdfFuncTests (scaled (7 / 10) uniforms) (Np.linspace 0 1 11) ["loc", "scale"] false true = .error .ValueError ∧
    pdfFuncTests { uniforms with sf := uniforms.cdf } (Np.linspace 0 1 11) ["loc", "scale"] false true = .error .ValueError ∧
    pdfFuncTests uniforms (Np.linspace 0 1 11) ["loc", "width"] false true = .error .ValueError ∧
    pdfFuncTests { uniforms with shape := [10] } (Np.linspace 0 1 11) [] false true = .error .AssertionError ∧
    pdfFuncTests uniforms (Np.linspace 0 1 10) [] false true = .error .IndexError := by
  decide +kernel

/-- the constructor asks for less space than its arguments have -/
example : runPdfFuncTests (some (.ok uniforms)) [("loc", [11, 1])] (fun _ => some 11) (Np.linspace 0 1 11) [] false true = .ok () ∧
    runPdfFuncTests (some (.ok uniforms)) [("loc", [1])] (fun _ => some 11) (Np.linspace 0 1 11) [] false true = .error .AssertionError := by
  decide +kernel

/-! ## Conversions -/

theorem convertDiffs_ok (tol : K) (xpts : List K) (x0 x1 : K) (h0 : xpts.head? = some x0) (h1 : xpts.getLast? = some x1) (hl : 2 ≤ xpts.length) (hx : x0 < x1)
    (n n' : ℕ) (orig conv : Vals K) (hn : n = n' ∨ n = 1 ∨ n' = 1) :
    convertDiffs tol xpts n n' orig conv = .ok () ↔
      ∀ i < (if n = 1 then n' else n), ∀ j < xpts.length,
        Agree (tol * (xpts.length - 1 : ℕ) / (x1 - x0)) (orig (if n = 1 then 0 else i) j) (conv (if n' = 1 then 0 else i) j) := by
  have hL : (0 : K) < (xpts.length - 1 : ℕ) := by exact_mod_cast (by omega : 0 < xpts.length - 1)
  have hms : meanStep xpts = some ((x1 - x0) / (xpts.length - 1 : ℕ)) := by
    unfold meanStep
    rw [if_neg (by omega), Convert.sum_diff xpts x0 x1 h0 h1]
  unfold convertDiffs
  rw [if_neg (by tauto)]
  simp only [hms]
  have hw : (x1 - x0) / ((xpts.length - 1 : ℕ) : K) ≠ 0 := (div_pos (by linarith) hL).ne'
  rw [if_neg hw, assertAllSmall_ok]
  simp only [nanSub_small]
  rw [div_div_eq_mul_div]

/-- **C157: the test of a conversion** of `n` PDFs into as many: it accepts exactly if both ways of converting give densities that differ from the original ones by
at most the tolerance divided by the mean distance of the points. -/
theorem C157_conversion_iff (tol1 tol2 : K) (xpts : List K) (x0 x1 : K) (h0 : xpts.head? = some x0) (h1 : xpts.getLast? = some x1) (hl : 2 ≤ xpts.length)
    (hx : x0 < x1) (n : ℕ) (orig f1 f2 : List K → Except Err (Vals K)) (O V1 V2 : Vals K) (hO : orig xpts = .ok O) (hV1 : f1 xpts = .ok V1) (hV2 : f2 xpts = .ok V2) :
    runConvertTests tol1 tol2 xpts n orig (.ok (n, f1)) (.ok (n, f2)) none = .ok () ↔
      ∀ i < n, ∀ j < xpts.length, Agree (tol1 * (xpts.length - 1 : ℕ) / (x1 - x0)) (O i j) (V1 i j) ∧
        Agree (tol2 * (xpts.length - 1 : ℕ) / (x1 - x0)) (O i j) (V2 i j) := by
  unfold runConvertTests
  simp only [hO, hV1, hV2, ok_bind, bind_unit, Option.any_none, Bool.false_eq_true, if_false, and_true,
    convertDiffs_ok _ _ _ _ h0 h1 hl hx n n _ _ (.inl rfl)]
  by_cases h : n = 1
  · subst h
    simp only [if_true]
    constructor
    · rintro ⟨g1, g2⟩ i hi j hj
      obtain rfl : i = 0 := by omega
      exact ⟨g1 0 hi j hj, g2 0 hi j hj⟩
    · intro g
      exact ⟨fun i _ j hj => (g 0 (by omega) j hj).1, fun i _ j hj => (g 0 (by omega) j hj).2⟩
  · simp only [h, if_false]
    constructor
    · rintro ⟨g1, g2⟩ i hi j hj
      exact ⟨g1 i hi j hj, g2 i hi j hj⟩
    · intro g
      exact ⟨fun i hi j hj => (g i hi j hj).1, fun i hi j hj => (g i hi j hj).2⟩

/-- **C157: on a fine grid the test of a conversion accepts everything.** If all densities are between zero and `M` and the points are closer than the tolerance
divided by `M`, then it accepts, whatever the conversion does. -/
theorem C157_conversion_blind (tol M : K) (xpts : List K) (x0 x1 : K) (h0 : xpts.head? = some x0) (h1 : xpts.getLast? = some x1) (hl : 2 ≤ xpts.length)
    (hx : x0 < x1) (n : ℕ) (orig f1 f2 : List K → Except Err (Vals K)) (o v1 v2 : ℕ → ℕ → K) (hO : orig xpts = .ok fun i j => some (o i j))
    (hV1 : f1 xpts = .ok fun i j => some (v1 i j)) (hV2 : f2 xpts = .ok fun i j => some (v2 i j))
    (ho : ∀ i j, 0 ≤ o i j ∧ o i j ≤ M) (hv1 : ∀ i j, 0 ≤ v1 i j ∧ v1 i j ≤ M) (hv2 : ∀ i j, 0 ≤ v2 i j ∧ v2 i j ≤ M)
    (hM : M * (x1 - x0) ≤ tol * (xpts.length - 1 : ℕ)) :
    runConvertTests tol tol xpts n orig (.ok (n, f1)) (.ok (n, f2)) none = .ok () := by
  rw [C157_conversion_iff tol tol xpts x0 x1 h0 h1 hl hx n orig f1 f2 _ _ _ hO hV1 hV2]
  have hM' : M ≤ tol * (xpts.length - 1 : ℕ) / (x1 - x0) := by rw [le_div_iff₀ (by linarith)]; exact hM
  intro i _ j _
  refine ⟨⟨_, _, rfl, rfl, ?_⟩, ⟨_, _, rfl, rfl, ?_⟩⟩
  · rw [abs_le]; constructor <;> linarith [ho i j, hv1 i j]
  · rw [abs_le]; constructor <;> linarith [ho i j, hv2 i j]

/-- **C157: the test of the conversion to histograms cannot fail.** With the points (201 from 0 to 5) and the tolerance (0.1) that the library uses for its histogram class
every conversion of densities up to 4 into densities up to 4 is accepted, even into densities that vanish. -/
theorem C157_histogram_test_blind (n : ℕ) (orig f1 f2 : List K → Except Err (Vals K)) (o v1 v2 : ℕ → ℕ → K)
    (hO : orig (Np.linspace 0 5 201) = .ok fun i j => some (o i j)) (hV1 : f1 (Np.linspace 0 5 201) = .ok fun i j => some (v1 i j))
    (hV2 : f2 (Np.linspace 0 5 201) = .ok fun i j => some (v2 i j))
    (ho : ∀ i j, 0 ≤ o i j ∧ o i j ≤ 4) (hv1 : ∀ i j, 0 ≤ v1 i j ∧ v1 i j ≤ 4) (hv2 : ∀ i j, 0 ≤ v2 i j ∧ v2 i j ≤ 4) :
    runConvertTests (1 / 10) (1 / 10) (Np.linspace 0 5 201) n orig (.ok (n, f1)) (.ok (n, f2)) none = .ok () := by
  have hl : (Np.linspace (0 : K) 5 201).length = 201 := Np.length_linspace _ _ _
  refine C157_conversion_blind (1 / 10) 4 _ 0 5 ?_ ?_ (by omega) (by norm_num) n orig f1 f2 o v1 v2 hO hV1 hV2 ho hv1 hv2 (by rw [hl]; norm_num)
  · rw [List.head?_eq_getElem?, Np.getElem?_linspace _ _ _ (by norm_num) _ (by norm_num)]; norm_num
  · rw [List.getLast?_eq_getElem?, hl, Np.getElem?_linspace _ _ _ (by norm_num) _ (by norm_num)]; norm_num

/-- **C157: the number of PDFs is not compared.** A conversion that returns one PDF for all is accepted if this PDF is close to all of them. -/
theorem C157_conversion_one_for_all (tol : K) (xpts : List K) (x0 x1 : K) (h0 : xpts.head? = some x0) (h1 : xpts.getLast? = some x1) (hl : 2 ≤ xpts.length)
    (hx : x0 < x1) (n : ℕ) (orig f1 : List K → Except Err (Vals K)) (O V : Vals K) (hO : orig xpts = .ok O) (hV : f1 xpts = .ok V)
    (hc : ∀ i < n, ∀ j < xpts.length, Agree (tol * (xpts.length - 1 : ℕ) / (x1 - x0)) (O i j) (V 0 j)) :
    runConvertTests tol tol xpts n orig (.ok (1, f1)) (.ok (1, f1)) none = .ok () := by
  unfold runConvertTests
  simp only [hO, hV, ok_bind, bind_unit, Option.any_none, Bool.false_eq_true, if_false, and_true,
    convertDiffs_ok _ _ _ _ h0 h1 hl hx n 1 _ _ (.inr (.inr rfl)), and_self, if_true]
  intro i hi j hj
  by_cases h : n = 1
  · subst h
    simp only [if_true] at hi ⊢
    exact hc 0 (by omega) j hj
  · simp only [h, if_false] at hi ⊢
    exact hc i hi j hj

/-- two densities of 1 converted into 1 and 0: refused with points at distance one half, accepted with points at distance 1/100 -/
example : runConvertTests (1 / 100 : ℚ) (1 / 100) [0, 1 / 2, 1] 2 (fun _ => .ok fun _ _ => some 1) (.ok (2, fun _ => .ok fun i _ => some (1 - i)))
      (.ok (2, fun _ => .ok fun i _ => some (1 - i))) none = .error .ValueError ∧
    runConvertTests (1 / 100 : ℚ) (1 / 100) [0, 1 / 100, 1 / 50] 2 (fun _ => .ok fun _ _ => some 1) (.ok (2, fun _ => .ok fun i _ => some (1 - i)))
      (.ok (2, fun _ => .ok fun i _ => some (1 - i))) none = .ok () := by
  decide +kernel

end Verif.Props.SelfTest
