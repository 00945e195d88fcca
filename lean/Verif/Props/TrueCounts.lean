import Verif.Props.Pit
import Verif.Props.CdeLoss
import Verif.Props.Brier
import Verif.Lemmas.EvalCase

/-!
# C155: true values that do not belong to the PDFs

The metrics that compare `n` estimates with true values take the true values as a separate array, and nothing in the types says that it has `n`
entries. This file says what happens when it has not. A user who passes a wrong number of true values hopes for an exception. The Brier score
gives one always. The point metrics, the PIT and the CDE loss give one only when neither number is one: a single true value is silently used for
every PDF, and a single PDF silently for every true value.
-/

set_option linter.unusedSectionVars false
set_option autoImplicit false

namespace Verif.Props.Metrics

open Verif Verif.Np Verif.Model Verif.Lemmas

section
variable {K : Type} [Field K] [LinearOrder K] [IsStrictOrderedRing K]

/-! ## Specification -/

/-- a single entry stands for `n` equal ones; other arrays are left alone -/
def stretch {α : Type} (n : ℕ) : List α → List α
  | [a] => List.replicate n a
  | l => l

/-- two arrays that numpy does not combine -/
def Clash {α β : Type} (l : List α) (m : List β) : Prop := l.length ≠ m.length ∧ l.length ≠ 1 ∧ m.length ≠ 1

theorem stretch_self {α : Type} (l : List α) : stretch l.length l = l := by
  match l with
  | [] => rfl
  | [_] => rfl
  | _ :: _ :: _ => rfl

/-! ## Point metrics -/

theorem zip_rep_left {α β γ : Type} (f : α → β → γ) (a : α) (l : List β) : List.zipWith f (List.replicate l.length a) l = l.map (f a) := by
  induction l with
  | nil => rfl
  | cons c t ih => simpa [List.replicate_succ] using ih

theorem zip_rep_right {α β γ : Type} (f : α → β → γ) (l : List α) (b : β) : List.zipWith f l (List.replicate l.length b) = l.map fun a => f a b := by
  induction l with
  | nil => rfl
  | cons c t ih => simpa [List.replicate_succ] using ih

theorem ezList_one_ref (est : List K) (r : K) : ezList est [r] = ezList est (List.replicate est.length r) ∨ est = [] := by
  match est with
  | [] => exact .inr rfl
  | [e] => exact .inl rfl
  | a :: b :: l =>
    left
    have h2 : ezList (a :: b :: l) (List.replicate (a :: b :: l).length r) =
        if 1 + r = 0 then .error .Unmodelled else .ok ((a :: b :: l).map fun e => (e - r) / (1 + r)) := by
      unfold ezList
      rw [if_pos (by simp), zip_rep_right]
      simp
    rw [h2]
    simp [ezList]

theorem ezList_one_est (e : K) (ref : List K) : ezList [e] ref = ezList (List.replicate ref.length e) ref := by
  match ref with
  | [] => simp [ezList]
  | [r] => rfl
  | a :: b :: l =>
    have h2 : ezList (List.replicate (a :: b :: l).length e) (a :: b :: l) =
        if (a :: b :: l).any (fun r => 1 + r = 0) then .error .Unmodelled else .ok ((a :: b :: l).map fun r => (e - r) / (1 + r)) := by
      unfold ezList
      rw [if_pos (by simp), zip_rep_left]
    rw [h2]
    unfold ezList
    rw [if_neg (by simp)]

theorem ezList_clash (est ref : List K) (h : Clash est ref) : ezList est ref = .error .ValueError := by
  obtain ⟨h1, h2, h3⟩ := h
  match est, ref, h2, h3 with
  | [], [], _, _ => simp at h1
  | [], _ :: _ :: _, _, _ => simp [ezList]
  | _ :: _ :: _, [], _, _ => simp [ezList]
  | _ :: _ :: _, _ :: _ :: _, _, _ =>
    unfold ezList
    rw [if_neg h1]
  | [_], _, h2, _ => simp at h2
  | _, [_], _, h3 => simp at h3

theorem ezList_stretch (est ref : List K) (he : est ≠ []) (h : ¬ Clash est ref) :
    ezList est ref = ezList (stretch ref.length est) (stretch est.length ref) := by
  by_cases hl : est.length = ref.length
  · rw [← hl, stretch_self, hl, stretch_self]
  · have : est.length = 1 ∨ ref.length = 1 := by
      by_contra hh
      push Not at hh
      exact h ⟨hl, hh.1, hh.2⟩
    rcases this with h1 | h1
    · obtain ⟨e, rfl⟩ := List.length_eq_one_iff.1 h1
      have : stretch 1 ref = ref := by
        match ref with
        | [] => rfl
        | [_] => rfl
        | _ :: _ :: _ => rfl
      rw [show ([e] : List K).length = 1 from rfl, this]
      exact ezList_one_est e ref
    · obtain ⟨r, rfl⟩ := List.length_eq_one_iff.1 h1
      have : stretch 1 est = est := by
        match est with
        | [] => rfl
        | [_] => rfl
        | _ :: _ :: _ => rfl
      rw [show ([r] : List K).length = 1 from rfl, this]
      exact (ezList_one_ref est r).resolve_right he

/-- **C155, point metrics.** Estimates and true values of different lengths are refused by the four metrics when neither has one entry. If one of
them has, the metrics return, without a word, what they return for that entry repeated. What is missing for the full statement: a refusal in
these cases too. -/
theorem C155_point_partial [FloorRing K] (est ref : List K) :
    (Clash est ref → pointBias est ref = .error .ValueError ∧ sigmaIqr est ref = .error .ValueError ∧ sigmaMad est ref = .error .ValueError ∧
      pointOutlier est ref = .error .ValueError) ∧
    (est ≠ [] → ¬ Clash est ref → pointBias est ref = pointBias (stretch ref.length est) (stretch est.length ref) ∧
      sigmaIqr est ref = sigmaIqr (stretch ref.length est) (stretch est.length ref) ∧
      sigmaMad est ref = sigmaMad (stretch ref.length est) (stretch est.length ref) ∧
      pointOutlier est ref = pointOutlier (stretch ref.length est) (stretch est.length ref)) := by
  refine ⟨fun h => ?_, fun he h => ?_⟩
  · simp [pointBias, sigmaIqr, sigmaMad, pointOutlier, ezList_clash est ref h, Except.map, Bind.bind, Except.bind]
  · have := ezList_stretch est ref he h
    simp only [pointBias, sigmaIqr, sigmaMad, pointOutlier]
    exact ⟨by rw [← this], by rw [← this], by rw [← this], by rw [← this]⟩

/-- three estimates against one true value: the bias is that of three equal true values, not an exception -/
example : pointBias [1, 2, (4 : ℚ)] [1] = .ok (some (1/2)) ∧ pointBias [1, 2, (4 : ℚ)] [1, 1, 1] = .ok (some (1/2)) ∧
    pointBias [1, 2, (4 : ℚ)] [1, 1] = .error .ValueError := by decide +kernel

/-! ## PIT -/

theorem pitSamples_stretch (cdfs : List (K → Option K)) (zs : List K) (hc : cdfs ≠ []) (hz : zs ≠ []) (h : ¬ Clash cdfs zs) :
    pitSamples cdfs zs = pitSamples (stretch zs.length cdfs) (stretch cdfs.length zs) := by
  match cdfs, zs, hc, hz with
  | [F], [z], _, _ => rfl
  | [F], a :: b :: l, _, _ =>
    have h1 : pitSamples [F] (a :: b :: l) = .ok (Arr.squeeze ⟨[(a :: b :: l).length, 1], (a :: b :: l).map fun z => (F z).getD 0⟩) := by
      simp [pitSamples]
    rw [h1]
    simp only [stretch]
    unfold pitSamples
    rw [if_neg (by simp), if_neg (by simp), zip_rep_left]
  | F :: G :: l, [z], _, _ =>
    have h1 : pitSamples (F :: G :: l) [z] = .ok (Arr.squeeze ⟨[(F :: G :: l).length, 1], (F :: G :: l).map fun F => (F z).getD 0⟩) := by
      simp [pitSamples]
    rw [h1]
    simp only [stretch]
    unfold pitSamples
    rw [if_neg (by simp [List.replicate_succ]), if_neg (by simp), zip_rep_right, List.length_replicate]
  | F :: G :: l, a :: b :: m, _, _ => rfl

/-- **C155, PIT.** A number of true values different from the number of PDFs is refused unless one of the numbers is one; then the result is
that of the single value repeated for every PDF, or of the single PDF repeated for every value. -/
theorem C155_pit [FloorRing K] (cdfs : List (K → Option K)) (zs grid : List K) :
    (Clash cdfs zs → pitInit cdfs zs grid = .error .ValueError) ∧
    (cdfs ≠ [] → zs ≠ [] → ¬ Clash cdfs zs → pitInit cdfs zs grid = pitInit (stretch zs.length cdfs) (stretch cdfs.length zs) grid) := by
  refine ⟨fun h => ?_, fun hc hz h => ?_⟩
  · have : pitSamples cdfs zs = .error .ValueError := by
      obtain ⟨h1, h2, h3⟩ := h
      match cdfs, zs, h2, h3 with
      | _, [], _, _ => simp [pitSamples]
      | [], _ :: _ :: _, _, _ => simp [pitSamples]
      | _ :: _ :: _, _ :: _ :: _, _, _ =>
        unfold pitSamples
        rw [if_neg (by simp), if_pos h1]
      | [_], _, h2, _ => simp at h2
      | _, [_], _, h3 => simp at h3
    simp [pitInit, this, Bind.bind, Except.bind]
  · unfold pitInit
    rw [pitSamples_stretch cdfs zs hc hz h]

/-- two PDFs and one true value: the value is used twice; two PDFs and three values are refused -/
example : (pitInit [fun z => some (z / 2), fun z => some (z / 4)] [1] [0, (1 : ℚ)]).map Prod.fst = .ok [1/2, 1/4] ∧
    pitInit [fun z => some (z / 2), fun z => some (z / 4)] [1, 1, 1] [0, (1 : ℚ)] = .error .ValueError := by decide +kernel

/-- Why the model of the PIT may say so: the evaluation behind `cdf` gets the flattened points and the flattened row numbers, and gives the
values wanted for one PDF at several points (however often they repeat) and for several PDFs at one point. -/
theorem C155_evaluation {β : Type} (f : ℕ → K → β) :
    (∀ zs : List K, 2 ≤ zs.length → dispatch f f f (.vec zs) (.vec (List.replicate zs.length 0)) = .ok (zs.map (f 0))) ∧
    ∀ (n : ℕ) (z : K), 2 ≤ n → dispatch f f f (.vec (List.replicate n z)) (.vec (List.range n)) = .ok ((List.range n).map fun i => f i z) := by
  refine ⟨fun zs h => ?_, fun n z h => ?_⟩
  · have hu : unique (List.replicate zs.length 0) = [0] := by
      rw [unique_congr (l' := [0])]
      · rfl
      · intro v
        have : zs.length ≠ 0 := by omega
        simp [List.mem_replicate, this]
    rw [dispatch_vec, hu]
    have hflat : evalFlat f zs (List.replicate zs.length 0) = .ok (zs.map (f 0)) := by
      unfold evalFlat
      rw [if_pos (by simp), zip_rep_left]
    by_cases hnd : (unique zs).length = zs.length
    · rw [if_neg (by simp [hnd]; omega), if_pos hnd, if_neg (by simp; omega)]
      simp [evalProduct]
    · rw [if_pos (by simp [hnd]), hflat]
  · have hu : unique (List.replicate n z) = [z] := by
      rw [unique_congr (l' := [z])]
      · rfl
      · intro v
        have : n ≠ 0 := by omega
        simp [List.mem_replicate, this]
    have hr : unique (List.range n) = List.range n := by
      rw [unique_of_nodup List.nodup_range, sort_of_pairwise (List.pairwise_le_range)]
    rw [dispatch_vec, hu, hr]
    rw [if_neg (by simp; omega), if_neg (by simp; omega), if_pos rfl]
    simp only [evalProduct, List.map_cons, List.map_nil]
    rw [List.map_eq_flatMap]

/-! ## CDE loss -/

/-- the ensemble of the given densities -/
def vecOf (fns : List (K → K)) : FnEns K := ⟨[fns.length], fns⟩

theorem near_mapM (xs zs : List K) (hx : xs ≠ []) : zs.mapM (nearest xs) = .ok (zs.map fun z => ((nearest xs z).toOption).getD 0) := by
  apply Lemmas.mapM_ok_map
  intro z _
  obtain ⟨i, hi, _⟩ := nearest_ok xs z hx
  simp [hi, Except.toOption]

theorem near_get (xs : List K) (z : K) (f : K → K) (hx : xs ≠ []) :
    (xs.map f)[((nearest xs z).toOption).getD 0]? = some (f (nearPoint xs z)) := by
  obtain ⟨k, hk, x, hxk, _, _⟩ := nearest_ok xs z hx
  simp [nearPoint, hk, Except.toOption, hxk]

theorem cdeTerms_one_value (xs : List K) (fns : List (K → K)) (z : K) (hx : xs ≠ []) :
    cdeTerms xs (vecOf fns) [z] = cdeTerms xs (vecOf fns) (List.replicate fns.length z) := by
  by_cases h1 : fns.length = 1
  · rw [h1]; rfl
  · have hm := cdeTerms_matched xs (vecOf fns, List.replicate fns.length z) hx ⟨by simp [vecOf], by simp [vecOf]⟩
    simp only at hm
    rw [hm]
    simp only [cdeTerms, vecOf, near_mapM xs [z] hx, Bind.bind, Except.bind, fancyPairs, List.length_map, List.map_cons, List.map_nil,
      List.length_cons, List.length_nil, h1, if_false]
    rw [mapM_some _ (fun p : ℕ × ℕ => ((fns[p.1]?).getD id) (nearPoint xs z))]
    · simp only [Except.ok.injEq, Prod.mk.injEq]
      refine ⟨by simp [cdeSquares, Function.comp_def], ?_⟩
      simp only [cdeHits, zip_rep_right]
      apply List.ext_getElem
      · simp
      · intro i hi hi'
        have : i < fns.length := by simpa using hi
        simp [this]
    · rintro ⟨a, b⟩ hab
      simp only [List.mem_map, List.mem_range, Prod.mk.injEq] at hab
      obtain ⟨i, hi, rfl, rfl⟩ := hab
      simp only [List.getElem?_map, List.getElem?_eq_getElem hi, Option.map_some, Option.bind_some, Option.getD_some]
      rw [← List.getElem?_map]
      exact near_get xs z _ hx

theorem cdeTerms_one_pdf (xs : List K) (f : K → K) (zs : List K) (hx : xs ≠ []) :
    cdeTerms xs (vecOf [f]) zs = .ok ([trapz xs (xs.map fun x => f x ^ 2)], zs.map fun z => f (nearPoint xs z)) := by
  by_cases h1 : zs.length = 1
  · obtain ⟨z, rfl⟩ := List.length_eq_one_iff.1 h1
    have hm := cdeTerms_matched xs (vecOf [f], [z]) hx ⟨by simp [vecOf], by simp [vecOf]⟩
    simpa [cdeSquares, cdeHits, vecOf] using hm
  · simp only [cdeTerms, vecOf, near_mapM xs zs hx, Bind.bind, Except.bind, fancyPairs, List.length_map, List.map_cons, List.map_nil,
      List.length_cons, List.length_nil, Ne.symm h1, if_false, zero_add, if_true, List.map_map]
    rw [List.mapM_map]
    rw [mapM_some _ (fun z => f (nearPoint xs z))]
    · simp [Function.comp_def]
    · intro z _
      simpa using near_get xs z f hx

/-- **C155, CDE loss.** (1) It is refused when neither number is one. (2) A single true value counts for every PDF, in one go and for
accumulation. (3) A single PDF counts for every true value when evaluated in one go. (4) Accumulated, it is divided by the number of PDFs, one,
so that the second term comes out `k` times too large for `k` true values. -/
theorem C155_cde (xs : List K) (fns : List (K → K)) (zs : List K) (hx : xs ≠ []) :
    (Clash fns zs → cdeEvaluate xs (vecOf fns) zs = .error .IndexError ∧ cdeAccumulate xs (vecOf fns) zs = .error .IndexError) ∧
    (∀ z, cdeEvaluate xs (vecOf fns) [z] = cdeEvaluate xs (vecOf fns) (List.replicate fns.length z) ∧
      cdeAccumulate xs (vecOf fns) [z] = cdeAccumulate xs (vecOf fns) (List.replicate fns.length z)) ∧
    (∀ f, zs ≠ [] → cdeEvaluate xs (vecOf [f]) zs = cdeEvaluate xs (vecOf (List.replicate zs.length f)) zs) ∧
    (∀ f, zs ≠ [] → ∃ a b : K, cdeEvaluate xs (vecOf [f]) zs = .ok (some (a - 2 * b)) ∧
      ([(vecOf [f], zs)].mapM (fun c => cdeAccumulate xs c.1 c.2) >>= cdeFinalize) = .ok (some (a - 2 * (zs.length * b))) ∧
      b = (zs.map fun z => f (nearPoint xs z)).sum / zs.length) := by
  have hne : zs ≠ [] → (zs.length : K) ≠ 0 := by intro h; simpa using h
  have e1 : ∀ f, zs ≠ [] → cdeEvaluate xs (vecOf [f]) zs = .ok (some (trapz xs (xs.map fun x => f x ^ 2)
      - 2 * ((zs.map fun z => f (nearPoint xs z)).sum / zs.length))) := by
    intro f hz
    simp [cdeEvaluate, cdeTerms_one_pdf xs f zs hx, Bind.bind, Except.bind, npMean, hz, sum_eq]
  refine ⟨fun h => ?_, fun z => ?_, fun f hz => ?_, fun f hz => ?_⟩
  · exact (C64_errors xs (vecOf fns) zs rfl).2 hx h.1 h.2.1 h.2.2
  · simp only [cdeEvaluate, cdeAccumulate, cdeTerms_one_value xs fns z hx, and_self]
  · rw [e1 f hz]
    have := C64_value xs (vecOf (List.replicate zs.length f), zs) hx ⟨by simp [vecOf], by simp [vecOf]⟩ hz
    simp only at this
    rw [this]
    simp only [vecOf, List.map_replicate, List.sum_replicate, nsmul_eq_mul, zip_rep_left]
    rw [mul_div_cancel_left₀ _ (hne hz)]
  · refine ⟨_, _, e1 f hz, ?_, rfl⟩
    simp only [List.mapM_cons, List.mapM_nil, cdeAccumulate, cdeTerms_one_pdf xs f zs hx, Bind.bind, Except.bind, pure, Except.pure, cdeFinalize]
    simp [npDiv, vecOf, FnEns.npdf, sum_eq]
    rw [mul_div_cancel₀ _ (hne hz)]


/-! ## Brier -/

/-- **C155, Brier score.** Any number of true values different from the number of PDFs is refused. -/
theorem C155_brier [FloorRing K] (e : FnEns K) (truth : List K) (l0 l1 dx : K) (h : e.npdf ≠ truth.length) :
    calculateBrier e truth l0 l1 dx = .error .ValueError ∧ accumulateBrier e truth l0 l1 dx = .error .ValueError :=
  C61_rejects e truth l0 l1 dx (.inl h)

/-- one PDF against two true values, on a grid of two points: 1 - 2 when evaluated in one go, 1 - 4 when accumulated -/
example : cdeEvaluate [0, (1 : ℚ)] (vecOf [fun _ => 1]) [0, 1] = .ok (some (-1)) ∧
    ([(vecOf [fun _ => (1 : ℚ)], [0, (1 : ℚ)])].mapM (fun c => cdeAccumulate [0, 1] c.1 c.2) >>= cdeFinalize) = .ok (some (-3)) ∧
    cdeEvaluate [0, (1 : ℚ)] (vecOf [fun _ => 1, fun x => 2 * x]) [0, 1, 1] = .error .IndexError := by decide +kernel

/-- two PDFs and one true value within the limits: refused -/
example : calculateBrier (vecOf [fun _ => 1, fun x => 2 * x]) [(1/2 : ℚ)] 0 1 (1/4) = .error .ValueError :=
  (C155_brier _ _ _ _ _ (by decide)).1

end
end Verif.Props.Metrics
