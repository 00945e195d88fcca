import Verif.Model.Quant
import Verif.Lemmas.EvalCase
import Verif.Lemmas.Bins
import Verif.Lemmas.InterpPdf
import Verif.Props.InterpPdf
import Verif.Props.Bins
import Verif.Props.Evaluation
import Mathlib.Tactic.LinearCombination
import Mathlib.Tactic.FieldSimp
import Mathlib.Tactic.Linarith
import Mathlib.Tactic.Positivity
import Mathlib.Algebra.Order.Ring.Rat
import Mathlib.Data.Rat.Floor

/-!
# C18-C22: quantile distributions
-/

set_option linter.unusedSectionVars false
set_option autoImplicit false

namespace Verif.Props.Quant

open Verif Verif.Np Verif.Model 

variable {K : Type*} [Field K] [LinearOrder K] [IsStrictOrderedRing K]

/-! ## C18 -/

/-- A quantile parametrisation: at least two strictly increasing quantiles in [0,1] and for each PDF one strictly increasing
list of as many locations. -/
structure QuantData (quants : List K) (locs : List (List K)) : Prop where
  strict : quants.Pairwise (· < ·)
  two : 2 ≤ quants.length
  unit : ∀ q ∈ quants, 0 ≤ q ∧ q ≤ 1
  rows : ∀ r ∈ locs, r.length = quants.length ∧ r.Pairwise (· < ·)

private theorem two_front {α : Type*} {l : List α} (h : 2 ≤ l.length) : ∃ a b t, l = a :: b :: t := by
  match l, h with
  | a :: b :: t, _ => exact ⟨a, b, t, rfl⟩

private theorem two_back {α : Type*} {l : List α} (h : 2 ≤ l.length) : ∃ t a b, l = t ++ [a, b] := by
  obtain ⟨b, a, t, ht⟩ := two_front (l := l.reverse) (by simpa using h)
  refine ⟨t.reverse, a, b, ?_⟩
  have := congrArg List.reverse ht
  simpa using this

private theorem strict_cons {l : List K} {a b : K} {t : List K} (hl : l = b :: t) (h : l.Pairwise (· < ·)) (hab : a < b) :
    (a :: l).Pairwise (· < ·) := by
  subst hl
  refine List.pairwise_cons.2 ⟨?_, h⟩
  intro c hc
  rcases List.mem_cons.1 hc with rfl | hc
  · exact hab
  · exact hab.trans ((List.pairwise_cons.1 h).1 c hc)

private theorem strict_snoc {l : List K} {a b : K} {t : List K} (hl : l = t ++ [b]) (h : l.Pairwise (· < ·)) (hab : b < a) :
    (l ++ [a]).Pairwise (· < ·) := by
  subst hl
  refine List.pairwise_append.2 ⟨h, by simp, ?_⟩
  intro c hc d hd
  rw [List.mem_singleton] at hd; subst hd
  rcases List.mem_append.1 hc with hc | hc
  · exact ((List.pairwise_append.1 h).2.2 c hc b (by simp)).trans hab
  · rw [List.mem_singleton] at hc; subst hc; exact hab

/-- what padding does to one row -/
private theorem padRow_spec (lo hi : Bool) (q r : List K) (hq : q.Pairwise (· < ·)) (h2 : 2 ≤ q.length)
    (hr : r.Pairwise (· < ·)) (hlen : r.length = q.length)
    (hlo : lo = true → ∀ v ∈ q, 0 < v) (hhi : hi = true → ∀ v ∈ q, v < 1) :
    ∃ pre post, padRow lo hi q r = some (pre ++ r ++ post) ∧ (pre ++ r ++ post).Pairwise (· < ·) ∧
      pre.length = (if lo then 1 else 0) ∧ post.length = (if hi then 1 else 0) := by
  obtain ⟨q0, q1, qt, hqf⟩ := two_front h2
  obtain ⟨r0, r1, rt, hrf⟩ := two_front (l := r) (by omega)
  obtain ⟨qs, qm, qn, hqb⟩ := two_back h2
  obtain ⟨rs, rm, rn, hrb⟩ := two_back (l := r) (by omega)
  have hq01 : 0 < q1 - q0 := by
    rw [hqf] at hq; exact sub_pos.2 ((List.pairwise_cons.1 hq).1 q1 (by simp))
  have hr01 : 0 < r1 - r0 := by
    rw [hrf] at hr; exact sub_pos.2 ((List.pairwise_cons.1 hr).1 r1 (by simp))
  have hqmn : 0 < qn - qm := by
    rw [hqb] at hq
    exact sub_pos.2 ((List.pairwise_cons.1 (List.pairwise_append.1 hq).2.1).1 qn (by simp))
  have hrmn : 0 < rn - rm := by
    rw [hrb] at hr
    exact sub_pos.2 ((List.pairwise_cons.1 (List.pairwise_append.1 hr).2.1).1 rn (by simp))
  have elo : padLo q r = some (r0 - q0 * (r1 - r0) / (q1 - q0)) := by rw [hqf, hrf]; rfl
  have ehi : padHi q.reverse r.reverse = some (rn - (1 - qn) * (rm - rn) / (qn - qm)) := by
    rw [hqb, hrb]; simp [padHi]
  refine ⟨if lo then [r0 - q0 * (r1 - r0) / (q1 - q0)] else [],
    if hi then [rn - (1 - qn) * (rm - rn) / (qn - qm)] else [], ?_, ?_, ?_, ?_⟩
  · unfold padRow
    rw [elo, ehi]
    cases lo <;> cases hi <;> simp
  · have key : ((if lo then [r0 - q0 * (r1 - r0) / (q1 - q0)] else []) ++ r).Pairwise (· < ·) := by
      cases lo with
      | false => simpa using hr
      | true =>
        have : 0 < q0 := hlo rfl q0 (by rw [hqf]; simp)
        simp only [if_true, List.singleton_append]
        refine strict_cons hrf hr ?_
        have : 0 < q0 * (r1 - r0) / (q1 - q0) := by positivity
        linarith
    cases hi with
    | false => simpa using key
    | true =>
      have h1 : 0 < 1 - qn := sub_pos.2 (hhi rfl qn (by rw [hqb]; simp))
      simp only [if_true]
      refine strict_snoc (b := rn) (t := (if lo then [r0 - q0 * (r1 - r0) / (q1 - q0)] else []) ++ rs ++ [rm]) ?_ key ?_
      · rw [hrb]; simp
      · have : 0 < (1 - qn) * (rn - rm) / (qn - qm) := by positivity
        have e : (1 - qn) * (rm - rn) / (qn - qm) = -((1 - qn) * (rn - rm) / (qn - qm)) := by ring
        rw [e]; linarith
  · cases lo <;> simp
  · cases hi <;> simp

private theorem mapM_some_forall {α β : Type*} (f : α → Option β) (l : List α) (h : ∀ a ∈ l, ∃ b, f a = some b) :
    ∃ l', l.mapM f = some l' ∧ l'.length = l.length ∧ ∀ (i : ℕ) a, l[i]? = some a → ∃ b, l'[i]? = some b ∧ f a = some b := by
  induction l with
  | nil => exact ⟨[], rfl, rfl, by simp⟩
  | cons a t ih =>
    obtain ⟨b, hb⟩ := h a (by simp)
    obtain ⟨t', h1, h2, h3⟩ := ih (fun a ha => h a (List.mem_cons_of_mem _ ha))
    refine ⟨b :: t', by simp [List.mapM_cons, hb, h1], by simp [h2], ?_⟩
    intro i c hc
    cases i with
    | zero => simp at hc; subst hc; exact ⟨b, by simp, hb⟩
    | succ i => simpa using h3 i c (by simpa using hc)

/-- **C18.** Padding succeeds; the new quantiles are strictly increasing, start at most `2^-52` above 0 and end at exactly 1;
the given quantiles and every given row sit inside, unchanged and in order, at the same offset `k`; every row stays
strictly increasing and as long as the quantiles; and padding again changes nothing. -/
theorem C18_padding (quants : List K) (locs : List (List K)) (h : QuantData quants locs) :
    ∃ qs ls k, padQuantiles quants locs = .ok (qs, ls) ∧
      qs.Pairwise (· < ·) ∧ (∀ q ∈ qs, 0 ≤ q ∧ q ≤ 1) ∧
      (∃ q0, qs.head? = some q0 ∧ q0 ≤ 1 / 2 ^ 52) ∧ qs.getLast? = some 1 ∧
      (qs.drop k).take quants.length = quants ∧ qs.length ≤ quants.length + 2 ∧
      ls.length = locs.length ∧
      (∀ (i : ℕ) r, locs[i]? = some r → ∃ r', ls[i]? = some r' ∧ r'.length = qs.length ∧ r'.Pairwise (· < ·) ∧
        (r'.drop k).take quants.length = r) ∧
      padQuantiles qs ls = .ok (qs, ls) := by
  obtain ⟨q0, q1, qt, hqf⟩ := two_front h.two
  obtain ⟨qi, qm, qn, hqb⟩ := two_back h.two
  have hhead : quants.head? = some q0 := by rw [hqf]; rfl
  have hlast : quants.getLast? = some qn := by rw [hqb]; simp
  have heps : (floatEps : K) = 1 / 2 ^ 52 := by norm_num [floatEps]
  have hepspos : (0 : K) < floatEps := by rw [heps]; positivity
  have h0 := h.unit q0 (by rw [hqf]; simp)
  have hn := h.unit qn (by rw [hqb]; simp)
  have idem : ∀ (q : List K) (l : List (List K)) (a : K), q.head? = some a → a ≤ floatEps → q.getLast? = some 1 →
      padQuantiles q l = .ok (q, l) := by
    intro q l a ha hae hb
    unfold padQuantiles
    rw [ha, hb]
    simp [not_lt.2 hae]
  by_cases hnone : ¬ (floatEps < q0) ∧ ¬ (qn < 1)
  · have hqn1 : qn = 1 := le_antisymm hn.2 (not_lt.1 hnone.2)
    have hp := idem quants locs q0 hhead (not_lt.1 hnone.1) (by rw [hlast, hqn1])
    refine ⟨quants, locs, 0, hp, h.strict, h.unit, ⟨q0, hhead, by rw [← heps]; exact not_lt.1 hnone.1⟩,
      by rw [hlast, hqn1], by simp, by omega, rfl, ?_, hp⟩
    intro i r hr
    have := h.rows r (List.mem_of_getElem? hr)
    exact ⟨r, hr, this.1, this.2, by simp [← this.1]⟩
  · set lo := decide (floatEps < q0) with hlo
    set hi := decide (qn < 1) with hhi
    have hloq : lo = true → ∀ v ∈ quants, 0 < v := by
      intro hl v hv
      have hl' : floatEps < q0 := by simpa [hlo] using hl
      rw [hqf] at hv
      rcases List.mem_cons.1 hv with rfl | hv
      · exact hepspos.trans hl'
      · have := h.strict; rw [hqf] at this
        exact (hepspos.trans hl').trans ((List.pairwise_cons.1 this).1 v hv)
    have hhiq : hi = true → ∀ v ∈ quants, v < 1 := by
      intro hl v hv
      have hl' : qn < 1 := by simpa [hhi] using hl
      have hs := h.strict
      have hqb' : quants = (qi ++ [qm]) ++ [qn] := by rw [hqb]; simp
      rw [hqb'] at hv hs
      rcases List.mem_append.1 hv with hv | hv
      · exact ((List.pairwise_append.1 hs).2.2 v hv qn (by simp)).trans hl'
      · rw [List.mem_singleton] at hv; subst hv; exact hl'
    obtain ⟨ls, hls, hlen, hrow⟩ := mapM_some_forall (padRow lo hi quants) locs (by
      intro r hr
      obtain ⟨hr1, hr2⟩ := h.rows r hr
      obtain ⟨pre, post, hp, _⟩ := padRow_spec lo hi quants r h.strict h.two hr2 hr1 hloq hhiq
      exact ⟨_, hp⟩)
    have hany : (locs.any fun r => decide (r.length ≠ quants.length ∧ r.length ≠ 1)) = false := by
      rw [List.any_eq_false]
      intro r hr
      simp [(h.rows r hr).1]
    have hpad : padQuantiles quants locs =
        .ok ((if lo then [0] else []) ++ quants ++ (if hi then [1] else []), ls) := by
      unfold padQuantiles
      rw [hhead, hlast]
      simp only
      rw [← hlo, ← hhi, hany, hls]
      have hb : (!lo && !hi) = false := by
        rw [hlo, hhi]
        by_contra hc
        simp at hc
        exact hnone ⟨not_lt.2 hc.1, not_lt.2 hc.2⟩
      rw [hb]
      simp [not_lt.2 h.two]
    set qs := (if lo then [0] else []) ++ quants ++ (if hi then [1] else []) with hqs
    have hqhead : ∃ a, qs.head? = some a ∧ a ≤ floatEps := by
      rcases Bool.eq_false_or_eq_true lo with hl | hl
      · exact ⟨0, by simp [hqs, hl], hepspos.le⟩
      · refine ⟨q0, by simp [hqs, hl, hqf], ?_⟩
        have : ¬ (floatEps < q0) := by simpa [hlo] using hl
        exact not_lt.1 this
    have hqlast : qs.getLast? = some 1 := by
      rcases Bool.eq_false_or_eq_true hi with hl | hl
      · simp [hqs, hl]
      · have : ¬ (qn < 1) := by simpa [hhi] using hl
        have : qn = 1 := le_antisymm hn.2 (not_lt.1 this)
        simp [hqs, hl, hqb, this]
    obtain ⟨a, ha, hae⟩ := hqhead
    refine ⟨qs, ls, if lo then 1 else 0, hpad, ?_, ?_, ⟨a, ha, by rw [← heps]; exact hae⟩, hqlast, ?_, ?_, hlen, ?_,
      idem qs ls a ha hae hqlast⟩
    · have key : ((if lo then [0] else []) ++ quants).Pairwise (· < ·) := by
        rcases Bool.eq_false_or_eq_true lo with hl | hl
        · rw [hl]
          exact strict_cons hqf h.strict (hloq hl q0 (by rw [hqf]; simp))
        · rw [hl]; simpa using h.strict
      rcases Bool.eq_false_or_eq_true hi with hl | hl
      · rw [hqs, hl]
        refine strict_snoc (b := qn) (t := (if lo then [0] else []) ++ qi ++ [qm]) ?_ key (hhiq hl qn (by rw [hqb]; simp))
        rw [hqb]; simp
      · rw [hqs, hl]; simpa using key
    · intro q hq
      rw [hqs] at hq
      simp only [List.mem_append] at hq
      rcases hq with (hq | hq) | hq
      · have : q = 0 := by revert hq; cases lo <;> simp
        subst this; exact ⟨le_rfl, zero_le_one⟩
      · exact h.unit q hq
      · have : q = 1 := by revert hq; cases hi <;> simp
        subst this; exact ⟨zero_le_one, le_rfl⟩
    · rw [hqs]; cases lo <;> simp
    · rw [hqs]; cases lo <;> cases hi <;> simp
    · intro i r hr
      obtain ⟨r', hr', hp⟩ := hrow i r hr
      obtain ⟨hr1, hr2⟩ := h.rows r (List.mem_of_getElem? hr)
      obtain ⟨pre, post, hp', hpw, hl1, hl2⟩ := padRow_spec lo hi quants r h.strict h.two hr2 hr1 hloq hhiq
      rw [hp] at hp'
      obtain rfl := Option.some.inj hp'
      refine ⟨_, hr', ?_, hpw, ?_⟩
      · rw [hqs]; simp only [List.length_append, hl1, hl2, hr1]
        cases lo <;> cases hi <;> simp
      · rw [← hl1, List.append_assoc, List.drop_left, List.take_append_of_le_length (by omega), ← hr1, List.take_length]

/-- **C18: where the padding puts the new locations.** The location added for quantile 0 (1) continues the straight line
through the first (last) two given points. -/
theorem C18_padding_extrapolates (quants : List K) (locs : List (List K)) (h : QuantData quants locs) (qs : List K)
    (ls : List (List K)) (hp : padQuantiles quants locs = .ok (qs, ls)) (i : ℕ) (r r' : List K)
    (hr : locs[i]? = some r) (hr' : ls[i]? = some r') (n : ℕ) (hn : quants.length = n + 2)
    (q0 q1 qm qn r0 r1 rm rn : K) (eq0 : quants[0]? = some q0) (eq1 : quants[1]? = some q1)
    (eqm : quants[n]? = some qm) (eqn : quants[n+1]? = some qn) (er0 : r[0]? = some r0) (er1 : r[1]? = some r1)
    (erm : r[n]? = some rm) (ern : r[n+1]? = some rn) :
    (1 / 2 ^ 52 < q0 → r'.head? = some (line q0 r0 q1 r1 0)) ∧
    (qn < 1 → r'.getLast? = some (line qm rm qn rn 1)) := by
  obtain ⟨a, b, qt, hqf⟩ := two_front h.two
  obtain ⟨qi, c, d, hqb⟩ := two_back h.two
  have hrl := (h.rows r (List.mem_of_getElem? hr)).1
  have h2 := h.two
  obtain ⟨a', b', rt, hrf⟩ := two_front (l := r) (by omega)
  obtain ⟨ri, c', d', hrb⟩ := two_back (l := r) (by omega)
  have hqi : qi.length = n := by have := congrArg List.length hqb; simp at this; omega
  have hri : ri.length = n := by have := congrArg List.length hrb; simp at this; omega
  have e1 : q0 = a ∧ q1 = b := by rw [hqf] at eq0 eq1; simp at eq0 eq1; exact ⟨eq0.symm, eq1.symm⟩
  have e2 : r0 = a' ∧ r1 = b' := by rw [hrf] at er0 er1; simp at er0 er1; exact ⟨er0.symm, er1.symm⟩
  have e3 : qm = c ∧ qn = d := by
    rw [hqb] at eqm eqn
    rw [List.getElem?_append_right (by omega)] at eqm eqn
    simp [hqi] at eqm eqn; exact ⟨eqm.symm, eqn.symm⟩
  have e4 : rm = c' ∧ rn = d' := by
    rw [hrb] at erm ern
    rw [List.getElem?_append_right (by omega)] at erm ern
    simp [hri] at erm ern; exact ⟨erm.symm, ern.symm⟩
  obtain ⟨rfl, rfl⟩ := e1
  obtain ⟨rfl, rfl⟩ := e2
  obtain ⟨rfl, rfl⟩ := e3
  obtain ⟨rfl, rfl⟩ := e4
  have heps : (floatEps : K) = 1 / 2 ^ 52 := by norm_num [floatEps]
  have hhead : quants.head? = some q0 := by rw [hqf]; rfl
  have hlast : quants.getLast? = some qn := by rw [hqb]; simp
  have hany : (locs.any fun r => decide (r.length ≠ quants.length ∧ r.length ≠ 1)) = false := by
    rw [List.any_eq_false]
    intro r hr
    simp [(h.rows r hr).1]
  unfold padQuantiles at hp
  rw [hhead, hlast] at hp
  simp only at hp
  by_cases hnone : (!decide (floatEps < q0) && !decide (qn < 1)) = true
  · simp at hnone
    rw [← heps]
    exact ⟨fun h => absurd h (not_lt.2 hnone.1), fun h => absurd h (not_lt.2 hnone.2)⟩
  · rw [if_neg hnone, hany] at hp
    rw [if_neg (by simp), if_neg (not_lt.2 h.two)] at hp
    split at hp
    · simp at hp
    · next ls' hm =>
      simp only [Except.ok.injEq, Prod.mk.injEq] at hp
      obtain ⟨_, rfl⟩ := hp
      have hrow : padRow (decide (floatEps < q0)) (decide (qn < 1)) quants r = some r' := by
        have : ∀ (l l' : List (List K)) (i : ℕ) r r', l.mapM (padRow (decide (floatEps < q0)) (decide (qn < 1)) quants) = some l' →
            l[i]? = some r → l'[i]? = some r' → padRow (decide (floatEps < q0)) (decide (qn < 1)) quants r = some r' := by
          intro l
          induction l with
          | nil => intro l' i r r' _ h; simp at h
          | cons x t ih =>
            intro l' i r r' hm h1 h2
            rw [List.mapM_cons] at hm
            cases hx : padRow (decide (floatEps < q0)) (decide (qn < 1)) quants x with
            | none => simp [hx] at hm
            | some y =>
              cases ht : t.mapM (padRow (decide (floatEps < q0)) (decide (qn < 1)) quants) with
              | none => simp [hx, ht] at hm
              | some t' =>
                simp [hx, ht] at hm
                subst hm
                cases i with
                | zero => simp at h1 h2; subst h1 h2; exact hx
                | succ i => exact ih t' i r r' ht (by simpa using h1) (by simpa using h2)
        exact this _ _ i r r' hm hr hr'
      have elo : padLo quants r = some (r0 - q0 * (r1 - r0) / (q1 - q0)) := by rw [hqf, hrf]; rfl
      have ehi : padHi quants.reverse r.reverse = some (rn - (1 - qn) * (rm - rn) / (qn - qm)) := by
        rw [hqb, hrb]; simp [padHi]
      unfold padRow at hrow
      rw [elo, ehi] at hrow
      rw [← heps]
      constructor
      · intro hl
        rw [decide_eq_true hl] at hrow
        have : r'.head? = some (r0 - q0 * (r1 - r0) / (q1 - q0)) := by
          cases hb : decide (qn < 1) <;> rw [hb] at hrow <;> simp at hrow <;> rw [← hrow] <;> rfl
        rw [this]; congr 1; unfold line; ring
      · intro hl
        rw [decide_eq_true hl] at hrow
        have : r'.getLast? = some (rn - (1 - qn) * (rm - rn) / (qn - qm)) := by
          cases hb : decide (floatEps < q0) <;> rw [hb] at hrow <;> simp at hrow <;> rw [← hrow] <;> simp [List.getLast?_cons, List.getLast?_append]
        have hqmn : qn - qm ≠ 0 := by
          have hq := h.strict
          rw [hqb] at hq
          exact (sub_pos.2 ((List.pairwise_cons.1 (List.pairwise_append.1 hq).2.1).1 qn (by simp))).ne'
        rw [this]; congr 1; unfold line; field_simp; ring

example : QuantData ([1/10, 1/2, 9/10] : List ℚ) [[0, 1, 2], [3, 5, 6]] :=
  ⟨by decide +kernel, by decide, by decide +kernel, by decide +kernel⟩
example : (padQuantiles ([1/10, 1/2, 9/10] : List ℚ) [[0, 1, 2], [3, 5, 6]]).toOption =
    some ([0, 1/10, 1/2, 9/10, 1], [[-1/4, 0, 1, 2, 9/4], [5/2, 3, 5, 6, 25/4]]) := by decide +kernel

/-! ## C19 -/

/-- **C19 (partial): the CDF reproduces the quantiles.** For any interpolation routine that passes through the knots it is given, the CDF
at each location is the corresponding quantile, it is 0 left of and 1 right of the locations. Missing: monotonicity and range
between the locations, which fail (`C19_not_a_cdf`); `C19_three_points_partial` says exactly when they hold for three points. -/
theorem C19_knots_partial (spl : List (K × K) → K → K) (quants locs : List K)
    (hspl : ∀ p ∈ locs.zip quants, spl (locs.zip quants) p.1 = p.2)
    (hlen : quants.length = locs.length) (hs : locs.Pairwise (· < ·)) (hne : locs ≠ []) :
    (∀ (i : ℕ) l q, locs[i]? = some l → quants[i]? = some q → quantCdf spl quants locs l = some q) ∧
    (∀ x, (∀ l ∈ locs, x < l) → quantCdf spl quants locs x = some 0) ∧
    (∀ x, (∀ l ∈ locs, l < x) → quantCdf spl quants locs x = some 1) := by
  match locs, hne with
  | l0 :: t, _ =>
    refine ⟨?_, ?_, ?_⟩
    · intro i l q hl hq
      have hmem : (l, q) ∈ (l0 :: t).zip quants := by
        apply List.mem_of_getElem? (i := i)
        rw [List.getElem?_zip_eq_some]; exact ⟨hl, hq⟩
      have hlm := List.mem_of_getElem? hl
      have h1 : l0 ≤ l := by
        rcases List.mem_cons.1 hlm with rfl | h
        · exact le_rfl
        · exact ((List.pairwise_cons.1 hs).1 l h).le
      have h2 := Lemmas.InterpPdf.getLast_max hs (by simp) hlm
      simp only [quantCdf]
      rw [if_neg (not_lt.2 h1), if_neg (not_lt.2 h2), hspl _ hmem]
    · intro x hx
      simp only [quantCdf]
      rw [if_pos (hx l0 (by simp))]
    · intro x hx
      simp only [quantCdf]
      rw [if_neg (not_lt.2 (hx l0 (by simp)).le), if_pos (hx _ (List.getLast_mem (by simp)))]

/-- three locations, scipy's quadratic interpolant -/
example := C19_knots_partial (K := ℚ) quadSpline3 [0, 1/2, 1] [0, 1, 3] (by decide +kernel) rfl (by decide +kernel) (by simp)

private theorem parabola_diff (l0 l1 l2 q0 q1 q2 x y : K) :
    parabola (l0, q0) (l1, q1) (l2, q2) y - parabola (l0, q0) (l1, q1) (l2, q2) x =
      (y - x) * ((q1 - q0) / (l1 - l0) +
        ((q2 - q1) / (l2 - l1) - (q1 - q0) / (l1 - l0)) / (l2 - l0) * ((x - l0) + (y - l1))) := by
  simp only [parabola]; ring

/-- **C19, three locations: exactly when the CDF is one.** With slopes `s1`, `s2` of the two segments and cell widths `h1`,
`h2`, the CDF is non-decreasing on the whole line if and only if `h1 s2 ≤ (2 h1 + h2) s1` and `h2 s1 ≤ (h1 + 2 h2) s2`;
in that case it also stays in [0,1]. -/
theorem C19_three_points_partial (q0 q1 q2 l0 l1 l2 : K) (hl1 : l0 < l1) (hl2 : l1 < l2) (hq0 : q0 = 0)
    (hq1 : q0 < q1) (hq2 : q1 < q2) (hq3 : q2 = 1) :
    let F := quantCdf quadSpline3 [q0, q1, q2] [l0, l1, l2]
    let s1 := (q1 - q0) / (l1 - l0)
    let s2 := (q2 - q1) / (l2 - l1)
    ((∀ x y, x ≤ y → ∃ p q, F x = some p ∧ F y = some q ∧ p ≤ q) ↔
      (l1 - l0) * s2 ≤ (2 * (l1 - l0) + (l2 - l1)) * s1 ∧ (l2 - l1) * s1 ≤ ((l1 - l0) + 2 * (l2 - l1)) * s2) ∧
    ((∀ x y, x ≤ y → ∃ p q, F x = some p ∧ F y = some q ∧ p ≤ q) → ∀ x, ∃ p, F x = some p ∧ 0 ≤ p ∧ p ≤ 1) ∧
    F l0 = some 0 ∧ F l1 = some q1 ∧ F l2 = some 1 := by
  intro F s1 s2
  have h1 : 0 < l1 - l0 := sub_pos.2 hl1
  have h2 : 0 < l2 - l1 := sub_pos.2 hl2
  have h3 : 0 < l2 - l0 := by linarith
  have hF : ∀ x, F x = if x < l0 then some 0 else if l2 < x then some 1 else
      some (parabola (l0, q0) (l1, q1) (l2, q2) x) := fun x => rfl
  have hFin : ∀ x, l0 ≤ x → x ≤ l2 → F x = some (parabola (l0, q0) (l1, q1) (l2, q2) x) := by
    intro x a b; rw [hF, if_neg (not_lt.2 a), if_neg (not_lt.2 b)]
  set c := (s2 - s1) / (l2 - l0) with hc
  have hd : ∀ x y, parabola (l0, q0) (l1, q1) (l2, q2) y - parabola (l0, q0) (l1, q1) (l2, q2) x =
      (y - x) * (s1 + c * ((x - l0) + (y - l1))) :=
    fun x y => parabola_diff l0 l1 l2 q0 q1 q2 x y
  have e0 : parabola (l0, q0) (l1, q1) (l2, q2) l0 = 0 := by simp [parabola, hq0]
  have es1 : s1 * (l1 - l0) = q1 - q0 := div_mul_cancel₀ _ h1.ne'
  have es2 : s2 * (l2 - l1) = q2 - q1 := div_mul_cancel₀ _ h2.ne'
  have ec : c * (l2 - l0) = s2 - s1 := div_mul_cancel₀ _ h3.ne'
  have e1 : parabola (l0, q0) (l1, q1) (l2, q2) l1 = q1 := by
    have := hd l0 l1; rw [e0] at this; linear_combination this + es1 - hq0
  have e2 : parabola (l0, q0) (l1, q1) (l2, q2) l2 = 1 := by
    have := hd l0 l2; rw [e0] at this
    linear_combination this + es1 + es2 + hq3 - hq0 + (l2 - l1) * ec
  -- the derivative conditions
  have hA : (l1 - l0) * s2 ≤ (2 * (l1 - l0) + (l2 - l1)) * s1 ↔ 0 ≤ s1 - c * (l1 - l0) := by
    have : (2 * (l1 - l0) + (l2 - l1)) * s1 - (l1 - l0) * s2 = (l2 - l0) * (s1 - c * (l1 - l0)) := by
      linear_combination (l1 - l0) * ec
    rw [← sub_nonneg, this]
    exact ⟨fun h => nonneg_of_mul_nonneg_right h h3, fun h => mul_nonneg h3.le h⟩
  have hB : (l2 - l1) * s1 ≤ ((l1 - l0) + 2 * (l2 - l1)) * s2 ↔ 0 ≤ s1 + c * ((l2 - l0) + (l2 - l1)) := by
    have : ((l1 - l0) + 2 * (l2 - l1)) * s2 - (l2 - l1) * s1 = (l2 - l0) * (s1 + c * ((l2 - l0) + (l2 - l1))) := by
      linear_combination (-(l2 - l0) - (l2 - l1)) * ec
    rw [← sub_nonneg, this]
    exact ⟨fun h => nonneg_of_mul_nonneg_right h h3, fun h => mul_nonneg h3.le h⟩
  rw [hA, hB]
  refine ⟨⟨?_, ?_⟩, ?_, ?_, ?_, ?_⟩
  · intro hm
    have hmono : ∀ x y, l0 ≤ x → x < y → y ≤ l2 → 0 ≤ s1 + c * ((x - l0) + (y - l1)) := by
      intro x y a b d
      obtain ⟨p, q, hp, hq, hpq⟩ := hm x y b.le
      rw [hFin x a (b.le.trans d)] at hp
      rw [hFin y (a.trans b.le) d] at hq
      have hp := Option.some.inj hp
      have hq := Option.some.inj hq
      have := hd x y
      rw [hp, hq] at this
      have h4 : 0 ≤ (y - x) * (s1 + c * ((x - l0) + (y - l1))) := by rw [← this]; linarith
      exact nonneg_of_mul_nonneg_right h4 (sub_pos.2 b)
    constructor
    · by_contra hneg
      have hneg := not_le.1 hneg
      -- take y close to l0
      by_cases hc0 : c ≤ 0
      · have := hmono l0 l1 le_rfl hl1 hl2.le
        nlinarith
      · have hc0 := not_le.1 hc0
        set e := -(s1 - c * (l1 - l0)) / (2 * c) with he
        have hepos : 0 < e := by rw [he]; apply div_pos <;> linarith
        have hce : c * e = -(s1 - c * (l1 - l0)) / 2 := by rw [he]; field_simp
        rcases le_total e (l1 - l0) with h5 | h5
        · have := hmono l0 (l0 + e) le_rfl (by linarith) (by linarith)
          have : 0 ≤ s1 - c * (l1 - l0) + c * e := by linear_combination this
          rw [hce] at this; linarith
        · have := hmono l0 l1 le_rfl hl1 hl2.le
          have h6 : c * (l1 - l0) ≤ c * e := mul_le_mul_of_nonneg_left h5 hc0.le
          have : 0 ≤ s1 := by linear_combination this
          rw [hce] at h6; linarith
    · by_contra hneg
      have hneg := not_le.1 hneg
      by_cases hc0 : 0 ≤ c
      · have := hmono l1 l2 hl1.le hl2 le_rfl
        nlinarith [mul_nonneg hc0 h2.le]
      · have hc0 := not_le.1 hc0
        set D := s1 + c * ((l2 - l0) + (l2 - l1)) with hD
        set e := D / (2 * c) with he
        have hepos : 0 < e := by rw [he]; exact div_pos_of_neg_of_neg hneg (by linarith)
        have hce : c * e = D / 2 := by rw [he]; have := hc0.ne; field_simp
        rcases le_total e (l2 - l1) with h5 | h5
        · have := hmono (l2 - e) l2 (by linarith) (by linarith) le_rfl
          have : 0 ≤ D - c * e := by rw [hD]; linear_combination this
          rw [hce] at this; linarith
        · have := hmono l1 l2 hl1.le hl2 le_rfl
          have h6 : c * e ≤ c * (l2 - l1) := by nlinarith
          have : 0 ≤ D - c * (l2 - l1) := by rw [hD]; linear_combination this
          rw [hce] at h6; linarith
  · rintro ⟨hA, hB⟩
    have hmono : ∀ x y, l0 ≤ x → x ≤ y → y ≤ l2 →
        parabola (l0, q0) (l1, q1) (l2, q2) x ≤ parabola (l0, q0) (l1, q1) (l2, q2) y := by
      intro x y a b d
      rw [← sub_nonneg, hd]
      refine mul_nonneg (sub_nonneg.2 b) ?_
      rcases le_total 0 c with hc0 | hc0
      · have : 0 ≤ c * ((x - l0) + (y - l0)) := mul_nonneg hc0 (by linarith)
        linear_combination hA + this
      · have : 0 ≤ (-c) * ((l2 - x) + (l2 - y)) := mul_nonneg (by linarith) (by linarith)
        linear_combination hB + this
    intro x y hxy
    rw [hF x, hF y]
    by_cases a : x < l0
    · rw [if_pos a]
      by_cases b : y < l0
      · rw [if_pos b]; exact ⟨0, 0, rfl, rfl, le_rfl⟩
      · rw [if_neg b]
        by_cases d : l2 < y
        · rw [if_pos d]; exact ⟨0, 1, rfl, rfl, zero_le_one⟩
        · rw [if_neg d]
          exact ⟨0, _, rfl, rfl, by rw [← e0]; exact hmono l0 y le_rfl (not_lt.1 b) (not_lt.1 d)⟩
    · rw [if_neg a, if_neg (by linarith [not_lt.1 a] : ¬ y < l0)]
      by_cases b : l2 < x
      · rw [if_pos b, if_pos (by linarith)]; exact ⟨1, 1, rfl, rfl, le_rfl⟩
      · rw [if_neg b]
        by_cases d : l2 < y
        · rw [if_pos d]
          exact ⟨_, 1, rfl, rfl, by rw [← e2]; exact hmono x l2 (not_lt.1 a) (not_lt.1 b) le_rfl⟩
        · rw [if_neg d]
          exact ⟨_, _, rfl, rfl, hmono x y (not_lt.1 a) hxy (not_lt.1 d)⟩
  · intro hm x
    have a := hm (min x l0 - 1) x (by linarith [min_le_left x l0])
    have b := hm x (max x l2 + 1) (by linarith [le_max_left x l2])
    obtain ⟨p, q, hp, hq, hpq⟩ := a
    obtain ⟨p', q', hp', hq', hpq'⟩ := b
    rw [hF, if_pos (by linarith [min_le_right x l0])] at hp
    rw [hF, if_neg (by linarith [le_max_right x l2]), if_pos (by linarith [le_max_right x l2])] at hq'
    rw [hp'] at hq
    have hp := Option.some.inj hp
    have hq' := Option.some.inj hq'
    have hq := Option.some.inj hq
    exact ⟨p', hp', by rw [hp, hq]; exact hpq, by rw [hq']; exact hpq'⟩
  · rw [hFin l0 le_rfl (by linarith), e0]
  · rw [hFin l1 hl1.le hl2.le, e1]
  · rw [hFin l2 (by linarith) le_rfl, e2]

/-- **C19 is violated**: quantiles 0, 0.9, 1 at locations 0, 1, 2 (valid data that need no padding): the CDF exceeds 1 at
13/8, and decreases between 13/8 and 2. -/
theorem C19_not_a_cdf :
    ∃ (quants locs : List ℚ), QuantData quants [locs] ∧ padQuantiles quants [locs] = .ok (quants, [locs]) ∧
      quantCdf quadSpline3 quants locs (13/8) = some (169/160) ∧ quantCdf quadSpline3 quants locs 2 = some 1 :=
  ⟨[0, 9/10, 1], [0, 1, 2], ⟨by decide +kernel, by decide, by decide +kernel, by decide +kernel⟩, by decide +kernel, by decide +kernel, by decide +kernel⟩

example : ∃ F : ℚ → Option ℚ, F = quantCdf quadSpline3 [0, 1/2, 1] [0, 1, 2] ∧ F (1/2) = some (1/4) :=
  ⟨_, rfl, by decide +kernel⟩

/-! ## C20 -/

theorem strict_adjusted (l : List K) (h : l.Pairwise (· < ·)) : (adjustedLocs l).Pairwise (· < ·) ∧
    ∀ a t, l = a :: t → ∀ v ∈ adjustedLocs l, a < v := by
  induction l with
  | nil => simp [adjustedLocs]
  | cons a t ih =>
    match t with
    | [] => simp [adjustedLocs]
    | b :: t =>
      have hab : a < b := (List.pairwise_cons.1 h).1 b (by simp)
      obtain ⟨i1, i2⟩ := ih (List.pairwise_cons.1 h).2
      simp only [adjustedLocs]
      refine ⟨List.pairwise_cons.2 ⟨?_, i1⟩, ?_⟩
      · intro v hv
        have := i2 b t rfl v hv
        linarith
      · intro a' t' he v hv
        obtain ⟨rfl, -⟩ := List.cons.inj he
        rcases List.mem_cons.1 hv with rfl | hv
        · linarith
        · exact hab.trans (i2 b t rfl v hv)

theorem getElem?_adjusted (l : List K) : ∀ (i : ℕ) (a b : K), l[i]? = some a → l[i+1]? = some b →
    (adjustedLocs l)[i]? = some ((a + b) / 2) := by
  induction l with
  | nil => intro i a b h; simp at h
  | cons c t ih =>
    match t with
    | [] => intro i a b _ h; simp at h
    | d :: t =>
      intro i a b ha hb
      cases i with
      | zero =>
        simp at ha hb; subst ha hb
        simp only [adjustedLocs, List.getElem?_cons_zero]; congr 1; ring
      | succ i =>
        simp only [adjustedLocs, List.getElem?_cons_succ] at ha hb ⊢
        exact ih i a b ha hb

theorem length_adjusted (l : List K) : (adjustedLocs l).length = l.length - 1 := by
  induction l with
  | nil => rfl
  | cons a t ih =>
    match t with
    | [] => rfl
    | b :: t => simp [adjustedLocs] at ih ⊢; omega

private theorem diff_pos (l : List K) (h : l.Pairwise (· < ·)) : ∀ v ∈ diff l, 0 < v := by
  induction l with
  | nil => simp [diff]
  | cons a t ih =>
    match t with
    | [] => simp [diff]
    | b :: t =>
      intro v hv
      simp only [diff] at hv
      rcases List.mem_cons.1 hv with rfl | hv
      · exact sub_pos.2 ((List.pairwise_cons.1 h).1 b (by simp))
      · exact ih (List.pairwise_cons.1 h).2 v hv

theorem derivs_pos (q l : List K) (hq : q.Pairwise (· < ·)) (hl : l.Pairwise (· < ·)) :
    ∀ v ∈ cdfDerivs q l, 0 < v := by
  intro v hv
  unfold cdfDerivs at hv
  obtain ⟨i, hi⟩ := List.mem_iff_getElem?.1 hv
  rw [List.getElem?_zipWith_eq_some] at hi
  obtain ⟨x, y, hx, hy, rfl⟩ := hi
  exact div_pos (diff_pos q hq x (List.mem_of_getElem? hx)) (diff_pos l hl y (List.mem_of_getElem? hy))

theorem length_derivs (q l : List K) (h : q.length = l.length) : (cdfDerivs q l).length = l.length - 1 := by
  unfold cdfDerivs
  rw [List.length_zipWith, length_diff, length_diff]; omega

/-- **C20 (partial): the piecewise linear reconstruction** is never negative (at least three quantiles after padding). -/
theorem C20_linear_partial (quants locs : List K) (hq : quants.Pairwise (· < ·)) (hl : locs.Pairwise (· < ·))
    (hlen : quants.length = locs.length) (h3 : 3 ≤ locs.length) (x : K) :
    ∃ v, linearPdf quants locs x = some v ∧ 0 ≤ v := by
  have hadj := (strict_adjusted locs hl).1
  have hpos := derivs_pos quants locs hq hl
  have hlen1 := length_adjusted locs
  have hlen2 := length_derivs quants locs hlen
  exact (InterpPdf.C15_pdf_through_points (adjustedLocs locs) (cdfDerivs quants locs)
    ⟨hadj, by omega, by omega⟩).2.2.2 (fun v hv => (hpos v hv).le) x

/-- **C20 (partial): the piecewise constant reconstruction.** Its cells are the midpoints between consecutive locations; strictly
inside cell `i` (from midpoint `a` to midpoint `b`) its value is `v + (x - a) (v' - v)` with `v`, `v'` the slopes of the CDF on
the two sides; outside the midpoints it is 0. Hence it is non-negative in every cell not wider than 1. Missing: wider
cells, where it can be negative (`C20_constant_negative`). -/
theorem C20_constant_partial [FloorRing K] (quants locs : List K) (hq : quants.Pairwise (· < ·))
    (hl : locs.Pairwise (· < ·)) (hlen : quants.length = locs.length) (h3 : 3 ≤ locs.length)
    (hu : Bins.Uniform (adjustedLocs locs) ∨ Bins.DetectablyNonUniform (adjustedLocs locs)) (x : K) :
    (∀ (i : ℕ) l0 l1 l2 q0 q1 q2, locs[i]? = some l0 → locs[i+1]? = some l1 → locs[i+2]? = some l2 →
      quants[i]? = some q0 → quants[i+1]? = some q1 → quants[i+2]? = some q2 →
      (l0 + l1) / 2 < x → x < (l1 + l2) / 2 →
      let v := (q1 - q0) / (l1 - l0)
      let v' := (q2 - q1) / (l2 - l1)
      constantPdf quants locs x = .ok (v + (x - (l0 + l1) / 2) * (v' - v)) ∧
      ((l2 - l0) / 2 ≤ 1 → 0 ≤ v + (x - (l0 + l1) / 2) * (v' - v))) ∧
    ((∀ e ∈ adjustedLocs locs, x < e) ∨ (∀ e ∈ adjustedLocs locs, e < x) → constantPdf quants locs x = .ok 0) := by
  have hadj := (strict_adjusted locs hl).1
  have hlen1 := length_adjusted locs
  have hlen2 := length_derivs quants locs hlen
  have hC := Bins.C05_bin_lookup_partial (adjustedLocs locs) (by omega) hadj hu x
  constructor
  · intro i l0 l1 l2 q0 q1 q2 e0 e1 e2 f0 f1 f2 hx1 hx2 v v'
    have hlt : ∀ (j : ℕ) (a b : K) (l : List K), l.Pairwise (· < ·) → l[j]? = some a → l[j+1]? = some b → a < b := by
      intro j a b l hs ha hb
      obtain ⟨h1, rfl⟩ := List.getElem?_eq_some_iff.1 ha
      obtain ⟨h2, rfl⟩ := List.getElem?_eq_some_iff.1 hb
      exact List.pairwise_iff_getElem.1 hs j (j+1) h1 h2 (by omega)
    have hl01 := hlt i l0 l1 locs hl e0 e1
    have hl12 := hlt (i+1) l1 l2 locs hl e1 e2
    have hq01 := hlt i q0 q1 quants hq f0 f1
    have hq12 := hlt (i+1) q1 q2 quants hq f1 f2
    have hb0 := getElem?_adjusted locs i l0 l1 e0 e1
    have hb1 := getElem?_adjusted locs (i+1) l1 l2 e1 e2
    have hd0 : (cdfDerivs quants locs)[i]? = some v := by
      unfold cdfDerivs
      rw [List.getElem?_zipWith_eq_some]
      exact ⟨_, _, getElem?_diff quants i q0 q1 f0 f1, getElem?_diff locs i l0 l1 e0 e1, rfl⟩
    have hd1 : (cdfDerivs quants locs)[i+1]? = some v' := by
      unfold cdfDerivs
      rw [List.getElem?_zipWith_eq_some]
      exact ⟨_, _, getElem?_diff quants (i+1) q1 q2 f1 f2,
        getElem?_diff locs (i+1) l1 l2 e1 e2, rfl⟩
    have app : ∀ (l : List K) (j : ℕ) (a b : K), l[j]? = some a → (l ++ [b])[j]? = some a := by
      intro l j a b h
      rw [List.getElem?_append_left (List.getElem?_eq_some_iff.1 h).1]; exact h
    have hbin := hC.1 i ⟨(l0 + l1) / 2, (l1 + l2) / 2, hb0, hb1, hx1, hx2⟩
    constructor
    · unfold constantPdf evalHistDeriv
      simp only
      rw [hbin]
      simp only
      rw [hb0, app _ _ _ 0 hd0,
        app _ _ _ 0 (getElem?_diff _ i v v' (app _ _ _ 0 hd0) (app _ _ _ 0 hd1))]
      simp
    · intro hw
      have hv : 0 ≤ v := (div_pos (sub_pos.2 hq01) (sub_pos.2 hl01)).le
      have hv' : 0 ≤ v' := (div_pos (sub_pos.2 hq12) (sub_pos.2 hl12)).le
      have ht0 : 0 ≤ x - (l0 + l1) / 2 := by linarith
      have ht1 : x - (l0 + l1) / 2 ≤ 1 := by linarith
      have : v + (x - (l0 + l1) / 2) * (v' - v) = (1 - (x - (l0 + l1) / 2)) * v + (x - (l0 + l1) / 2) * v' := by ring
      rw [this]
      exact add_nonneg (mul_nonneg (by linarith) hv) (mul_nonneg ht0 hv')
  · intro hout
    unfold constantPdf evalHistDeriv
    simp only
    rw [hC.2 hout]
    simp only
    have hex : ∀ l : List K, 0 < l.length → ∃ a, l[0]? = some a := fun l h => ⟨l[0], List.getElem?_eq_getElem h⟩
    obtain ⟨a, ha⟩ := hex (adjustedLocs locs) (by omega)
    obtain ⟨b, hb⟩ := hex (cdfDerivs quants locs ++ [0]) (by simp)
    obtain ⟨c, hc⟩ := hex (diff (cdfDerivs quants locs ++ [0]) ++ [0]) (by simp)
    rw [ha, hb, hc]
    simp

/-- **C20 is violated by the piecewise constant reconstruction**: quantiles 0, 9/10, 1 at locations 0, 2, 4. -/
theorem C20_constant_negative :
    ∃ (quants locs : List ℚ) (x v : ℚ), QuantData quants [locs] ∧ padQuantiles quants [locs] = .ok (quants, [locs]) ∧
      constantPdf quants locs x = .ok v ∧ v < 0 :=
  ⟨[0, 9/10, 1], [0, 2, 4], 29/10, -31/100, ⟨by decide +kernel, by decide, by decide +kernel, by decide +kernel⟩,
    by decide +kernel, by decide +kernel, by norm_num⟩

/-- **C20 (partial): the dual spline reconstruction** interpolates nodes that are never negative. Missing: the splines through
them, whose average can be negative between the nodes (`C20_dual_spline_negative`). -/
theorem C20_dual_spline_nodes_partial (quants locs : List K) (h : quants.length = locs.length) (hne : locs ≠ []) :
    (dualNodes quants locs).length = locs.length ∧ ∀ v ∈ dualNodes quants locs, 0 ≤ v := by
  have go : ∀ (l : List K) (p : K), (dualGo p l).length = l.length ∧ ∀ v ∈ dualGo p l, 0 ≤ v := by
    intro l
    induction l with
    | nil => intro p; simp [dualGo]
    | cons f t ih =>
      intro p
      obtain ⟨i1, i2⟩ := ih (max 0 (f - p))
      refine ⟨by simp [dualGo, i1], ?_⟩
      intro v hv
      simp only [dualGo] at hv
      rcases List.mem_cons.1 hv with rfl | hv
      · exact le_max_left _ _
      · exact i2 v hv
  obtain ⟨g1, g2⟩ := go (List.zipWith (fun a b => 2 * a / b) (diff quants) (diff locs)) 0
  constructor
  · have : 0 < locs.length := List.length_pos_of_ne_nil hne
    simp only [dualNodes, List.length_cons, g1, List.length_zipWith, length_diff]
    omega
  · intro v hv
    rcases List.mem_cons.1 hv with rfl | hv
    · exact le_rfl
    · exact g2 v hv

/-- **C20 is violated by the dual spline reconstruction**: eight locations 0..7, the density at 3/2 is -37/1536. -/
theorem C20_dual_spline_negative :
    ∃ (quants locs : List ℚ) (x v : ℚ), QuantData quants [locs] ∧ padQuantiles quants [locs] = .ok (quants, [locs]) ∧
      dualPdf cubicSpline4 quants locs x = some v ∧ v < 0 :=
  ⟨[0, 1/12, 2/12, 3/12, 4/12, 10/12, 11/12, 1], [0, 1, 2, 3, 4, 5, 6, 7], 3/2, -37/1536,
    ⟨by decide +kernel, by decide, by decide +kernel, by decide +kernel⟩, by decide +kernel, by decide +kernel, by norm_num⟩

example : linearPdf ([0, 1/4, 3/4, 1] : List ℚ) [0, 1, 2, 4] 1 = some (3/8) := by decide +kernel
example : (constantPdf ([0, 1/4, 3/4, 1] : List ℚ) [0, 1, 2, 4] (3/4)).toOption = some (5/16) := by decide +kernel
example : Bins.DetectablyNonUniform (adjustedLocs ([0, 1, 2, 4] : List ℚ)) :=
  ⟨1/2, 3/2, 1, 3/2, 3, by norm_num [adjustedLocs], by norm_num [adjustedLocs], by norm_num [adjustedLocs],
    by norm_num [adjustedLocs], by norm_num⟩

/-! ## C21 -/

private theorem mapM_range_some {α : Type*} (fs : List α) : ∀ (n s : ℕ), s + n ≤ fs.length →
    (List.range' s n).mapM (fun r => fs[r]?) = some ((fs.drop s).take n) := by
  intro n
  induction n with
  | zero => intro s _; simp
  | succ n ih =>
    intro s h
    rw [List.range'_succ, List.mapM_cons, ih (s+1) (by omega), List.getElem?_eq_getElem (by omega)]
    simp only [Option.bind_eq_bind, Option.bind_some, Option.pure_def]
    rw [List.drop_eq_getElem_cons (by omega : s < fs.length), List.take_succ_cons]

/-- **C21, exact behaviour of the two spline reconstructions** (`cdf_spline_derivative`, `dual_spline_average`): whatever the
densities `fs` reconstructed for the rows and whatever the points, *every* row of `ens.pdf(x)` is the density of the
first PDF. -/
theorem C21_spline_rows_exact {β : Type*} (f0 : K → β) (fs : List (K → β)) (x : List K) :
    evalShared (splineConstruct (f0 :: fs)) (fs.length + 1) x = .ok ((f0 :: fs).map fun _ => x.map f0) := by
  unfold evalShared scipyEval
  by_cases hx : x = []
  · subst hx
    simp [List.map_replicate]
    rw [← List.replicate_succ, List.eq_replicate_iff]; simp
  · have hne : ((List.replicate (fs.length + 1) x).flatten.isEmpty) = false := by
      rw [List.replicate_succ, List.flatten_cons]
      simp [hx]
    rw [hne]
    have hu : unique (flatRows 0 (List.replicate (fs.length + 1) x)) = List.range (fs.length + 1) := unique_flatRows_replicate hx _
    have hcore : splineConstruct (f0 :: fs) (.vec (List.replicate (fs.length + 1) x).flatten)
        (.vec (flatRows 0 (List.replicate (fs.length + 1) x))) =
        .ok ((f0 :: fs).flatMap fun f => (List.replicate (fs.length + 1) x).flatten.map f) := by
      unfold splineConstruct
      simp only [Pts.ravel]
      rw [hu, List.range_eq_range', mapM_range_some (f0 :: fs) (fs.length + 1) 0 (by simp)]
      have : ((f0 :: fs).drop 0).take (fs.length + 1) = f0 :: fs := by simp
      rw [this]
    rw [hcore]
    simp only [Bool.false_eq_true, if_false]
    rw [if_neg]
    · congr 1
      rw [List.flatMap_cons]
      have key : ∀ (n : ℕ) (rest : List β),
          unflatten (List.replicate n x) ((List.replicate n x).flatten.map f0 ++ rest) = List.replicate n (x.map f0) := by
        intro n
        induction n with
        | zero => intro rest; simp [unflatten]
        | succ n ih =>
          intro rest
          rw [List.replicate_succ, List.flatten_cons, List.map_append, List.append_assoc]
          simp only [unflatten]
          rw [List.take_left' (by simp), List.drop_left' (by simp), ih]; rfl
      rw [key, eq_comm, List.eq_replicate_iff]
      simp
    · rw [List.flatMap_cons]; simp

/-- **C21 (partial).** The spline reconstructions are right for a single PDF; the piecewise linear and piecewise constant ones,
which go through the evaluation dispatch, are right for increasing points (C01). Missing: several PDFs with a spline
reconstruction, where the answer is wrong (`C21_spline_rows_exact`, `C21_spline_rows_wrong`). -/
theorem C21_rows_partial {β : Type*} (f : ℕ → K → β) (npdf : ℕ) (x : List K) :
    evalShared (splineConstruct [f 0]) 1 x = .ok [x.map (f 0)] ∧
    (x.Pairwise (· < ·) → evalShared (dispatch f f f) npdf x = .ok (Evaluation.SharedSpec f npdf x)) := by
  refine ⟨?_, fun hx => Evaluation.C01_shared_grid_partial f npdf x (Or.inl hx)⟩
  simpa using C21_spline_rows_exact (f 0) [] x

/-- **C21 is violated by the spline reconstructions**: whenever the second PDF differs from the first at a requested point, the
second row is not the second PDF. -/
theorem C21_spline_rows_wrong {β : Type*} (f0 f1 : K → β) (fs : List (K → β)) (x : List K) (v : K) (hv : v ∈ x)
    (hne : f0 v ≠ f1 v) :
    evalShared (splineConstruct (f0 :: f1 :: fs)) ((f0 :: f1 :: fs).length) x ≠
      .ok ((f0 :: f1 :: fs).map fun f => x.map f) := by
  have h := C21_spline_rows_exact f0 (f1 :: fs) x
  rw [List.length_cons, h]
  intro hc
  simp only [Except.ok.injEq, List.map_cons, List.cons.injEq] at hc
  have := List.map_inj_left.1 hc.2.1 v hv
  exact hne this

example : (evalShared (splineConstruct [fun v : ℚ => v, fun v => v + 10]) 2 [1, 2, 3]).toOption =
    some [[1, 2, 3], [1, 2, 3]] := by decide +kernel

/-! ## C22 -/

/-- the names documented for quantile reconstructions -/
def knownNames : List String :=
  ["cdf_spline_derivative", "dual_spline_average", "piecewise_linear", "piecewise_constant"]

/-- the reconstruction each name stands for -/
def Denotes : String → Recon → Prop
  | n, .cdfSplineDerivative => n = "cdf_spline_derivative"
  | n, .dualSplineAverage => n = "dual_spline_average"
  | n, .piecewiseLinear => n = "piecewise_linear"
  | n, .piecewiseConstant => n = "piecewise_constant"

/-- the three places that record the choice agree, on a known name -/
def Coherent (s : QuantState) : Prop := s.name ∈ knownNames ∧ s.metaName = s.name ∧ Denotes s.name s.inUse

private theorem lookup_known (n : String) :
    (∃ r, pdfConstructors.lookup n = some r ∧ Denotes n r ∧ n ∈ knownNames) ∨
    (pdfConstructors.lookup n = none ∧ n ∉ knownNames) := by
  by_cases h1 : n = "cdf_spline_derivative"
  · subst h1; exact Or.inl ⟨.cdfSplineDerivative, by decide +kernel, rfl, by decide +kernel⟩
  by_cases h2 : n = "dual_spline_average"
  · subst h2; exact Or.inl ⟨.dualSplineAverage, by decide +kernel, rfl, by decide +kernel⟩
  by_cases h3 : n = "piecewise_linear"
  · subst h3; exact Or.inl ⟨.piecewiseLinear, by decide +kernel, rfl, by decide +kernel⟩
  by_cases h4 : n = "piecewise_constant"
  · subst h4; exact Or.inl ⟨.piecewiseConstant, by decide +kernel, rfl, by decide +kernel⟩
  · right
    refine ⟨?_, by simp [knownNames, h1, h2, h3, h4]⟩
    have e : ∀ s : String, n ≠ s → (n == s) = false := fun s h => by simpa using h
    simp only [pdfConstructors, List.lookup, e _ h1, e _ h2, e _ h3, e _ h4]

/-- **C22: one assignment.** An unknown name raises `ValueError` and leaves the object as it was; a known name is
accepted, becomes the reported name, and the object stays coherent. -/
theorem C22_assign (s : QuantState) (hs : Coherent s) (value : String) (same : Bool) :
    (value ∉ knownNames → setRecon s value same = (s, some .ValueError)) ∧
    (value ∈ knownNames → ∃ s', setRecon s value same = (s', none) ∧ s'.name = value ∧ Coherent s') := by
  rcases lookup_known value with ⟨r, h1, h2, h3⟩ | ⟨h1, h2⟩
  · refine ⟨fun h => absurd h3 h, fun _ => ?_⟩
    unfold setRecon
    rw [h1]
    simp only
    split
    · next hc => exact ⟨s, rfl, hc.2.symm, hs⟩
    · exact ⟨_, rfl, rfl, h3, rfl, h2⟩
  · refine ⟨fun _ => ?_, fun h => absurd h h2⟩
    unfold setRecon
    rw [h1]

/-- **C22: any history.** After construction with any name (which fails with `KeyError` exactly for unknown names) and any
sequence of assignments, failing or not, the reported name, the metadata and the reconstruction in use agree. -/
theorem C22_history (name : String) (ops : List (String × Bool)) :
    (name ∉ knownNames → quantStateInit name = .error .KeyError) ∧
    (name ∈ knownNames → ∃ s, quantStateInit name = .ok s ∧
      Coherent (ops.foldl (fun s op => (setRecon s op.1 op.2).1) s)) := by
  rcases lookup_known name with ⟨r, h1, h2, h3⟩ | ⟨h1, h2⟩
  · refine ⟨fun h => absurd h3 h, fun _ => ⟨⟨name, r, name⟩, by simp [quantStateInit, h1], ?_⟩⟩
    have hinv : ∀ (ops : List (String × Bool)) s, Coherent s →
        Coherent (ops.foldl (fun s op => (setRecon s op.1 op.2).1) s) := by
      intro ops
      induction ops with
      | nil => intro s h; exact h
      | cons op t ih =>
        intro s h
        refine ih _ ?_
        show Coherent (setRecon s op.1 op.2).1
        obtain ⟨a, b⟩ := C22_assign s h op.1 op.2
        by_cases hk : op.1 ∈ knownNames
        · obtain ⟨s', e, _, hc⟩ := b hk
          rw [e]; exact hc
        · rw [a hk]; exact h
    exact hinv ops _ ⟨h3, rfl, h2⟩
  · refine ⟨fun _ => by simp [quantStateInit, h1], fun h => absurd h h2⟩

example : Coherent ⟨"piecewise_linear", .piecewiseLinear, "piecewise_linear"⟩ := ⟨by decide +kernel, rfl, rfl⟩
example : setRecon ⟨"piecewise_linear", .piecewiseLinear, "piecewise_linear"⟩ "nope" false =
    (⟨"piecewise_linear", .piecewiseLinear, "piecewise_linear"⟩, some .ValueError) := by decide +kernel
example : (setRecon ⟨"piecewise_linear", .piecewiseLinear, "piecewise_linear"⟩ "dual_spline_average" false).1.inUse =
    .dualSplineAverage := by decide +kernel

end Verif.Props.Quant
