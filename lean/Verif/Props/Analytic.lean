import Verif.Model.Analytic
import Verif.Spec.Analytic
import Mathlib.Algebra.Order.Ring.Rat
import Mathlib.Tactic.Linarith
import Mathlib.Tactic.FieldSimp
import Mathlib.Tactic.Ring
import Mathlib.Analysis.SpecialFunctions.Exp
import Mathlib.MeasureTheory.Integral.IntegrableOn
import Mathlib.MeasureTheory.Measure.Lebesgue.Basic

/-!
# C103: analytic ensembles and the distributions of scipy
-/

set_option linter.unusedSectionVars false
set_option autoImplicit false

namespace Verif.Props.Analytic

open Verif Verif.Model Verif.Spec

variable {K : Type} [Field K] [LinearOrder K] [IsStrictOrderedRing K]

/-! ### masks and places -/

theorem place_map {α β : Type} (g : α → β) (c : α → Bool) (v : α → β) (l : List α) :
    place (l.map g) (l.map c) ((l.filter c).map v) = l.map fun e => if c e then v e else g e := by
  induction l with
  | nil => rfl
  | cons e l ih =>
    by_cases h : c e
    · simp only [List.map_cons, List.filter_cons, h, if_true, place, ih]
    · simp only [Bool.not_eq_true] at h
      simp only [List.map_cons, List.filter_cons, h, Bool.false_eq_true, if_false, place, ih]

theorem unflatten_zip {β : Type} (h : Entry K → β) (ps : List (Params K)) (X : List (List K)) (hl : ps.length = X.length) :
    unflatten X ((entries ps X).map h) = List.zipWith (fun (p : Params K) xs => xs.map fun x => h ⟨x, p.shape, p.loc, p.scale⟩) ps X := by
  induction ps generalizing X with
  | nil =>
    cases X with
    | nil => rfl
    | cons => simp at hl
  | cons p ps ih =>
    cases X with
    | nil => simp at hl
    | cons xs X =>
      simp only [List.length_cons, Nat.add_right_cancel_iff] at hl
      simp only [entries, List.zipWith_cons_cons, List.flatten_cons, List.map_append, unflatten] at ih ⊢
      rw [List.take_left' (by simp), List.drop_left' (by simp), ih X hl, List.map_map]
      rfl

/-! ### positions -/

theorem le_y {e : Entry K} (hs : 0 < e.scale) (a : K) : a ≤ e.y ↔ e.loc + e.scale * a ≤ e.x := by
  rw [Entry.y, le_div_iff₀ hs]; constructor <;> intro h <;> linarith [mul_comm a e.scale]

theorem y_le {e : Entry K} (hs : 0 < e.scale) (a : K) : e.y ≤ a ↔ e.x ≤ e.loc + e.scale * a := by
  rw [Entry.y, div_le_iff₀ hs]; constructor <;> intro h <;> linarith [mul_comm a e.scale]

theorem inClosed_iff {e : Entry K} (hs : 0 < e.scale) (s : Option K × Option K) :
    inClosed s e.y = true ↔ (∀ a ∈ s.1, e.loc + e.scale * a ≤ e.x) ∧ (∀ b ∈ s.2, e.x ≤ e.loc + e.scale * b) := by
  simp only [inClosed, Bool.and_eq_true, Option.all_eq_true, decide_eq_true_eq, le_y hs, y_le hs, Option.mem_def]

theorem inOpen_iff {e : Entry K} (hs : 0 < e.scale) (s : Option K × Option K) :
    inOpen s e.y = true ↔ ¬ (∃ a ∈ s.1, e.x ≤ e.loc + e.scale * a) ∧ ¬ (∃ b ∈ s.2, e.loc + e.scale * b ≤ e.x) := by
  simp only [inOpen, Bool.and_eq_true, Option.all_eq_true, decide_eq_true_eq, Option.mem_def, not_exists, not_and, ← y_le hs, ← le_y hs, not_le]

theorem above_iff {e : Entry K} (hs : 0 < e.scale) (s : Option K × Option K) :
    above s e.y = true ↔ ∃ b ∈ s.2, e.loc + e.scale * b ≤ e.x := by
  simp only [above, Option.any_eq_true, decide_eq_true_eq, le_y hs, Option.mem_def]

/-! ### the front ends, entry by entry -/

/-- parameters that the distribution accepts -/
def Accepted (d : DistObj K) (p : Params K) : Prop := d.cls.argcheck p.shape = true ∧ 0 < p.scale

instance (d : DistObj K) (p : Params K) : Decidable (Accepted d p) := inferInstanceAs (Decidable (_ ∧ _))

theorem valid_iff (d : DistObj K) (p : Params K) (x : K) : d.valid ⟨x, p.shape, p.loc, p.scale⟩ = true ↔ Accepted d p := by
  simp [DistObj.valid, Accepted]

/-- the value of the density at one point: `none` is `nan` -/
def pdfAt (d : DistObj K) (p : Params K) (x : K) : Option K :=
  if Accepted d p then some (scaledDensity (d.support p.shape).1 (d.support p.shape).2 (d.cls.pdf p.shape) p.loc p.scale x) else none

/-- the value of the distribution function at one point -/
def cdfAt (d : DistObj K) (p : Params K) (x : K) : Option K :=
  if Accepted d p then some (scaledCdf (d.support p.shape).1 (d.support p.shape).2 (d.cls.cdf p.shape) p.loc p.scale x) else none

/-- the quantile of one probability -/
def ppfAt (d : DistObj K) (p : Params K) (q : K) : Ext K :=
  if Accepted d p then
    if q = 0 then (d.support p.shape).1.elim .negInf fun a => .fin (p.loc + p.scale * a)
    else if q = 1 then (d.support p.shape).2.elim .posInf fun b => .fin (p.loc + p.scale * b)
    else if 0 < q ∧ q < 1 then .fin (p.loc + p.scale * d.cls.ppf p.shape q)
    else .nan
  else .nan

/-- **C103, density, distribution function and quantiles of every distribution object**: row `i`, entry `j` of the result is the value of the
distribution moved by the location and stretched by the scale of PDF `i`, at point `j` of row `i`, `nan` for parameters outside the domain. -/
theorem C103_values (d : DistObj K) (ps : List (Params K)) (X : List (List K)) (hl : ps.length = X.length) :
    analyticEval d.pdfs ps X = List.zipWith (fun p xs => xs.map (pdfAt d p)) ps X ∧
    analyticEval d.cdfs ps X = List.zipWith (fun p xs => xs.map (cdfAt d p)) ps X ∧
    analyticEval d.ppfs ps X = List.zipWith (fun p xs => xs.map (ppfAt d p)) ps X := by
  refine ⟨?_, ?_, ?_⟩
  · rw [analyticEval, DistObj.pdfs]
    rw [place_map, unflatten_zip _ _ _ hl]
    congr 1
    funext p xs
    congr 1
    funext x
    by_cases hv : Accepted d p
    · have h1 := (valid_iff d p x).2 hv
      have hs : 0 < (⟨x, p.shape, p.loc, p.scale⟩ : Entry K).scale := hv.2
      simp only [h1, Bool.true_and, pdfAt, if_pos hv, if_true, scaledDensity, decide_eq_true hv.2, Bool.and_true]
      by_cases hc : inClosed (d.support p.shape) (⟨x, p.shape, p.loc, p.scale⟩ : Entry K).y = true
      · rw [if_pos hc, if_pos ((inClosed_iff hs _).1 hc)]; rfl
      · rw [if_neg hc, if_neg (fun hh => hc ((inClosed_iff hs _).2 hh))]
    · have h1 : d.valid ⟨x, p.shape, p.loc, p.scale⟩ = false := by
        rw [← Bool.not_eq_true]; exact fun h => hv ((valid_iff d p x).1 h)
      simp [h1, pdfAt, hv]
  · rw [analyticEval, DistObj.cdfs]
    rw [place_map, place_map, unflatten_zip _ _ _ hl]
    congr 1
    funext p xs
    congr 1
    funext x
    by_cases hv : Accepted d p
    · have h1 := (valid_iff d p x).2 hv
      have hs : 0 < (⟨x, p.shape, p.loc, p.scale⟩ : Entry K).scale := hv.2
      simp only [h1, Bool.true_and, cdfAt, if_pos hv, if_true, scaledCdf, decide_eq_true hv.2, Bool.and_true]
      by_cases hc : inOpen (d.support p.shape) (⟨x, p.shape, p.loc, p.scale⟩ : Entry K).y = true
      · have h2 := (inOpen_iff hs _).1 hc
        rw [if_pos hc, if_neg h2.2, if_neg h2.1]; rfl
      · rw [if_neg hc]
        by_cases ha : above (d.support p.shape) (⟨x, p.shape, p.loc, p.scale⟩ : Entry K).y = true
        · rw [if_pos ha, if_pos ((above_iff hs _).1 ha)]
        · have h3 : ¬ ∃ b ∈ (d.support p.shape).2, p.loc + p.scale * b ≤ x := fun hh => ha ((above_iff hs _).2 hh)
          rw [if_neg ha, if_neg h3, if_pos]
          by_contra h4
          exact hc ((inOpen_iff hs _).2 ⟨h4, h3⟩)
    · have h1 : d.valid ⟨x, p.shape, p.loc, p.scale⟩ = false := by
        rw [← Bool.not_eq_true]; exact fun h => hv ((valid_iff d p x).1 h)
      simp [h1, cdfAt, hv]
  · rw [analyticEval, DistObj.ppfs]
    rw [place_map, place_map, place_map, unflatten_zip _ _ _ hl]
    congr 1
    funext p xs
    congr 1
    funext x
    by_cases hv : Accepted d p
    · have h1 := (valid_iff d p x).2 hv
      simp only [h1, Bool.true_and, ppfAt, if_pos hv, decide_eq_true_eq, Bool.and_eq_true]
      by_cases h0 : x = 0
      · subst h0
        rw [if_neg (by simp), if_neg (by simp), if_pos rfl, if_pos rfl]
        cases (d.support p.shape).1 with
        | none => rfl
        | some a => simp [scaledEnd, mul_comm, add_comm]
      · by_cases h1 : x = 1
        · subst h1
          rw [if_neg (by simp), if_pos rfl, if_neg h0, if_pos rfl]
          cases (d.support p.shape).2 with
          | none => rfl
          | some a => simp [scaledEnd, mul_comm, add_comm]
        · rw [if_neg h0, if_neg h1, if_neg h1, if_neg h0]
          by_cases h2 : 0 < x ∧ x < 1
          · rw [if_pos h2, if_pos h2]; simp [mul_comm, add_comm]
          · rw [if_neg h2, if_neg h2]
    · have h1 : d.valid ⟨x, p.shape, p.loc, p.scale⟩ = false := by
        rw [← Bool.not_eq_true]; exact fun h => hv ((valid_iff d p x).1 h)
      simp [h1, ppfAt, hv]

/-! ### the wrapped classes against scipy's distributions -/

theorem support_wrap (c : DistClass K) (s : List K) : (wrapCreate c).support s = (c.ownSupport.map fun g => g s).getD (none, none) := by
  unfold DistObj.support wrapCreate
  cases c.ownSupport <;> rfl

/-- The point is in the support of scipy's distribution with these parameters. -/
def InSupport (d : DistObj K) (p : Params K) (x : K) : Prop :=
  (∀ a ∈ (d.support p.shape).1, p.loc + p.scale * a ≤ x) ∧ ∀ b ∈ (d.support p.shape).2, x ≤ p.loc + p.scale * b

/-- The point is between the ends of the support of scipy's distribution with these parameters. -/
def Inside (d : DistObj K) (p : Params K) (x : K) : Prop :=
  (∀ a ∈ (d.support p.shape).1, p.loc + p.scale * a < x) ∧ ∀ b ∈ (d.support p.shape).2, x < p.loc + p.scale * b

theorem accepted_wrap (d : DistObj K) (p : Params K) : Accepted (wrapCreate d.cls) p ↔ Accepted d p := Iff.rfl

theorem density_line (f : K → K) (loc scale x : K) : scaledDensity none none f loc scale x = f ((x - loc) / scale) / scale := by
  simp [scaledDensity]

theorem cdf_line (F : K → K) (loc scale x : K) : scaledCdf none none F loc scale x = F ((x - loc) / scale) := by simp [scaledCdf]

/-- **C103, partial**: the class of qp made from a distribution of scipy has its density at the points of the support, its distribution function
between the ends, and its quantiles of probabilities other than 0 and 1. Missing because the code violates it: the points outside the support and
the probabilities 0 and 1 (`C103_pdf_iff`, `C103_cdf_iff`, `C103_ppf_ends`). -/
theorem C103_inside_partial (d : DistObj K) (ps : List (Params K)) (X : List (List K)) (hl : ps.length = X.length) :
    ((∀ r ∈ ps.zip X, ∀ x ∈ r.2, InSupport d r.1 x) → analyticEval (wrapCreate d.cls).pdfs ps X = analyticEval d.pdfs ps X) ∧
    ((∀ r ∈ ps.zip X, ∀ x ∈ r.2, Inside d r.1 x) → analyticEval (wrapCreate d.cls).cdfs ps X = analyticEval d.cdfs ps X) ∧
    ((∀ r ∈ ps.zip X, ∀ x ∈ r.2, x ≠ 0 ∧ x ≠ 1) → analyticEval (wrapCreate d.cls).ppfs ps X = analyticEval d.ppfs ps X) := by
  have key : ∀ {β : Type} (f g : Params K → K → β) (P : Params K → K → Prop), (∀ p x, P p x → f p x = g p x) →
      (∀ r ∈ ps.zip X, ∀ x ∈ r.2, P r.1 x) → List.zipWith (fun p xs => xs.map (f p)) ps X = List.zipWith (fun p xs => xs.map (g p)) ps X := by
    intro β f g P hfg
    clear hl
    induction ps generalizing X with
    | nil => intro _; rfl
    | cons p ps ih =>
      cases X with
      | nil => intro _; rfl
      | cons xs X =>
        intro h
        simp only [List.zipWith_cons_cons, List.zip_cons_cons, List.forall_mem_cons] at h ⊢
        rw [ih X h.2, List.map_congr_left fun x hx => hfg p x (h.1 x hx)]
  have hsup : ∀ s, (wrapCreate d.cls).support s = d.support s ∨ (wrapCreate d.cls).support s = (none, none) := by
    intro s
    rw [support_wrap]
    unfold DistObj.support
    cases d.cls.ownSupport
    · exact Or.inr rfl
    · exact Or.inl rfl
  refine ⟨fun h => ?_, fun h => ?_, fun h => ?_⟩
  · rw [(C103_values _ ps X hl).1, (C103_values d ps X hl).1]
    refine key _ _ (InSupport d) (fun p x hp => ?_) h
    simp only [pdfAt, accepted_wrap]
    rcases hsup p.shape with hs | hs
    · rw [hs]; rfl
    · rw [hs, density_line]
      have : scaledDensity (d.support p.shape).1 (d.support p.shape).2 (d.cls.pdf p.shape) p.loc p.scale x =
          d.cls.pdf p.shape ((x - p.loc) / p.scale) / p.scale := if_pos hp
      rw [this]; rfl
  · rw [(C103_values _ ps X hl).2.1, (C103_values d ps X hl).2.1]
    refine key _ _ (Inside d) (fun p x hp => ?_) h
    simp only [cdfAt, accepted_wrap]
    rcases hsup p.shape with hs | hs
    · rw [hs]; rfl
    · rw [hs, cdf_line]
      have : scaledCdf (d.support p.shape).1 (d.support p.shape).2 (d.cls.cdf p.shape) p.loc p.scale x =
          d.cls.cdf p.shape ((x - p.loc) / p.scale) := by
        rw [scaledCdf, if_neg, if_neg]
        · rintro ⟨a, ha, hx⟩; exact absurd (hp.1 a ha) (not_lt.2 hx)
        · rintro ⟨a, ha, hx⟩; exact absurd (hp.2 a ha) (not_lt.2 hx)
      rw [this]; rfl
  · rw [(C103_values _ ps X hl).2.2, (C103_values d ps X hl).2.2]
    refine key _ _ (fun _ x => x ≠ 0 ∧ x ≠ 1) (fun p x hp => ?_) h
    simp only [ppfAt, accepted_wrap, hp.1, hp.2, if_false]
    rfl

/-- **C103, distributions on the whole line and distributions with a support of their own**: everything agrees with scipy. -/
theorem C103_whole_line (d : DistObj K) (h : d.cls.ownSupport.isSome ∨ (d.a = none ∧ d.b = none)) (ps : List (Params K)) (X : List (List K)) :
    analyticEval (wrapCreate d.cls).pdfs ps X = analyticEval d.pdfs ps X ∧
    analyticEval (wrapCreate d.cls).cdfs ps X = analyticEval d.cdfs ps X ∧
    analyticEval (wrapCreate d.cls).ppfs ps X = analyticEval d.ppfs ps X := by
  have hs : (wrapCreate d.cls).support = d.support := by
    funext s
    rw [support_wrap]
    unfold DistObj.support
    cases ho : d.cls.ownSupport with
    | none =>
      rw [ho] at h
      simp only [Option.isSome_none, Bool.false_eq_true, false_or] at h
      simp [h.1, h.2]
    | some g => rfl
  have hv : (wrapCreate d.cls).valid = d.valid := rfl
  have hc : (wrapCreate d.cls).cls = d.cls := rfl
  refine ⟨?_, ?_, ?_⟩ <;>
    simp only [analyticEval, DistObj.pdfs, DistObj.cdfs, DistObj.ppfs, hs, hv, hc]

/-- **C103, exactly**: for a distribution whose support is declared by the ends given to the constructor, the densities agree at all points iff the
formula vanishes outside the ends. -/
theorem C103_pdf_iff (d : DistObj K) (p : Params K) (ha : Accepted d p) (ho : d.cls.ownSupport = none) :
    (∀ x, pdfAt (wrapCreate d.cls) p x = pdfAt d p x) ↔
      ∀ y, (∃ a ∈ d.a, y < a) ∨ (∃ b ∈ d.b, b < y) → d.cls.pdf p.shape y = 0 := by
  have h1 : d.support p.shape = (d.a, d.b) := by unfold DistObj.support; rw [ho]
  have h2 : (wrapCreate d.cls).support p.shape = (none, none) := by rw [support_wrap, ho]; rfl
  have hs := ha.2
  have hval : ∀ y, (p.loc + p.scale * y - p.loc) / p.scale = y := fun y => by field_simp; ring
  have hx : ∀ x, pdfAt (wrapCreate d.cls) p x = some (d.cls.pdf p.shape ((x - p.loc) / p.scale) / p.scale) := by
    intro x
    rw [pdfAt, if_pos ((accepted_wrap d p).2 ha), h2, scaledDensity, if_pos (by simp)]; rfl
  constructor
  · intro h y hy
    have := h (p.loc + p.scale * y)
    rw [hx, pdfAt, if_pos ha, h1, scaledDensity, if_neg, hval] at this
    · simpa [hs.ne'] using this
    · rintro ⟨ha1, hb1⟩
      rcases hy with ⟨a, hda, hlt⟩ | ⟨b, hdb, hlt⟩
      · exact absurd (ha1 a hda) (not_le.2 (by nlinarith))
      · exact absurd (hb1 b hdb) (not_le.2 (by nlinarith))
  · intro h x
    rw [hx, pdfAt, if_pos ha, h1, scaledDensity]
    split_ifs with hc
    · rfl
    · rw [h, zero_div]
      by_contra hn
      push Not at hn
      refine hc ⟨fun a hda => ?_, fun b hdb => ?_⟩
      · have := hn.1 a hda
        rw [le_div_iff₀ hs] at this; linarith [mul_comm a p.scale]
      · have := hn.2 b hdb
        rw [div_le_iff₀ hs] at this; linarith [mul_comm b p.scale]

/-- **C103, exactly**: the distribution functions agree at all points iff the formula is one from the upper end on and zero up to the lower one. -/
theorem C103_cdf_iff (d : DistObj K) (p : Params K) (ha : Accepted d p) (ho : d.cls.ownSupport = none) :
    (∀ x, cdfAt (wrapCreate d.cls) p x = cdfAt d p x) ↔
      ∀ y, ((∃ b ∈ d.b, b ≤ y) → d.cls.cdf p.shape y = 1) ∧ ((∃ a ∈ d.a, y ≤ a) → (∀ b ∈ d.b, y < b) → d.cls.cdf p.shape y = 0) := by
  have h1 : d.support p.shape = (d.a, d.b) := by unfold DistObj.support; rw [ho]
  have h2 : (wrapCreate d.cls).support p.shape = (none, none) := by rw [support_wrap, ho]; rfl
  have hs := ha.2
  have hval : ∀ y, (p.loc + p.scale * y - p.loc) / p.scale = y := fun y => by field_simp; ring
  have hx : ∀ x, cdfAt (wrapCreate d.cls) p x = some (d.cls.cdf p.shape ((x - p.loc) / p.scale)) := by
    intro x
    rw [cdfAt, if_pos ((accepted_wrap d p).2 ha), h2, scaledCdf, if_neg (by simp), if_neg (by simp)]; rfl
  constructor
  · intro h y
    have := h (p.loc + p.scale * y)
    rw [hx, cdfAt, if_pos ha, h1, scaledCdf, hval] at this
    refine ⟨fun ⟨b, hb, hle⟩ => ?_, fun ⟨a, hda, hle⟩ hb => ?_⟩
    · rw [if_pos ⟨b, hb, by nlinarith⟩] at this; simpa using this
    · rw [if_neg, if_pos ⟨a, hda, by nlinarith⟩] at this
      · simpa using this
      · rintro ⟨b, hdb, hle'⟩
        have := hb b hdb
        nlinarith
  · intro h x
    rw [hx, cdfAt, if_pos ha, h1, scaledCdf]
    have hb' : (∃ b ∈ d.b, p.loc + p.scale * b ≤ x) ↔ ∃ b ∈ d.b, b ≤ (x - p.loc) / p.scale := by
      refine exists_congr fun b => and_congr_right fun _ => ?_
      rw [le_div_iff₀ hs]; constructor <;> intro h <;> linarith [mul_comm b p.scale]
    have ha' : (∃ a ∈ d.a, x ≤ p.loc + p.scale * a) ↔ ∃ a ∈ d.a, (x - p.loc) / p.scale ≤ a := by
      refine exists_congr fun b => and_congr_right fun _ => ?_
      rw [div_le_iff₀ hs]; constructor <;> intro h <;> linarith [mul_comm b p.scale]
    simp only [hb', ha']
    split_ifs with hc hd
    · rw [(h _).1 hc]
    · rw [(h _).2 hd fun b hb => by by_contra hn; exact hc ⟨b, hb, not_lt.1 hn⟩]
    · rfl

/-- **C103, probabilities 0 and 1**: scipy answers with the ends of the support, qp with infinities. -/
theorem C103_ppf_ends (d : DistObj K) (p : Params K) (ha : Accepted d p) (ho : d.cls.ownSupport = none) :
    ppfAt (wrapCreate d.cls) p 0 = .negInf ∧ ppfAt (wrapCreate d.cls) p 1 = .posInf ∧
    (∀ a, d.a = some a → ppfAt d p 0 = .fin (p.loc + p.scale * a)) ∧ (∀ b, d.b = some b → ppfAt d p 1 = .fin (p.loc + p.scale * b)) := by
  have h1 : d.support p.shape = (d.a, d.b) := by unfold DistObj.support; rw [ho]
  have h2 : (wrapCreate d.cls).support p.shape = (none, none) := by rw [support_wrap, ho]; rfl
  refine ⟨?_, ?_, fun a h => ?_, fun b h => ?_⟩
  · rw [ppfAt, if_pos ((accepted_wrap d p).2 ha), if_pos rfl, h2]; rfl
  · rw [ppfAt, if_pos ((accepted_wrap d p).2 ha), if_neg one_ne_zero, if_pos rfl, h2]; rfl
  · rw [ppfAt, if_pos ha, if_pos rfl, h1, h]; rfl
  · rw [ppfAt, if_pos ha, if_neg one_ne_zero, if_pos rfl, h1, h]; rfl

/-- **C103 fails**: the uniform distribution of qp has the same density at every point of the line, no total probability, and a distribution
function without bounds; every bin of a histogram made from it gets its width in units of the scale, wherever it is. -/
theorem C103_uniform_wrong (loc scale : ℝ) (hs : 0 < scale) :
    (∀ x, pdfAt (wrapCreate uniformClass) ⟨[], loc, scale⟩ x = some (1 / scale)) ∧
    (∀ x, cdfAt (wrapCreate uniformClass) ⟨[], loc, scale⟩ x = some ((x - loc) / scale)) ∧
    (∀ f : ℝ → ℝ, (∀ x, pdfAt (wrapCreate uniformClass) ⟨[], loc, scale⟩ x = some (f x)) → ¬ MeasureTheory.Integrable f) ∧
    pdfAt scipyUniform ⟨[], loc, scale⟩ (loc + 5 * scale) = some 0 := by
  have ha : Accepted (wrapCreate (uniformClass (K := ℝ))) ⟨[], loc, scale⟩ := ⟨rfl, hs⟩
  have h1 : ∀ x, pdfAt (wrapCreate uniformClass) ⟨[], loc, scale⟩ x = some (1 / scale) := by
    intro x
    rw [pdfAt, if_pos ha, support_wrap, scaledDensity, if_pos (by simp [uniformClass])]; rfl
  refine ⟨h1, fun x => ?_, fun f hf hi => ?_, ?_⟩
  · rw [cdfAt, if_pos ha, support_wrap, scaledCdf, if_neg (by simp [uniformClass]), if_neg (by simp [uniformClass])]; rfl
  · have hc : f = fun _ => 1 / scale := by
      funext x
      have := hf x
      rw [h1 x] at this
      exact (Option.some.inj this).symm
    rw [hc, MeasureTheory.integrable_const_iff] at hi
    rcases hi with hi | hi
    · exact absurd hi (by positivity)
    · have := hi.measure_univ_lt_top
      simp at this
  · rw [pdfAt, if_pos ⟨rfl, hs⟩, scaledDensity, if_neg]
    rintro ⟨-, h⟩
    have := h 1 rfl
    simp only [mul_one] at this
    linarith

/-- `scipy.stats.expon`: `_pdf = exp(-x)`, `_cdf = -expm1(-x)`, `_ppf = -log1p(-q)`; the instance is declared with `a=0.0` -/
noncomputable def exponClass : DistClass ℝ := ⟨fun _ x => Real.exp (-x), fun _ x => 1 - Real.exp (-x), fun _ q => -Real.log (1 - q), fun _ => true, none⟩

/-- **C103 fails** for the exponential distribution: before its start the density exceeds every bound and the distribution function is negative. -/
theorem C103_expon_wrong (loc scale : ℝ) (hs : 0 < scale) :
    (∀ M : ℝ, ∃ x < loc, ∃ v, pdfAt (wrapCreate exponClass) ⟨[], loc, scale⟩ x = some v ∧ M < v) ∧
    (∀ x < loc, ∃ v < 0, cdfAt (wrapCreate exponClass) ⟨[], loc, scale⟩ x = some v) ∧
    ∀ x < loc, pdfAt ⟨exponClass, some 0, none⟩ ⟨[], loc, scale⟩ x = some 0 ∧ cdfAt ⟨exponClass, some 0, none⟩ ⟨[], loc, scale⟩ x = some 0 := by
  have ha : Accepted (wrapCreate exponClass) ⟨[], loc, scale⟩ := ⟨rfl, hs⟩
  refine ⟨fun M => ?_, fun x hx => ?_, fun x hx => ⟨?_, ?_⟩⟩
  · refine ⟨loc - scale * (|M| * scale + 1), by nlinarith [abs_nonneg M, mul_nonneg (abs_nonneg M) hs.le],
      Real.exp (-((loc - scale * (|M| * scale + 1) - loc) / scale)) / scale, ?_, ?_⟩
    · rw [pdfAt, if_pos ha, support_wrap, scaledDensity, if_pos (by simp [exponClass])]; rfl
    · show M < Real.exp _ / scale
      have : -((loc - scale * (|M| * scale + 1) - loc) / scale) = |M| * scale + 1 := by field_simp; ring
      simp only [this]
      rw [lt_div_iff₀ hs]
      have h1 := Real.add_one_le_exp (|M| * scale + 1)
      nlinarith [le_abs_self M]
  · refine ⟨1 - Real.exp (-((x - loc) / scale)), ?_, ?_⟩
    · have h0 : (x - loc) / scale < 0 := div_neg_of_neg_of_pos (by linarith) hs
      have := Real.one_lt_exp_iff.2 (show 0 < -((x - loc) / scale) by linarith)
      linarith
    · rw [cdfAt, if_pos ha, support_wrap, scaledCdf, if_neg (by simp [exponClass]), if_neg (by simp [exponClass])]; rfl
  · rw [pdfAt, if_pos ⟨rfl, hs⟩, scaledDensity, if_neg]
    rintro ⟨h, -⟩
    have := h 0 rfl
    simp only [mul_zero] at this
    linarith
  · rw [cdfAt, if_pos ⟨rfl, hs⟩, scaledCdf, if_neg (by simp [DistObj.support, exponClass]), if_pos]
    exact ⟨0, rfl, by simp only [mul_zero]; linarith⟩

/-! ### which classes there are -/

theorem load_aux : ∀ (attrs : List (String × Option (DistObj K))) (reg : List (String × DistClass K)),
    ((reg.map (·.1)) ++ (attrs.filterMap fun p => p.2.map fun _ => p.1)).Nodup →
    loadScipy attrs reg = .ok (reg ++ attrs.filterMap fun p => p.2.map fun d => (p.1, d.cls))
  | [], reg, _ => by simp [loadScipy]
  | (n, none) :: t, reg, h => by
    simp only [List.filterMap_cons, Option.map_none] at h ⊢
    rw [loadScipy, load_aux t reg h]
  | (n, some d) :: t, reg, h => by
    simp only [List.filterMap_cons, Option.map_some] at h ⊢
    have hn : (reg.lookup n).isSome = false := by
      rw [List.nodup_append] at h
      by_contra hc
      rw [Bool.not_eq_false, Option.isSome_iff_exists] at hc
      obtain ⟨c, hc⟩ := hc
      rw [List.lookup_eq_some_iff] at hc
      obtain ⟨l1, l2, k, -⟩ := hc
      exact absurd rfl (h.2.2 n (by simp [k]) n (by simp))
    rw [loadScipy, hn, if_neg Bool.false_ne_true, load_aux t (reg ++ [(n, d.cls)]) (by simpa using h), List.append_assoc]
    rfl

theorem lookup_iff {β : Type} : ∀ (l : List (String × β)), (l.map (·.1)).Nodup → ∀ (n : String) (c : β), l.lookup n = some c ↔ (n, c) ∈ l
  | [], _, n, c => by simp
  | (m, b) :: l, h, n, c => by
    simp only [List.map_cons, List.nodup_cons, List.mem_map, not_exists, not_and] at h
    rw [List.lookup_cons]
    by_cases hm : n = m
    · subst hm
      simp only [beq_self_eq_true, Option.some.injEq, List.mem_cons, Prod.mk.injEq, true_and]
      exact ⟨fun h => Or.inl h.symm, fun h' => h'.elim Eq.symm fun hm => absurd rfl (h.1 (n, c) hm)⟩
    · have : (n == m) = false := by simpa using hm
      rw [this]
      simp only [List.mem_cons, Prod.mk.injEq, hm, false_and, false_or]
      exact lookup_iff l h.2 n c

theorem load_dup : ∀ (attrs : List (String × Option (DistObj K))) (reg : List (String × DistClass K)), (reg.map (·.1)).Nodup →
    ¬ ((reg.map (·.1)) ++ (attrs.filterMap fun p => p.2.map fun _ => p.1)).Nodup → loadScipy attrs reg = .error .KeyError
  | [], reg, h, hn => by simp at hn; exact absurd h hn
  | (n, none) :: t, reg, h, hn => by
    simp only [List.filterMap_cons, Option.map_none] at hn
    rw [loadScipy, load_dup t reg h hn]
  | (n, some d) :: t, reg, h, hn => by
    simp only [List.filterMap_cons, Option.map_some] at hn
    rw [loadScipy]
    split_ifs with hl
    · rfl
    · refine load_dup t _ ?_ (by simpa using hn)
      rw [Bool.not_eq_true, Option.isSome_eq_false_iff, Option.isNone_iff_eq_none, List.lookup_eq_none_iff] at hl
      rw [List.map_append, List.nodup_append]
      refine ⟨h, by simp, ?_⟩
      intro a ha b hb
      simp only [List.map_cons, List.map_nil, List.mem_singleton] at hb
      subst hb
      rintro rfl
      obtain ⟨q, hq, hqe⟩ := List.mem_map.1 ha
      have := hl q hq
      simp only [bne_iff_ne, ne_eq, hqe, not_true] at this

/-- **C103, the classes of the factory**: when the names are different, every continuous distribution of scipy, and nothing else, has a class in the
factory under its name, made from the class of the distribution; a name that occurs twice stops the import. -/
theorem C103_loaded (attrs : List (String × Option (DistObj K))) :
    ((attrs.filterMap fun p => p.2.map fun _ => p.1).Nodup →
      ∃ reg, loadScipy attrs [] = .ok reg ∧ ∀ n c, reg.lookup n = some c ↔ ∃ d : DistObj K, (n, some d) ∈ attrs ∧ d.cls = c) ∧
    (¬ (attrs.filterMap fun p => p.2.map fun _ => p.1).Nodup → loadScipy attrs [] = .error .KeyError) := by
  constructor
  · intro hn
    refine ⟨_, load_aux attrs [] (by simpa using hn), fun n c => ?_⟩
    simp only [List.nil_append]
    rw [lookup_iff]
    · simp only [List.mem_filterMap, Option.map_eq_some_iff, Prod.mk.injEq]
      constructor
      · rintro ⟨⟨n', o⟩, hm, d, ho, rfl, rfl⟩
        simp only at ho
        subst ho
        exact ⟨d, hm, rfl⟩
      · rintro ⟨d, hm, rfl⟩
        exact ⟨(n, some d), hm, d, rfl, rfl, rfl⟩
    · rw [List.map_filterMap]
      convert hn using 3
      cases ‹String × Option (DistObj K)›.2 <;> rfl
  · exact load_dup attrs [] (by simp)

/-! ### concrete cases -/

-- two uniform PDFs, on [0, 2] and on [1, 4], and one with a negative scale; scipy's density and the one of qp
example : analyticEval scipyUniform.pdfs [⟨[], 0, 2⟩, ⟨[], 1, 3⟩, ⟨[], 0, -1⟩] [[-1, 0, 1, 3], [0, 1, 4, 5], [0, 0, 0, 0]] =
    [[some 0, some (1 / 2 : ℚ), some (1 / 2), some 0], [some 0, some (1 / 3), some (1 / 3), some 0], [none, none, none, none]] := by decide +kernel

example : analyticEval (wrapCreate uniformClass).pdfs [⟨[], 0, 2⟩, ⟨[], 1, 3⟩] [[-1, 0, 1, 3], [0, 1, 4, 5]] =
    [[some (1 / 2 : ℚ), some (1 / 2), some (1 / 2), some (1 / 2)], [some (1 / 3), some (1 / 3), some (1 / 3), some (1 / 3)]] := by decide +kernel

example : analyticEval (wrapCreate uniformClass).pdfs [⟨[], 0, 2⟩, ⟨[], 1, 3⟩] [[0, 1], [1, 4]] =
    analyticEval (scipyUniform (K := ℚ)).pdfs [⟨[], 0, 2⟩, ⟨[], 1, 3⟩] [[0, 1], [1, 4]] := by
  refine (C103_inside_partial (K := ℚ) scipyUniform _ _ rfl).1 ?_
  simp only [List.zip_cons_cons, List.zip_nil_left, List.forall_mem_cons, InSupport, DistObj.support, scipyUniform, uniformClass, Option.mem_def,
    Option.some.injEq, forall_eq']
  norm_num

/-- a triangle on [-1, 1] whose formula vanishes outside: nothing is lost -/
example : ∀ x, pdfAt (wrapCreate (⟨fun _ y => max 0 (1 - |y|), fun _ y => y, fun _ q => q, fun _ => true, none⟩ : DistClass ℚ)) ⟨[], 3, 2⟩ x =
    pdfAt ⟨⟨fun _ y => max 0 (1 - |y|), fun _ y => y, fun _ q => q, fun _ => true, none⟩, some (-1), some 1⟩ ⟨[], 3, 2⟩ x := by
  refine (C103_pdf_iff (K := ℚ) ⟨_, some (-1), some 1⟩ ⟨[], 3, 2⟩ ⟨rfl, by norm_num⟩ rfl).2 ?_
  rintro y (⟨a, ha, h⟩ | ⟨b, hb, h⟩)
  · cases ha
    have := neg_le_abs y
    exact max_eq_left (by linarith)
  · cases hb
    have := le_abs_self y
    exact max_eq_left (by linarith)

example := C103_uniform_wrong 0 1 one_pos
example := C103_expon_wrong 0 1 one_pos

example : ∃ reg, loadScipy (K := ℚ) [("norm", some ⟨uniformClass, none, none⟩), ("describe", none), ("uniform", some scipyUniform)] [] = .ok reg ∧
    reg.map (·.1) = ["norm", "uniform"] := ⟨_, rfl, rfl⟩

end Verif.Props.Analytic
