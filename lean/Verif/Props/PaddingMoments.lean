import Verif.Props.PaddingPacked

/-!
# C130: moments with grid points of value zero around the PDF

The reported moments are sums over the grid times the width of its first cell. Points of value zero add nothing to the sum, so the moments stay as they
are if the first cell of the wider grid is as wide as that of the narrow one, for example on evenly spaced grids. Otherwise they change.
-/

set_option linter.unusedSectionVars false
set_option autoImplicit false

namespace Verif.Props.Refine

open Verif Verif.Np Verif.Model Verif.Lemmas Verif.Spec Verif.Props.InterpPdf

variable {K : Type} [Field K] [LinearOrder K] [IsStrictOrderedRing K]

theorem sum_append (l l' : List K) : Np.sum (l ++ l') = Np.sum l + Np.sum l' := by
  simp only [Np.sum, ← List.sum_eq_foldr, List.sum_append]

theorem ZeroPadded.length {h h' : List K × List K} (hz : ZeroPadded h h') (hl : h.1.length = h.2.length) : h'.1.length = h'.2.length := by
  induction hz with
  | refl => exact hl
  | tail _ hs ih =>
    cases hs with
    | left a b xs ys h => simpa using ih
    | right z xs ys h h0 => simpa using ih

theorem ZeroPadded.msum {h h' : List K × List K} (hz : ZeroPadded h h') (hl : h.1.length = h.2.length) (m : ℕ) :
    Np.sum (Np.mul (h'.1.map (· ^ m)) h'.2) = Np.sum (Np.mul (h.1.map (· ^ m)) h.2) := by
  induction hz with
  | refl => rfl
  | tail hz hs ih =>
    have hl' := ZeroPadded.length hz hl
    rw [← ih]
    cases hs with
    | left a b xs ys h => simp [Np.mul, Np.sum]
    | right z xs ys h h0 =>
      simp only [Np.mul, List.map_append] at hl' ⊢
      rw [List.zipWith_append (by simpa using hl'), sum_append]
      simp [Np.sum]

theorem area_right (z : K) : ∀ (xs ys : List K), xs.length = ys.length → ys.getLast? = some 0 → area (xs ++ [z]) (ys ++ [0]) = area xs ys := by
  intro xs
  induction xs with
  | nil => intro ys hl h0; cases ys <;> simp at hl h0
  | cons a xs ih =>
    intro ys hl h0
    cases ys with
    | nil => simp at hl
    | cons u ys =>
      cases xs with
      | nil =>
        have : ys = [] := by simpa using hl.symm
        subst this
        simp only [List.getLast?_singleton, Option.some.injEq] at h0
        subst h0
        simp [area]
      | cons b xs =>
        cases ys with
        | nil => simp at hl
        | cons v ys =>
          have := ih (v :: ys) (by simpa using hl) (by rwa [List.getLast?_cons_cons] at h0)
          simp only [List.cons_append, area] at this ⊢
          rw [this]

theorem ZeroPadded.area {h h' : List K × List K} (hz : ZeroPadded h h') (hl : h.1.length = h.2.length) : Spec.area h'.1 h'.2 = Spec.area h.1 h.2 := by
  induction hz with
  | refl => rfl
  | tail hz hs ih =>
    have hl' := ZeroPadded.length hz hl
    rw [← ih]
    cases hs with
    | left a b xs ys h => simp [Spec.area]
    | right z xs ys h h0 => exact area_right z xs ys hl' h0

/-- width of the first cell, on which the reported moments depend -/
def FirstWidth (xs : List K) (w : K) : Prop := ∃ a b t, xs = a :: b :: t ∧ b - a = w

/-- **C130: moments.** Adding grid points with value zero beyond ends of value zero keeps all reported moments, if the first cell keeps its width. -/
theorem C130_interp_moment_padding {xs row xs' row' ys c ys' c' : List K} (hz : ZeroPadded (xs, row) (xs', row')) (hg : XGrid xs row.length)
    (hp : interpNormRow xs row = .ok (some (ys, c))) (hp' : interpNormRow xs' row' = .ok (some (ys', c'))) {w : K} (hw : FirstWidth xs w)
    (hw' : FirstWidth xs' w) (m : ℕ) : ∃ M, interpMoment xs ys m = .ok M ∧ interpMoment xs' ys' m = .ok M := by
  have hg' := (C130_interp_padding hz hg hp).1
  have ha := hz.area hg.size
  simp only at ha
  have h0 : Spec.area xs row ≠ 0 := fun h => by
    rw [(C12_interp_normalises xs row hg).1 h] at hp
    simp at hp
  obtain ⟨y1, c1, e1, -, e2, -⟩ := (C12_interp_normalises xs row hg).2 h0
  obtain ⟨y2, c2, e3, -, e4, -⟩ := (C12_interp_normalises xs' row' hg').2 (ha ▸ h0)
  rw [hp] at e1
  rw [hp'] at e3
  simp only [Except.ok.injEq, Option.some.injEq, Prod.mk.injEq] at e1 e3
  have hzm := hz.map (· / Spec.area xs row) (zero_div _)
  simp only at hzm
  rw [ha] at e4
  rw [← e2, ← e4, ← e1.1, ← e3.1] at hzm
  have hm := hzm.msum (by simp only; rw [e1.1, e2, List.length_map]; exact hg.size) m
  simp only at hm
  obtain ⟨a, b, t, rfl, h1⟩ := hw
  obtain ⟨a', b', t', rfl, h2⟩ := hw'
  refine ⟨_, rfl, ?_⟩
  simp only [interpMoment]
  rw [hm, h1, h2]

/-- with a wider first cell the reported moments change, even that of order zero: 1 for the triangle, 3 with a zero added three units below -/
theorem C130_interp_moment_changes : ZeroPadded (([1, 2, 3], [0, 1, 0]) : List ℚ × List ℚ) ([-2, 1, 2, 3], [0, 0, 1, 0]) ∧
    interpNormRow [1, 2, 3] ([0, 1, 0] : List ℚ) = .ok (some ([0, 1, 0], [0, 1/2, 1])) ∧
    interpNormRow [-2, 1, 2, 3] ([0, 0, 1, 0] : List ℚ) = .ok (some ([0, 0, 1, 0], [0, 0, 1/2, 1])) ∧
    interpMoment [1, 2, 3] ([0, 1, 0] : List ℚ) 0 = .ok 1 ∧ interpMoment [-2, 1, 2, 3] ([0, 0, 1, 0] : List ℚ) 0 = .ok 3 ∧
    interpMoment [1, 2, 3] ([0, 1, 0] : List ℚ) 1 = .ok 2 ∧ interpMoment [0, 1, 2, 3, 4] ([0, 0, 1, 0, 0] : List ℚ) 1 = .ok 2 :=
  ⟨Relation.ReflTransGen.single (ZeroPad.left (-2) 1 [2, 3] [1, 0] (by norm_num)), by decide +kernel, by decide +kernel, by decide +kernel, by decide +kernel,
    by decide +kernel, by decide +kernel⟩

end Verif.Props.Refine
