import Verif.Props.Mirror

/-!
# C131: the CDF of a mirrored interpolated PDF between the grid points
-/

set_option linter.unusedSectionVars false
set_option autoImplicit false

namespace Verif.Props.Mirror

open Verif Verif.Np Verif.Model Verif.Lemmas Verif.Lemmas.InterpPdf Verif.Spec Verif.Props.InterpPdf

variable {K : Type} [Field K] [LinearOrder K] [IsStrictOrderedRing K]

/-- between two grid points the CDF lies on the line between its values there -/
theorem cdf_cell {xs ys c : List K} (h : Constructed xs ys c) {i : ℕ} {a b A B x : K} (ha : xs[i]? = some a) (hb : xs[i + 1]? = some b)
    (hA : interpCdf xs c a = some A) (hB : interpCdf xs c b = some B) (h1 : a ≤ x) (h2 : x ≤ b) : interpCdf xs c x = some (line a A b B x) := by
  have hg : xs.Pairwise (· < ·) ∧ c.length = xs.length := by
    obtain ⟨a, b, t, u, v, r, rfl, rfl, hl, hs, -, rfl⟩ := constructed_facts h
    refine ⟨hs, ?_⟩
    rw [List.length_cons, cumsum, Lemmas.Hist.length_cumsumFrom, length_trapezoids _ _ (by simp [hl])]
    simp
  obtain ⟨hs, hcl⟩ := hg
  have hi1 := (List.getElem?_eq_some_iff.1 hb).1
  have hX := strictX_zip (ys := c) hs
  have hk : ∀ (j : ℕ) (e : K), xs[j]? = some e → ∃ v, (xs.zip c)[j]? = some (e, v) := by
    intro j e he
    have hj := (List.getElem?_eq_some_iff.1 he).1
    refine ⟨c[j]'(by omega), ?_⟩
    rw [List.getElem?_zip_eq_some]
    exact ⟨he, List.getElem?_eq_getElem (by omega)⟩
  obtain ⟨va, hva⟩ := hk i a ha
  obtain ⟨vb, hvb⟩ := hk (i + 1) b hb
  unfold interpCdf at hA hB ⊢
  match hz : xs.zip c, hX with
  | [], _ => rw [hz] at hva; simp at hva
  | (x0, y0) :: t, hX =>
    rw [hz] at hA hB hva hvb
    have ma := List.mem_of_getElem? hva
    have mb := List.mem_of_getElem? hvb
    have l1 := head_le_mem hX ma
    have l2 := StrictX_le_last hX mb
    rw [interp_inside l1 (StrictX_le_last hX ma), npInterpGo_knot hX ma, Option.some.injEq] at hA
    rw [interp_inside (head_le_mem hX mb) l2, npInterpGo_knot hX mb, Option.some.injEq] at hB
    simp only at hA hB l1 l2
    rw [interp_inside (l1.trans h1) (h2.trans l2), npInterpGo_cell hX hva hvb h1 h2]
    simp only [hA, hB]

/-- **C131: between the grid points.** The CDF of the mirrored PDF is one minus the CDF at all points between the second grid point and the last but one. -/
theorem C131_interp_inner {xs row ys c c' : List K} (hg : XGrid xs row.length) (hc : interpNormRow xs row = .ok (some (ys, c)))
    (hc' : interpNormRow (mirror xs) row.reverse = .ok (some (ys.reverse, c'))) (i : ℕ) (a b x : K) (hi : 0 < i) (hi' : i + 2 < xs.length)
    (ha : xs[i]? = some a) (hb : xs[i + 1]? = some b) (h1 : a ≤ x) (h2 : x ≤ b) :
    ∃ F, interpCdf xs c x = some F ∧ interpCdf (mirror xs) c' (-x) = some (1 - F) := by
  obtain ⟨c2, e1, -, e3⟩ := C131_interp_partial hg hc
  rw [hc'] at e1
  simp only [Except.ok.injEq, Option.some.injEq, Prod.mk.injEq, true_and] at e1
  subst e1
  obtain ⟨A, hA, hA'⟩ := e3 i a hi (by omega) ha
  obtain ⟨B, hB, hB'⟩ := e3 (i + 1) b (by omega) (by omega) hb
  have hg' : XGrid (mirror xs) row.reverse.length :=
    ⟨mirror_strict hg.strict, by rw [length_mirror, List.length_reverse]; exact hg.size, by rw [List.length_reverse]; exact hg.two⟩
  have hlt : a < b := by
    obtain ⟨g1, rfl⟩ := List.getElem?_eq_some_iff.1 ha
    obtain ⟨g2, rfl⟩ := List.getElem?_eq_some_iff.1 hb
    exact List.pairwise_iff_getElem.1 hg.strict i (i + 1) g1 g2 (by omega)
  have hm : ∀ (j : ℕ) (e : K), j < xs.length → xs[j]? = some e → (mirror xs)[xs.length - 1 - j]? = some (-e) := by
    intro j e hj he
    unfold mirror
    rw [List.getElem?_reverse (by simp; omega)]
    simp only [List.length_map]
    rw [show xs.length - 1 - (xs.length - 1 - j) = j by omega, List.getElem?_map, he]
    rfl
  have hb2 := hm (i + 1) b (by omega) hb
  have ha2 := hm i a (by omega) ha
  rw [show xs.length - 1 - i = xs.length - 1 - (i + 1) + 1 by omega] at ha2
  refine ⟨_, cdf_cell ⟨row, hg, hc⟩ ha hb hA hB h1 h2, ?_⟩
  rw [cdf_cell ⟨row.reverse, hg', hc'⟩ hb2 ha2 hB' hA' (neg_le_neg h2) (neg_le_neg h1)]
  congr 1
  have : b - a ≠ 0 := (sub_pos.2 hlt).ne'
  have h3 : -a - -b ≠ 0 := by rw [neg_sub_neg]; exact this
  unfold line
  field_simp
  ring

/-- four grid points; the cell between 1 and 3 -/
example := C131_interp_inner (K := ℚ) (xs := [0, 1, 3, 4]) (row := [1, 1, 2, 0]) (ys := [1/5, 1/5, 2/5, 0]) (c := [1/10, 1/5, 4/5, 1]) (c' := [0, 1/5, 4/5, 1])
  ⟨by decide +kernel, rfl, by decide⟩ (by decide +kernel) (by decide +kernel) 1 1 3 2 (by decide) (by decide) rfl rfl (by norm_num) (by norm_num)

end Verif.Props.Mirror
