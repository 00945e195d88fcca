import Verif.Props.PaddingMoments

/-!
# C130: moments with empty bins around a histogram
-/

set_option linter.unusedSectionVars false
set_option autoImplicit false

namespace Verif.Props.Refine

open Verif Verif.Np Verif.Model Verif.Lemmas Verif.Lemmas.Hist Verif.Spec Verif.Props.Bins Verif.Props.Hist

variable {K : Type} [Field K] [LinearOrder K] [IsStrictOrderedRing K]

theorem centers_right (z : K) : ∀ (e : List K) (a : K), ∃ v, edgeToCenter (a :: (e ++ [z])) = edgeToCenter (a :: e) ++ [v] := by
  intro e
  induction e with
  | nil => intro a; exact ⟨_, rfl⟩
  | cons b e ih =>
    intro a
    obtain ⟨v, hv⟩ := ih b
    refine ⟨v, ?_⟩
    simp only [List.cons_append, edgeToCenter] at hv ⊢
    rw [hv]

theorem length_centers : ∀ (e : List K) (a : K), (edgeToCenter (a :: e)).length = e.length := by
  intro e
  induction e with
  | nil => intro a; rfl
  | cons b e ih => intro a; simp only [edgeToCenter, List.length_cons, ih b]

theorem OnePad.msum {e r e' r' : List K} (hc : OnePad (e, r) (e', r')) (hl : e.length = r.length + 1) (m : ℕ) :
    Np.sum (Np.mul ((edgeToCenter e').map (· ^ m)) r') = Np.sum (Np.mul ((edgeToCenter e).map (· ^ m)) r) := by
  cases hc with
  | left a b t r h => simp [edgeToCenter, Np.mul, Np.sum]
  | right z e r h =>
    cases e with
    | nil => simp at hl
    | cons a t =>
      obtain ⟨v, hv⟩ := centers_right z t a
      have hlt : t.length = r.length := by simpa using hl
      rw [List.cons_append, hv, Np.mul, Np.mul, List.map_append, List.zipWith_append (by simp [length_centers, hlt]), sum_append]
      simp [Np.sum]

theorem Padded.msum {h h' : List K × List K} (hf : Padded h h') (hl : h.1.length = h.2.length + 1) (hr : 1 ≤ h.2.length) (hs : h.1.Pairwise (· < ·)) (m : ℕ) :
    Np.sum (Np.mul ((edgeToCenter h'.1).map (· ^ m)) h'.2) = Np.sum (Np.mul ((edgeToCenter h.1).map (· ^ m)) h.2) := by
  induction hf with
  | refl => rfl
  | tail hf hc ih =>
    rw [← ih]
    exact OnePad.msum hc (Padded.facts hf hl hr hs).1 m

/-- **C130: moments of histograms.** Empty bins at the ends keep all reported moments, if the first bin keeps its width. -/
theorem C130_hist_moment_padding {edges row edges' row' p p' : List K} (hf : Padded (edges, row) (edges', row')) (hg : Grid edges row.length)
    (hp : histNormRow edges row = some p) (hp' : histNormRow edges' row' = some p') {w : K} (hw : FirstWidth edges w) (hw' : FirstWidth edges' w) (m : ℕ) :
    ∃ M, histMoment edges p m = .ok M ∧ histMoment edges' p' m = .ok M := by
  have f4 := (Padded.facts hf hg.size hg.pos hg.strict).2.2.2.1
  simp only at f4
  have hm : totalMass edges row ≠ 0 := fun h0 => by
    rw [(C07_row_normalised edges row).1 h0] at hp
    cases hp
  obtain ⟨p1, hp1, -, e1, -⟩ := (C07_row_normalised edges row).2 hm
  obtain ⟨p2, hp2, -, e2, -⟩ := (C07_row_normalised edges' row').2 (f4 ▸ hm)
  rw [hp] at hp1
  rw [hp'] at hp2
  cases hp1
  cases hp2
  have hfm := Padded.div hf (totalMass edges row)
  simp only at hfm
  rw [f4] at e2
  rw [← e1, ← e2] at hfm
  have hpl : p.length = row.length := by rw [e1, List.length_map]
  have hs := hfm.msum (by rw [hpl]; exact hg.size) (by rw [hpl]; exact hg.pos) hg.strict m
  simp only at hs
  obtain ⟨a, b, t, rfl, h1⟩ := hw
  obtain ⟨a', b', t', rfl, h2⟩ := hw'
  refine ⟨_, rfl, ?_⟩
  simp only [histMoment]
  rw [hs, h1, h2]

/-- two bins with an empty one on either side; with a wider empty bin below the reported mean changes -/
theorem C130_hist_moment_padding_example : histMoment [1, 2, 3] ([1/4, 3/4] : List ℚ) 1 = .ok (9/4) ∧
    histMoment [0, 1, 2, 3, 7] ([0, 1/4, 3/4, 0] : List ℚ) 1 = .ok (9/4) ∧
    histNormRow [-1, 1, 2, 3] ([0, 1, 3] : List ℚ) = some [0, 1/4, 3/4] ∧ histMoment [-1, 1, 2, 3] ([0, 1/4, 3/4] : List ℚ) 1 = .ok (9/2) := by
  refine ⟨?_, ?_, ?_, ?_⟩ <;> decide +kernel

end Verif.Props.Refine
