import Verif.Model.Sampling
import Verif.Props.Evaluation
import Verif.Props.RealIntegral
import Verif.Props.Integrals
import Mathlib.MeasureTheory.Constructions.BorelSpace.Order

/-!
# C97: random variates

`ens.rvs(size=m)` answers with `m` samples per PDF; the samples of the gridded classes have the distribution that the CDF of the ensemble
states. The draws of the random number generator are arbitrary in the first part and uniformly distributed in the second.
-/

set_option linter.unusedSectionVars false
set_option autoImplicit false

namespace Verif.Props.Sampling

open Verif Verif.Np Verif.Model Verif.Spec Verif.Lemmas Verif.Props.Evaluation

/-! ### which shapes can be sampled -/

theorem squeezeLeft_append_one (l : List ℕ) : squeezeLeft (l ++ [1]) = if squeezeLeft l = [] then [] else squeezeLeft l ++ [1] := by
  induction l with
  | nil => rfl
  | cons a l ih =>
    by_cases ha : a = 1
    · subst ha; simpa [squeezeLeft] using ih
    · have h1 : ∀ t, squeezeLeft (a :: t) = a :: t := by
        intro t
        unfold squeezeLeft
        split
        · rename_i h; simp at h; exact absurd h.1 ha
        · rfl
      rw [List.cons_append, h1, h1]
      simp

theorem squeezeLeft_prod (l : List ℕ) : (squeezeLeft l).prod = l.prod := by
  induction l with
  | nil => rfl
  | cons a l ih =>
    by_cases ha : a = 1
    · subst ha; simpa [squeezeLeft] using ih
    · have : squeezeLeft (a :: l) = a :: l := by
        unfold squeezeLeft
        split
        · rename_i h; simp at h; exact absurd h.1 ha
        · rfl
      rw [this]

theorem squeezeLeft_head (l : List ℕ) : (squeezeLeft l).head? ≠ some 1 := by
  induction l with
  | nil => simp [squeezeLeft]
  | cons a l ih =>
    by_cases ha : a = 1
    · subst ha; simpa [squeezeLeft] using ih
    · have : squeezeLeft (a :: l) = a :: l := by
        unfold squeezeLeft
        split
        · rename_i h; simp at h; exact absurd h.1 ha
        · rfl
      rw [this]; simpa using ha

/-- the size is accepted exactly if the PDFs have one index, apart from leading axes of length one -/
theorem rvsSizeOk_iff (shape : List ℕ) (m : ℕ) : rvsSizeOk (shape ++ [1]) [shape.prod, m] = true ↔ (squeezeLeft shape).length ≤ 1 := by
  unfold rvsSizeOk
  rw [squeezeLeft_append_one]
  have hp := squeezeLeft_prod shape
  have hh := squeezeLeft_head shape
  match hs : squeezeLeft shape with
  | [] => simp [padLeft]
  | [n] =>
    rw [hs] at hp
    simp at hp
    simp [padLeft, hp]
  | a :: b :: t =>
    rw [hs] at hh
    have ha : a ≠ 1 := by simpa using hh
    have hlen : max (a :: b :: t ++ [1]).length [shape.prod, m].length = t.length + 3 := by simp
    rw [if_neg (by simp)]
    simp only [hlen]
    have h1 : padLeft (t.length + 3) (a :: b :: t ++ [1]) = a :: (b :: t ++ [1]) := by simp [padLeft]
    have h2 : padLeft (t.length + 3) [shape.prod, m] = 1 :: (List.replicate t.length 1 ++ [shape.prod, m]) := by
      simp [padLeft, List.replicate_succ]
    rw [h1, h2, List.zip_cons_cons, List.all_cons]
    simp [ha]

section
variable {K : Type} [LinearOrder K] {β : Type}

/-- **C97**, the samples: for PDFs with one index (apart from leading axes of length one), sample `(i, j)` is the PPF of PDF `i` at draw `(i, j)`,
for every number of samples and all draws; `n` PDFs give `n` rows -/
theorem C97_samples (f f' ppf : ℕ → K → β) (shape : List ℕ) (hs : (squeezeLeft shape).length ≤ 1) (hn : shape.prod ≠ 0) (m : ℕ) (U : ℕ → ℕ → K) :
    ensRvs (dispatch f f' ppf) shape (some m) U = .ok ((List.range shape.prod).map fun i => (List.range m).map fun j => ppf i (U i j)) := by
  have hok := (rvsSizeOk_iff shape m).2 hs
  have hspec : MatSpec ppf (drawn U shape.prod m) = (List.range shape.prod).map fun i => (List.range m).map fun j => ppf i (U i j) := by
    unfold MatSpec drawn
    apply List.ext_getElem
    · simp
    · intro i h1 h2
      simp
  have hcore : dispatch f f' ppf (.mat (drawn U shape.prod m)) (rvsRows shape) = .ok (MatSpec ppf (drawn U shape.prod m)).flatten := by
    unfold rvsRows
    rw [squeezeLeft_append_one]
    by_cases h0 : squeezeLeft shape = []
    · have hp : shape.prod = 1 := by rw [← squeezeLeft_prod, h0]; rfl
      rw [if_pos h0, hp]
      simp only [dispatch, getEvalCase, Pts.ndim]
      simp [eval2D, drawn, MatSpec]
    · rw [if_neg h0]
      have hne : squeezeLeft shape ++ [1] ≠ [] := by simp
      have := C03_sampling_uses_own_pdf f f' ppf (drawn U shape.prod m)
      have hl : (drawn U shape.prod m).length = shape.prod := by simp [drawn]
      rw [hl] at this
      cases hc : squeezeLeft shape ++ [1] with
      | nil => exact absurd hc hne
      | cons a t => exact this
  unfold ensRvs
  rw [if_neg hn]
  simp only [Option.getD_some, hok, Bool.not_true, Bool.false_eq_true, if_false, hcore]
  have hlen : (MatSpec ppf (drawn U shape.prod m)).flatten.length = shape.prod * m := by
    rw [hspec, List.length_flatten, List.map_map]
    simp [Function.comp_def, Nat.mul_comm]
  rw [if_pos hlen, unflatten_flatten]
  · rw [hspec]
  · rw [hspec]
    simp [drawn, Function.comp_def]

/-- **C97**, what cannot be sampled, whatever the class: PDFs with more than one index raise `ValueError`, and without a number of samples
(the default of `rvs`) every call raises -/
theorem C97_not_sampled (core : Pts K → Pts ℕ → Except Err (List β)) (shape : List ℕ) (hn : shape.prod ≠ 0) (U : ℕ → ℕ → K) :
    (2 ≤ (squeezeLeft shape).length → ∀ size, ensRvs core shape size U = .error .ValueError) ∧
    ((squeezeLeft shape).length ≤ 1 → ensRvs core shape none U = .error .TypeError) := by
  constructor
  · intro h size
    have : rvsSizeOk (shape ++ [1]) [shape.prod, size.getD 0] = false := by
      rw [Bool.eq_false_iff]
      intro hc
      have := (rvsSizeOk_iff shape _).1 hc
      omega
    unfold ensRvs
    rw [if_neg hn]
    simp [this]
  · intro h
    have := (rvsSizeOk_iff shape 0).2 h
    unfold ensRvs
    rw [if_neg hn]
    simp [this]

end

example : ensRvs (dispatch (fun i q => (i : ℚ) + q) (fun i q => (i : ℚ) + q) (fun i q => (i : ℚ) + q)) [3] (some 2) (fun i j => (i + j) / 10) =
    .ok [[0, 1/10], [11/10, 12/10], [22/10, 23/10]] := by decide +kernel
example : ensRvs (dispatch (fun i q => (i : ℚ) + q) (fun i q => (i : ℚ) + q) (fun i q => (i : ℚ) + q)) [1] (some 2) (fun i j => (i + j) / 10) =
    .ok [[0, 1/10]] := by decide +kernel
example : ensRvs (dispatch (fun i q => (i : ℚ) + q) (fun i q => (i : ℚ) + q) (fun i q => (i : ℚ) + q)) [2, 2] (some 2) (fun i j => (i + j) / 10) =
    .error .ValueError := by decide +kernel
example : ensRvs (dispatch (fun i q => (i : ℚ) + q) (fun i q => (i : ℚ) + q) (fun i q => (i : ℚ) + q)) [3] none (fun i j => (i + j) / 10) =
    .error .TypeError := by decide +kernel

/-! ### the distribution of a sample -/

open MeasureTheory Set Verif.Props.Hist Verif.Props.InterpPdf Verif.Props.Bins Verif.Props.RealIntegral

/-- `Q` turns uniformly distributed draws into samples with the distribution function `F` -/
def Samples (Q : ℝ → Option ℝ) (F : ℝ → ℝ) : Prop :=
  ∀ x, volume {u : ℝ | (0 ≤ u ∧ u ≤ 1) ∧ ∃ s, Q u = some s ∧ s ≤ x} = ENNReal.ofReal (F x)

theorem volume_between {S : Set ℝ} {c : ℝ} (h1 : Ico 0 c ⊆ S) (h2 : S ⊆ Icc 0 c) : volume S = ENNReal.ofReal c := by
  apply le_antisymm
  · calc volume S ≤ volume (Icc 0 c) := measure_mono h2
      _ = _ := by rw [Real.volume_Icc, sub_zero]
  · calc ENNReal.ofReal c = volume (Ico 0 c) := by rw [Real.volume_Ico, sub_zero]
      _ ≤ _ := measure_mono h1

/-- a right inverse of a distribution function samples it -/
theorem samples_of_inverse {Q : ℝ → Option ℝ} {F : ℝ → ℝ} (hF : Monotone F) (h1 : ∀ x, F x ≤ 1)
    (hQ : ∀ u, 0 ≤ u → u ≤ 1 → ∃ s, Q u = some s ∧ F s = u) : Samples Q F := by
  intro x
  apply volume_between
  · rintro u ⟨hu0, hux⟩
    have hu1 : u ≤ 1 := hux.le.trans (h1 x)
    obtain ⟨s, hs, hFs⟩ := hQ u hu0 hu1
    refine ⟨⟨hu0, hu1⟩, s, hs, ?_⟩
    by_contra hc
    have := hF (le_of_not_ge hc)
    linarith
  · rintro u ⟨⟨hu0, hu1⟩, s, hs, hsx⟩
    obtain ⟨s', hs', hFs⟩ := hQ u hu0 hu1
    rw [hs] at hs'
    obtain rfl := Option.some.inj hs'
    exact ⟨hu0, by rw [← hFs]; exact hF hsx⟩

/-- **C97** for histograms: a uniform draw becomes a sample with the CDF of the PDF, empty bins included -/
theorem C97_hist (edges p : List ℝ) (hg : Grid edges p.length) (h1 : totalMass edges p = 1) (hp : ∀ v ∈ p, 0 ≤ v) :
    ∃ F : ℝ → ℝ, (∀ x, histCdf edges p x = some (F x)) ∧ Samples (histPpf edges p) F := by
  refine ⟨massUpTo edges p, C08_cdf_is_mass edges p hg h1, ?_⟩
  have hsh := (C08_cdf_shape edges p hg h1 hp).2.2
  apply samples_of_inverse
  · intro x y hxy
    obtain ⟨u, v, hu, hv, -, huv, -⟩ := hsh x y hxy
    rw [C08_cdf_is_mass edges p hg h1] at hu hv
    rw [Option.some.inj hu, Option.some.inj hv]
    exact huv
  · intro x
    obtain ⟨u, v, hu, -, -, huv, hv1⟩ := hsh x x le_rfl
    rw [C08_cdf_is_mass edges p hg h1] at hu
    rw [Option.some.inj hu]
    exact huv.trans hv1
  · intro u hu0 hu1
    obtain ⟨s, hs, hc, -⟩ := C09_cdf_ppf edges p hg h1 hp u hu0 hu1
    rw [C08_cdf_is_mass edges p hg h1] at hc
    exact ⟨s, hs, Option.some.inj hc⟩

theorem hist_pdf_nonneg (edges p : List ℝ) (hp : ∀ v ∈ p, 0 ≤ v) (f : ℝ → ℝ) (hf : ∀ x, histPdf edges p x = .ok (f x)) (x : ℝ) : 0 ≤ f x := by
  have hx := hf x
  unfold histPdf evalHist at hx
  split at hx
  · simp at hx
  · split at hx
    · simp at hx
    · rename_i v hv
      have := hp v (List.mem_of_getElem? hv)
      rw [← Except.ok.inj hx]
      split_ifs <;> simp [this]

/-- **C97** for histograms, as measures: the image of the uniform distribution on the unit interval under the PPF is the distribution with
the density `ens.pdf`. Bins: exactly equal, or unequal by more than the tolerance (see C05). -/
theorem C97_hist_law (edges p : List ℝ) (hg : Grid edges p.length) (hu : Uniform edges ∨ DetectablyNonUniform edges)
    (h1 : totalMass edges p = 1) (hp : ∀ v ∈ p, 0 ≤ v) (f : ℝ → ℝ) (hf : ∀ x, histPdf edges p x = .ok (f x)) (Q : ℝ → ℝ)
    (hQ : ∀ u, 0 ≤ u → u ≤ 1 → histPpf edges p u = some (Q u)) :
    (volume.restrict (Icc 0 1)).map Q = volume.withDensity fun x => ENNReal.ofReal (f x) := by
  obtain ⟨hint, -, hcdf⟩ := C08_lebesgue edges p hg hu h1 f hf
  obtain ⟨F, hF, hS⟩ := C97_hist edges p hg h1 hp
  have hpos := hist_pdf_nonneg edges p hp f hf
  have hmono : MonotoneOn Q (Icc 0 1) := by
    intro u hu v hv huv
    obtain ⟨x, y, hx, hy, hxy⟩ := C09_ppf_mono edges p hg h1 u v hu.1 huv hv.2
    rw [hQ u hu.1 hu.2] at hx
    rw [hQ v hv.1 hv.2] at hy
    rw [Option.some.inj hx, Option.some.inj hy]
    exact hxy
  have hae : AEMeasurable Q (volume.restrict (Icc 0 1)) := aemeasurable_restrict_of_monotoneOn measurableSet_Icc hmono
  have : IsFiniteMeasure (volume.withDensity fun x => ENNReal.ofReal (f x)) := isFiniteMeasure_withDensity_ofReal hint.2
  apply Measure.ext_of_Iic
  intro x
  rw [Measure.map_apply_of_aemeasurable hae measurableSet_Iic, withDensity_apply _ measurableSet_Iic]
  rw [← ofReal_integral_eq_lintegral_ofReal hint.integrableOn (Filter.Eventually.of_forall hpos)]
  have hFx : F x = ∫ t in Iic x, f t := by
    have := hcdf x
    rw [hF x] at this
    exact Option.some.inj this
  rw [← hFx, ← hS x, Measure.restrict_apply₀' measurableSet_Icc.nullMeasurableSet]
  congr 1
  ext u
  simp only [mem_inter_iff, mem_preimage, mem_Iic, mem_Icc, mem_ofPred_eq]
  constructor
  · rintro ⟨h, h0, h1⟩
    exact ⟨⟨h0, h1⟩, Q u, hQ u h0 h1, h⟩
  · rintro ⟨⟨h0, h1⟩, s, hs, hsx⟩
    rw [hQ u h0 h1] at hs
    exact ⟨by rw [Option.some.inj hs]; exact hsx, h0, h1⟩

/-- **C97** for histograms as constructed: for all non-negative heights with a positive total, sampling is defined for every draw and the
samples have the density of the ensemble. -/
theorem C97_hist_made (edges row p : List ℝ) (hg : Grid edges row.length) (hu : Uniform edges ∨ DetectablyNonUniform edges)
    (hp : histNormRow edges row = some p) (hrow : ∀ v ∈ row, 0 ≤ v) :
    ∃ f Q : ℝ → ℝ, (∀ x, histPdf edges p x = .ok (f x)) ∧ (∀ u, 0 ≤ u → u ≤ 1 → histPpf edges p u = some (Q u)) ∧
      (volume.restrict (Icc 0 1)).map Q = volume.withDensity fun x => ENNReal.ofReal (f x) := by
  obtain ⟨f, hf, -⟩ := Props.Integrals.C08_integral_partial edges row p hg hu hp
  have hm : totalMass edges row ≠ 0 := by
    intro h; rw [(C07_row_normalised edges row).1 h] at hp; simp at hp
  obtain ⟨p', h1, h2, h3, h4⟩ := (C07_row_normalised edges row).2 hm
  obtain rfl : p' = p := by rw [hp] at h1; exact (Option.some.inj h1).symm
  have hg' : Grid edges p'.length := by rw [h3, List.length_map]; exact hg
  have hpos := h4 hg.strict hrow
  have hQ : ∀ u, 0 ≤ u → u ≤ 1 → histPpf edges p' u = some ((histPpf edges p' u).getD 0) := by
    intro u hu0 hu1
    obtain ⟨s, hs, -⟩ := C09_cdf_ppf edges p' hg' h2 hpos u hu0 hu1
    rw [hs]; rfl
  exact ⟨f, _, hf, hQ, C97_hist_law edges p' hg' hu h2 hpos f hf _ hQ⟩

/-- **C97** for PDFs with their own grids -/
theorem C97_irregular (lo hi : ℝ) (xs row ys : List ℝ) (hg : XGrid xs row.length) (hn : irrNormRow xs row = some ys) (hrow : ∀ v ∈ row, 0 ≤ v) :
    ∃ F : ℝ → ℝ, (∀ x, irrCdf xs ys x = some (F x)) ∧ Samples (irrPpf lo hi xs ys) F := by
  have hsh := (C17_cdf_partial xs row ys hg hn hrow).2.2
  have hF : ∀ x, irrCdf xs ys x = some ((irrCdf xs ys x).getD 0) := by
    intro x
    obtain ⟨u, v, hu, -⟩ := hsh x x le_rfl
    rw [hu]; rfl
  refine ⟨_, hF, ?_⟩
  apply samples_of_inverse
  · intro x y hxy
    obtain ⟨u, v, hu, hv, -, huv, -⟩ := hsh x y hxy
    simp only [hu, hv, Option.getD_some]
    exact huv
  · intro x
    obtain ⟨u, v, hu, -, -, huv, hv1⟩ := hsh x x le_rfl
    simp only [hu, Option.getD_some]
    exact huv.trans hv1
  · intro u hu0 hu1
    obtain ⟨s, hs, hc, -⟩ := (C77_irregular_ppf lo hi xs row ys hg hn hrow u hu0 hu1).1
    exact ⟨s, hs, by rw [hc]; rfl⟩

/-- **C97** for interpolated PDFs: the samples have the CDF of the ensemble, which at every grid point but the first is the area below the
density up to there. At the first grid point it is `c0 = y0 (x1 - x0) / 2` instead of 0 (C13), and the first grid point itself is drawn with at
least this probability. -/
theorem C97_interp_partial (xs ys c : List ℝ) (h : Constructed xs ys c) (hy : ∀ v ∈ ys, 0 ≤ v) (x0 x1 y0 : ℝ) (e0 : xs[0]? = some x0)
    (e1 : xs[1]? = some x1) (e2 : ys[0]? = some y0) :
    (∃ F : ℝ → ℝ, (∀ x, interpCdf xs c x = some (F x)) ∧ Samples (interpPpf xs c) F ∧
      ∀ i x, xs[i+1]? = some x → F x = areaTo (i+1) xs ys) ∧
    ENNReal.ofReal (y0 * (x1 - x0) / 2) ≤ volume {u : ℝ | (0 ≤ u ∧ u ≤ 1) ∧ interpPpf xs c u = some x0} := by
  obtain ⟨h0, -, hsh⟩ := C13_cdf_shape xs ys c h hy
  have hF : ∀ x, interpCdf xs c x = some ((interpCdf xs c x).getD 0) := by
    intro x
    obtain ⟨u, v, hu, -⟩ := hsh x x le_rfl
    rw [hu]; rfl
  set F : ℝ → ℝ := fun x => (interpCdf xs c x).getD 0 with hFdef
  have hmono : Monotone F := by
    intro x y hxy
    obtain ⟨u, v, hu, hv, -, huv, -⟩ := hsh x y hxy
    simp only [hFdef, hu, hv, Option.getD_some]
    exact huv
  have hle : ∀ x, F x ≤ 1 := by
    intro x
    obtain ⟨u, v, hu, -, -, huv, hv1⟩ := hsh x x le_rfl
    simp only [hFdef, hu, Option.getD_some]
    exact huv.trans hv1
  set c0 := y0 * (x1 - x0) / 2 with hc0
  have hgrid : F x0 = c0 := by
    simp only [hFdef, (C13_cdf_at_grid xs ys c h).2 x0 x1 y0 e0 e1 e2, Option.getD_some]
    rfl
  have hfirst : ∀ u, u < c0 → interpPpf xs c u = some x0 := by
    intro u hu
    obtain ⟨a, b, t, u', v, r, rfl, rfl, hl, hs, h1, rfl⟩ := constructed_facts h
    simp at e0 e1 e2
    subst e0 e1 e2
    unfold interpPpf interp
    simp only [List.zip_cons_cons]
    rw [if_pos]
    rw [hc0] at hu
    linarith
  have hQ : ∀ u, 0 ≤ u → u ≤ 1 → ∃ s, interpPpf xs c u = some s ∧ F s = max u c0 ∧ x0 ≤ s := by
    intro u hu0 hu1
    obtain ⟨s, hs, hc, hlo, -⟩ := C14_cdf_ppf_exact xs ys c h hy x0 x1 y0 e0 e1 e2 u hu0 hu1
    exact ⟨s, hs, by simp only [hFdef, hc, Option.getD_some]; rfl, hlo⟩
  have hx0 : ∀ e ∈ xs, x0 ≤ e := by
    obtain ⟨a, b, t, u', v, r, rfl, rfl, hl, hs, h1, rfl⟩ := constructed_facts h
    simp at e0
    subst e0
    intro e he
    rcases List.mem_cons.1 he with rfl | he
    · exact le_rfl
    · exact ((List.pairwise_cons.1 hs).1 e he).le
  refine ⟨⟨F, hF, ?_, ?_⟩, ?_⟩
  · intro x
    apply volume_between
    · rintro u ⟨hu0, hux⟩
      have hu1 : u ≤ 1 := hux.le.trans (hle x)
      have hxx : x0 ≤ x := by
        by_contra hc
        have : F x = 0 := by
          have := h0 x fun e he => lt_of_lt_of_le (lt_of_not_ge hc) (hx0 e he)
          simp only [hFdef, this, Option.getD_some]
        linarith
      obtain ⟨s, hs, hFs, hlo⟩ := hQ u hu0 hu1
      refine ⟨⟨hu0, hu1⟩, s, hs, ?_⟩
      by_contra hc
      have h2 := hmono (le_of_not_ge hc)
      rw [hFs] at h2
      have h3 := hmono hxx
      rw [hgrid] at h3
      have h4 : u < c0 := by
        by_contra h5
        rw [max_eq_left (le_of_not_gt h5)] at h2
        linarith
      rw [hfirst u h4] at hs
      exact hc (by rw [← Option.some.inj hs]; exact hxx)
    · rintro u ⟨⟨hu0, hu1⟩, s, hs, hsx⟩
      obtain ⟨s', hs', hFs, -⟩ := hQ u hu0 hu1
      rw [hs] at hs'
      obtain rfl := Option.some.inj hs'
      refine ⟨hu0, ?_⟩
      have := hmono hsx
      rw [hFs] at this
      exact (le_max_left _ _).trans this
  · intro i x hx
    simp only [hFdef, (C13_cdf_at_grid xs ys c h).1 i x hx, Option.getD_some]
  · calc ENNReal.ofReal c0 = volume (Ico 0 c0) := by rw [Real.volume_Ico, sub_zero]
      _ ≤ _ := by
        apply measure_mono
        rintro u ⟨hu0, hu1⟩
        refine ⟨⟨hu0, ?_⟩, hfirst u hu1⟩
        have := hle x0
        rw [hgrid] at this
        linarith

/-- two bins of width one with contents 1/4 and 3/4 -/
example := C97_hist [0, 1, 2] [1/4, 3/4] ⟨by simp, rfl, by simp⟩ (by norm_num [totalMass]) (by norm_num)

/-- bins of width 1 and 2 with heights 1 and 3, stored as 1/7 and 3/7 -/
example := C97_hist_made [0, 1, 3] [1, 3] [1/7, 3/7] ⟨by simp, rfl, by norm_num⟩ (Or.inr ⟨0, 1, 1, 1, 3, rfl, rfl, rfl, rfl, by norm_num⟩)
  (by norm_num [histNormRow, histSum, binWidths, Np.mul, Np.sum, Np.diff]) (by simp)

/-- heights 0, 1, 3 at 0, 1 and 2, on the common range of PDFs between 0 and 5 -/
example := C97_irregular 0 5 [0, 1, 2] [0, 1, 3] [0, 1/4, 3/4] ⟨by norm_num, rfl, by norm_num⟩ (by norm_num [irrNormRow, rightRects, Np.sum]) (by simp)

/-- the uniform density on `[0, 1]` given at 0, 1/2 and 1: the samples are exactly 0 with a probability of at least one quarter -/
example : ENNReal.ofReal (1 * (1 / 2 - 0) / 2) ≤
    volume {u : ℝ | (0 ≤ u ∧ u ≤ 1) ∧ interpPpf [0, 1/2, 1] [1/4, 1/2, 1] u = some 0} :=
  (C97_interp_partial [0, 1/2, 1] [1, 1, 1] [1/4, 1/2, 1] ⟨[1, 1, 1], ⟨by norm_num, rfl, by simp⟩, by
    norm_num [interpNormRow, interpCumul, cumsum, cumsumFrom, trapezoids]⟩ (by simp) 0 (1/2) 1 rfl rfl rfl).2

end Verif.Props.Sampling
