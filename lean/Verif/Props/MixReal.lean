import Mathlib.Analysis.Real.Pi.Bounds
import Verif.Lemmas.Gauss
import Verif.Props.Variance
import Verif.Props.Mixmod
import Verif.Props.MetricGrid

/-!
# C90: Gaussian mixtures: density, distribution function, moments and quantiles
-/

set_option linter.unusedSectionVars false
set_option autoImplicit false

namespace Verif.Props.MixReal

open Verif Verif.Np Verif.Model Verif.Lemmas.Gauss Verif.Props.Variance MeasureTheory Set

/-- weighted sum `Σ w_i v_i` -/
def weighted (w v : List ℝ) : ℝ := (List.zipWith (· * ·) w v).sum

/-- parameters of one mixture as stored by the class: as many means and widths as weights, weights that are not negative with sum one (C23), positive
widths -/
structure MixOK (w μs σs : List ℝ) : Prop where
  means : μs.length = w.length
  stds : σs.length = w.length
  nonneg : ∀ v ∈ w, 0 ≤ v
  one : w.sum = 1
  pos : ∀ s ∈ σs, 0 < s

/-- a weighted sum of integrals -/
theorem mix_integral (ν : Measure ℝ) (g : ℝ → ℝ) : ∀ (w : List ℝ) (fs : List (ℝ → ℝ)), (∀ f ∈ fs, Integrable (fun x => g x * f x) ν) →
    Integrable (fun x => g x * mixEval w fs x) ν ∧
    (∫ x, g x * mixEval w fs x ∂ν) = weighted w (fs.map fun f => ∫ x, g x * f x ∂ν) := by
  intro w
  induction w with
  | nil => intro fs _; simp [mixEval, Np.sum, weighted]
  | cons a w ih =>
    intro fs h
    cases fs with
    | nil => simp [mixEval, Np.sum, weighted]
    | cons f fs =>
      obtain ⟨i1, i2⟩ := ih fs (fun f hf => h f (List.mem_cons_of_mem _ hf))
      have h0 := h f (by simp)
      have he : (fun x => g x * mixEval (a :: w) (f :: fs) x) = fun x => a * (g x * f x) + g x * mixEval w fs x := by
        funext x
        simp only [mixEval, List.zipWith_cons_cons, Np.sum, List.foldr_cons]
        ring
      rw [he]
      refine ⟨(h0.const_mul a).add i1, ?_⟩
      rw [integral_add (h0.const_mul a) i1, integral_const_mul, i2]
      simp [weighted]

theorem zipWith_map_mem {μs σs : List ℝ} {F : ℝ → ℝ → ℝ → ℝ} {f : ℝ → ℝ} (h : f ∈ List.zipWith F μs σs) : ∃ μ ∈ μs, ∃ σ ∈ σs, f = F μ σ := by
  rw [List.mem_iff_getElem] at h
  obtain ⟨i, hi, rfl⟩ := h
  simp only [List.length_zipWith, lt_inf_iff] at hi
  exact ⟨_, List.getElem_mem hi.1, _, List.getElem_mem hi.2, by simp⟩

theorem map_zipWith (μs σs : List ℝ) (F : ℝ → ℝ → ℝ → ℝ) (G : (ℝ → ℝ) → ℝ) : (List.zipWith F μs σs).map G = List.zipWith (fun m s => G (F m s)) μs σs := by
  rw [List.map_zipWith]

theorem zipWith_congr_pos {μs σs : List ℝ} {F G : ℝ → ℝ → ℝ} (h : ∀ m, ∀ s ∈ σs, F m s = G m s) : List.zipWith F μs σs = List.zipWith G μs σs := by
  induction μs generalizing σs with
  | nil => rfl
  | cons m μs ih =>
    cases σs with
    | nil => rfl
    | cons s σs => simp only [List.zipWith_cons_cons]; rw [h m s (by simp), ih fun m s hs => h m s (List.mem_cons_of_mem _ hs)]

theorem zipWith_fst {μs σs : List ℝ} (h : μs.length = σs.length) (F : ℝ → ℝ) : List.zipWith (fun m _ => F m) μs σs = μs.map F := by
  induction μs generalizing σs with
  | nil => simp
  | cons m μs ih =>
    cases σs with
    | nil => simp at h
    | cons s σs => simp [ih (by simpa using h)]

theorem weighted_const (w : List ℝ) (l : List ℝ) (h : l.length = w.length) (c : ℝ) : weighted w (l.map fun _ => c) = w.sum * c := by
  induction w generalizing l with
  | nil => simp [weighted]
  | cons a w ih =>
    cases l with
    | nil => simp at h
    | cons b l =>
      have := ih l (by simpa using h)
      simp only [weighted, List.map_cons, List.zipWith_cons_cons, List.sum_cons] at *
      rw [this]; ring

/-- weighted sums are monotone -/
theorem weighted_mono (w : List ℝ) : ∀ (u v : List ℝ), (∀ a ∈ w, 0 ≤ a) → List.Forall₂ (· ≤ ·) u v → weighted w u ≤ weighted w v := by
  induction w with
  | nil => intro u v _ _; simp [weighted]
  | cons a w ih =>
    intro u v hw h
    cases h with
    | nil => simp [weighted]
    | cons h1 h2 =>
      have := ih _ _ (fun b hb => hw b (List.mem_cons_of_mem _ hb)) h2
      simp only [weighted, List.zipWith_cons_cons, List.sum_cons] at *
      have := mul_le_mul_of_nonneg_left h1 (hw a (by simp))
      linarith

theorem mixEval_weighted (w : List ℝ) (fs : List (ℝ → ℝ)) (x : ℝ) : mixEval w fs x = weighted w (fs.map fun f => f x) := by
  induction w generalizing fs with
  | nil => simp [mixEval, weighted, Np.sum]
  | cons a w ih =>
    cases fs with
    | nil => simp [mixEval, weighted, Np.sum]
    | cons f fs =>
      have := ih fs
      simp only [mixEval, weighted, List.zipWith_cons_cons, Np.sum, List.foldr_cons, List.map_cons, List.sum_cons] at *
      rw [this]

theorem pairwise_rel (μs σs : List ℝ) (F G : ℝ → ℝ → ℝ) (h : ∀ p ∈ μs.zip σs, F p.1 p.2 ≤ G p.1 p.2) : List.Forall₂ (· ≤ ·) (List.zipWith F μs σs) (List.zipWith G μs σs) := by
  induction μs generalizing σs with
  | nil => simp
  | cons m μs ih =>
    cases σs with
    | nil => simp
    | cons s σs =>
      simp only [List.zipWith_cons_cons, List.forall₂_cons]
      exact ⟨h (m, s) (by simp), ih σs fun p hp => h p (by rw [List.zip_cons_cons]; exact List.mem_cons_of_mem _ hp)⟩

/-- some weight is positive, so strictness survives -/
theorem weighted_strict (w : List ℝ) : ∀ (μs σs : List ℝ) (F G : ℝ → ℝ → ℝ), μs.length = w.length → σs.length = w.length → (∀ a ∈ w, 0 ≤ a) →
    0 < w.sum → (∀ m, ∀ s ∈ σs, F m s < G m s) → weighted w (List.zipWith F μs σs) < weighted w (List.zipWith G μs σs) := by
  induction w with
  | nil => intro _ _ _ _ _ _ _ h; simp at h
  | cons a w ih =>
    intro μs σs F G h1 h2 hw hs h
    match μs, σs with
    | [], _ => simp at h1
    | _ :: _, [] => simp at h2
    | m :: μs, s :: σs =>
    have ha := hw a (by simp)
    have hF := h m s (by simp)
    have hlt' : ∀ m, ∀ s ∈ σs, F m s < G m s := fun m s hs => h m s (List.mem_cons_of_mem _ hs)
    have hle : weighted w (List.zipWith F μs σs) ≤ weighted w (List.zipWith G μs σs) :=
      weighted_mono w _ _ (fun b hb => hw b (List.mem_cons_of_mem _ hb)) (pairwise_rel μs σs F G fun p hp => (hlt' p.1 p.2 (List.of_mem_zip hp).2).le)
    have hG := mul_le_mul_of_nonneg_left hF.le ha
    simp only [List.zipWith_cons_cons, weighted, List.sum_cons] at *
    rcases ha.lt_or_eq with h0 | h0
    · have := mul_lt_mul_of_pos_left hF h0; linarith
    · have := ih μs σs F G (by simpa using h1) (by simpa using h2) (fun b hb => hw b (List.mem_cons_of_mem _ hb)) (by rw [← h0] at hs; simpa using hs) hlt'
      linarith

/-- **C90, density and distribution function**: the PDF of a mixture is positive, integrable with integral one, and the CDF at `x` is the integral of the
PDF over `(-∞, x]`; the CDF is strictly increasing. -/
theorem C90_density (w μs σs : List ℝ) (h : MixOK w μs σs) :
    (∀ x, 0 < gmixPdf w μs σs x) ∧ Integrable (gmixPdf w μs σs) ∧ (∫ x, gmixPdf w μs σs x) = 1 ∧
    (∀ x, gmixCdf w μs σs x = ∫ t in Iic x, gmixPdf w μs σs t) ∧ ∀ x y, x < y → gmixCdf w μs σs x < gmixCdf w μs σs y := by
  have hl : μs.length = σs.length := h.means.trans h.stds.symm
  have hint : ∀ f ∈ List.zipWith normPdf μs σs, Integrable (fun x => 1 * f x) := by
    intro f hf
    obtain ⟨m, -, s, hs, rfl⟩ := zipWith_map_mem hf
    simpa using integrable_normPdf (h.pos s hs) m
  refine ⟨fun x => ?_, ?_, ?_, fun x => ?_, fun x y hxy => ?_⟩
  · unfold gmixPdf
    rw [mixEval_weighted, map_zipWith]
    have := weighted_strict w μs σs (fun _ _ => 0) (fun m s => normPdf m s x) h.means h.stds h.nonneg (by rw [h.one]; exact one_pos)
      (fun m s hs => normPdf_pos (h.pos s hs) m x)
    rwa [zipWith_fst hl (fun _ => (0 : ℝ)), weighted_const w μs h.means 0, mul_zero] at this
  · have := (mix_integral volume (fun _ => 1) w _ hint).1
    simp only [one_mul] at this
    exact this
  · have := (mix_integral volume (fun _ => 1) w _ hint).2
    simp only [one_mul] at this
    rw [show (∫ x, gmixPdf w μs σs x) = ∫ x, mixEval w (List.zipWith normPdf μs σs) x from rfl, this, map_zipWith,
      zipWith_congr_pos (G := fun _ _ => 1) (fun m s hs => integral_normPdf (h.pos s hs) m), zipWith_fst hl (fun _ => (1 : ℝ)),
      weighted_const w μs h.means 1, h.one, one_mul]
  · have := (mix_integral (volume.restrict (Iic x)) (fun _ => 1) w _ (fun f hf => (hint f hf).restrict)).2
    simp only [one_mul] at this
    rw [show (∫ t in Iic x, gmixPdf w μs σs t) = ∫ t in Iic x, mixEval w (List.zipWith normPdf μs σs) t from rfl, this, map_zipWith]
    unfold gmixCdf
    rw [mixEval_weighted, map_zipWith, zipWith_congr_pos fun m s hs => normCdf_eq (h.pos s hs) m x]
  · unfold gmixCdf
    rw [mixEval_weighted, map_zipWith, mixEval_weighted, map_zipWith]
    exact weighted_strict w μs σs _ _ h.means h.stds h.nonneg (by rw [h.one]; exact one_pos) (fun m s hs => normCdf_lt (h.pos s hs) m x y hxy)

/-- **C90, moments**: the mean of a mixture is the weighted mean of its means, its variance the weighted mean of `σ² + μ²` minus the squared mean. -/
theorem C90_moments (w μs σs : List ℝ) (h : MixOK w μs σs) :
    IsMeanVar (gmixPdf w μs σs) (weighted w μs) (weighted w (List.zipWith (fun m s => s ^ 2 + m ^ 2) μs σs) - weighted w μs * weighted w μs) := by
  have hl : μs.length = σs.length := h.means.trans h.stds.symm
  obtain ⟨-, i0, e0, -, -⟩ := C90_density w μs σs h
  have h1 := mix_integral volume (fun x => x) w (List.zipWith normPdf μs σs) (by
    intro f hf
    obtain ⟨m, -, s, hs, rfl⟩ := zipWith_map_mem hf
    exact (mean_normPdf (h.pos s hs) m).1)
  have h2 := mix_integral volume (fun x => x ^ 2) w (List.zipWith normPdf μs σs) (by
    intro f hf
    obtain ⟨m, -, s, hs, rfl⟩ := zipWith_map_mem hf
    exact (square_normPdf (h.pos s hs) m).1)
  refine meanVar_of _ _ _ i0 h1.1 h2.1 e0 ?_ ?_
  · refine h1.2.trans ?_
    rw [map_zipWith, zipWith_congr_pos fun m s hs => (mean_normPdf (h.pos s hs) m).2, zipWith_fst hl (fun m => m), List.map_id']
  · refine h2.2.trans ?_
    rw [map_zipWith, zipWith_congr_pos fun m s hs => (square_normPdf (h.pos s hs) m).2]

/-- interpolation of a tabulated inverse stays in the cell of the table that contains the probability -/
theorem inverse_cell (F : ℝ → ℝ) (hF : ∀ x y, x < y → F x < F y) (s q : ℝ) (hs : 0 ≤ s) : ∀ (t : List ℝ) (x0 : ℝ), (x0 :: t).Pairwise (· < ·) →
    (∀ (i : ℕ) a b, (x0 :: t)[i]? = some a → (x0 :: t)[i+1]? = some b → b - a ≤ s) → F x0 ≤ q → q ≤ F ((x0 :: t).getLast (by simp)) →
    ∃ a b, a ≤ npInterpGo (F x0) x0 (t.map fun x => (F x, x)) q ∧ npInterpGo (F x0) x0 (t.map fun x => (F x, x)) q ≤ b ∧ F a ≤ q ∧ q ≤ F b ∧
      b - a ≤ s ∧ a ∈ x0 :: t ∧ b ∈ x0 :: t := by
  intro t
  induction t with
  | nil =>
    intro x0 _ _ h1 h2
    exact ⟨x0, x0, le_rfl, le_rfl, h1, h2, by simpa using hs, by simp, by simp⟩
  | cons x1 t ih =>
    intro x0 hp hgap h1 h2
    have h01 : x0 < x1 := (List.pairwise_cons.1 hp).1 x1 (by simp)
    simp only [List.map_cons, npInterpGo]
    by_cases hc : F x1 ≤ q
    · rw [if_pos hc]
      obtain ⟨a, b, g1, g2, g3, g4, g5, g6, g7⟩ := ih x1 (List.pairwise_cons.1 hp).2
        (fun i a b ha hb => hgap (i+1) a b (by simpa using ha) (by simpa using hb)) hc (by simpa using h2)
      exact ⟨a, b, g1, g2, g3, g4, g5, List.mem_cons_of_mem _ g6, List.mem_cons_of_mem _ g7⟩
    · rw [if_neg hc]
      have hc := not_le.1 hc
      refine ⟨x0, x1, ?_, ?_, h1, hc.le, hgap 0 x0 x1 rfl rfl, by simp, by simp⟩
      · split_ifs
        · exact le_rfl
        · unfold line
          have := div_nonneg (sub_nonneg.2 h01.le) (sub_nonneg.2 (hF _ _ h01).le)
          nlinarith [mul_nonneg this (sub_nonneg.2 h1)]
      · split_ifs
        · exact h01.le
        · unfold line
          have hd : 0 < F x1 - F x0 := sub_pos.2 (hF _ _ h01)
          rw [div_mul_eq_mul_div]
          have : (x1 - x0) * (q - F x0) / (F x1 - F x0) ≤ x1 - x0 := by
            rw [div_le_iff₀ hd]
            exact mul_le_mul_of_nonneg_left (by linarith) (by linarith)
          linarith

/-- the bound for a grid that reaches six widths beyond every component -/
theorem quantile_bound (w μs σs : List ℝ) (h : MixOK w μs σs) (lo hi : ℝ) (hlh : lo < hi) (hlo : ∀ p ∈ μs.zip σs, lo ≤ p.1 - 6 * p.2)
    (hhi : ∀ p ∈ μs.zip σs, p.1 + 6 * p.2 ≤ hi) (q : ℝ) (h0 : 0 < q) (h1 : q < 1) :
    ∃ x, gmixPpf w μs σs lo hi q = some x ∧ lo ≤ x ∧ x ≤ hi ∧
      |gmixCdf w μs σs x - q| ≤ max (Real.exp (-18)) ((hi - lo) / 200 * weighted w (σs.map fun s => 1 / (Real.sqrt (2 * Real.pi) * s))) := by
  have hl : μs.length = σs.length := h.means.trans h.stds.symm
  set F := gmixCdf w μs σs with hFd
  have hF : ∀ x y, x < y → F x < F y := (C90_density w μs σs h).2.2.2.2
  have hFm : ∀ x y, x ≤ y → F x ≤ F y := fun x y hxy => (hxy.lt_or_eq).elim (fun h => (hF x y h).le) (fun h => by rw [h])
  have hFw : ∀ x, F x = weighted w (List.zipWith (fun m s => normCdf m s x) μs σs) := by
    intro x; rw [hFd]; unfold gmixCdf; rw [mixEval_weighted, map_zipWith]
  have hFlo : F lo ≤ Real.exp (-18) := by
    rw [hFw]
    have := weighted_mono w _ _ h.nonneg (pairwise_rel μs σs (fun m s => normCdf m s lo) (fun _ _ => Real.exp (-18)) fun p hp => by
      have := normCdf_tail (h.pos _ (List.of_mem_zip hp).2) p.1 lo 6 (by norm_num) (hlo p hp)
      norm_num at this
      simpa using this)
    rwa [zipWith_fst hl (fun _ => Real.exp (-18)), weighted_const w μs h.means, h.one, one_mul] at this
  have hFhi : 1 - Real.exp (-18) ≤ F hi := by
    rw [hFw]
    have := weighted_mono w _ _ h.nonneg (pairwise_rel μs σs (fun _ _ => 1 - Real.exp (-18)) (fun m s => normCdf m s hi) fun p hp => by
      have := normCdf_tail_up (h.pos _ (List.of_mem_zip hp).2) p.1 hi 6 (by norm_num) (hhi p hp)
      norm_num at this
      simpa using this)
    rwa [zipWith_fst hl (fun _ => 1 - Real.exp (-18)), weighted_const w μs h.means, h.one, one_mul] at this
  have hLip : ∀ a b, a ≤ b → F b - F a ≤ (b - a) * weighted w (σs.map fun s => 1 / (Real.sqrt (2 * Real.pi) * s)) := by
    intro a b hab
    have hm := weighted_mono w _ _ h.nonneg (pairwise_rel μs σs (fun m s => normCdf m s b) (fun m s => normCdf m s a + (b - a) * (1 / (Real.sqrt (2 * Real.pi) * s)))
      (fun p hp => by
        have := normCdf_lipschitz (h.pos _ (List.of_mem_zip hp).2) p.1 a b hab
        rw [div_eq_mul_one_div] at this
        linarith))
    have hsplit : ∀ (w μs σs : List ℝ), μs.length = σs.length → ∀ (A : ℝ → ℝ → ℝ) (B : ℝ → ℝ) (c : ℝ),
        weighted w (List.zipWith (fun m s => A m s + c * B s) μs σs) = weighted w (List.zipWith A μs σs) + c * weighted w (σs.map B) := by
      intro w
      induction w with
      | nil => intro _ _ _ _ _ _; simp [weighted]
      | cons v w ih =>
        intro μs σs hl A B c
        match μs, σs with
        | [], [] => simp [weighted]
        | m :: μs, s :: σs =>
          have := ih μs σs (by simpa using hl) A B c
          simp only [weighted, List.zipWith_cons_cons, List.map_cons, List.sum_cons] at *
          rw [this]; ring
    rw [hsplit w μs σs hl] at hm
    rw [hFw, hFw]
    linarith
  set L := weighted w (σs.map fun s => 1 / (Real.sqrt (2 * Real.pi) * s)) with hL
  have hg := linspace_pairwise lo hi 201 (by norm_num) hlh
  have hhead := Metrics.head_linspace lo hi 201 (by norm_num)
  have hlast := Metrics.last_linspace lo hi 201 (by norm_num)
  have hgap := Metrics.spaced_linspace lo hi 201 (by norm_num)
  have hz : ((gmixGrid lo hi).map F).zip (gmixGrid lo hi) = (gmixGrid lo hi).map fun x => (F x, x) := by
    have := List.zip_map' (f := F) (g := fun x => x) (l := gmixGrid lo hi)
    simpa using this
  unfold gmixPpf
  rw [hz]
  unfold gmixGrid
  obtain ⟨g0, t, hgr⟩ : ∃ g0 t, linspace lo hi 201 = g0 :: t := by
    cases hc : linspace lo hi 201 with
    | nil => rw [hc] at hhead; simp at hhead
    | cons a t => exact ⟨a, t, rfl⟩
  rw [hgr] at hg hhead hlast hgap ⊢
  obtain rfl : g0 = lo := by simpa using hhead
  have hla' : (g0 :: t).getLast (by simp) = hi := by
    rw [List.getLast?_eq_some_getLast (by simp)] at hlast
    exact Option.some.inj hlast
  have hlast2 : (((F g0, g0) :: t.map fun x => (F x, x)).getLast (by simp)) = (F hi, hi) := by
    have : ((F g0, g0) :: t.map fun x => (F x, x)) = (g0 :: t).map fun x => (F x, x) := rfl
    simp only [this, List.getLast_map, hla']
  rw [List.map_cons]
  unfold interp
  simp only [hlast2]
  by_cases c1 : q < F g0
  · rw [if_pos c1]
    refine ⟨g0, rfl, le_rfl, hlh.le, le_trans ?_ (le_max_left _ _)⟩
    rw [abs_of_nonneg (by linarith)]
    linarith
  rw [if_neg c1]
  by_cases c2 : F hi < q
  · rw [if_pos c2]
    refine ⟨hi, rfl, hlh.le, le_rfl, le_trans ?_ (le_max_left _ _)⟩
    rw [abs_of_nonpos (by linarith)]
    linarith
  rw [if_neg c2]
  obtain ⟨a, b, k1, k2, k3, k4, k5, k6, k7⟩ := inverse_cell F hF ((hi - g0) / 200) q (by have := hlh; apply div_nonneg <;> linarith) t g0 hg
    (fun i a b ha hb => by
      have := hgap i a b ha hb
      norm_num at this
      exact this.le) (not_lt.1 c1) (by rw [hla']; exact not_lt.1 c2)
  have hmin : ∀ z ∈ g0 :: t, g0 ≤ z := fun z hz => by
    rcases List.mem_cons.1 hz with h | h
    · exact h.ge
    · exact ((List.pairwise_cons.1 hg).1 z h).le
  have hmax : ∀ z ∈ g0 :: t, z ≤ hi := fun z hz => hla' ▸ Lemmas.InterpPdf.getLast_max hg (by simp) hz
  refine ⟨_, rfl, (hmin a k6).trans k1, k2.trans (hmax b k7), le_trans ?_ (le_max_right _ _)⟩
  have hab := k1.trans k2
  have hL0 : 0 ≤ L := by
    by_contra hneg
    have := hLip g0 hi hlh.le
    have h3 := hF g0 hi hlh
    nlinarith [not_le.1 hneg]
  have e1 := hFm _ _ k1
  have e2 := hFm _ _ k2
  have e3 := hLip a b hab
  have e4 := mul_le_mul_of_nonneg_right k5 hL0
  rw [abs_le]
  constructor <;> linarith

theorem gmixLo_le {rows : List GMix} {r : GMix} (hr : r ∈ rows) {p : ℝ × ℝ} (hp : p ∈ r.μs.zip r.σs) : gmixLo rows ≤ p.1 - 6 * p.2 := by
  have hm : p.1 - 6 * p.2 ∈ rows.flatMap fun r => List.zipWith (fun m s => m - 6 * s) r.μs r.σs := by
    rw [List.mem_flatMap]
    refine ⟨r, hr, ?_⟩
    rw [← List.map_uncurry_zip_eq_zipWith, List.mem_map]
    exact ⟨p, hp, rfl⟩
  unfold gmixLo
  cases hc : (rows.flatMap fun r => List.zipWith (fun m s => m - 6 * s) r.μs r.σs).min? with
  | none => rw [List.min?_eq_none_iff] at hc; rw [hc] at hm; simp at hm
  | some v => exact (List.min?_eq_some_iff.1 hc).2 _ hm

theorem le_gmixHi {rows : List GMix} {r : GMix} (hr : r ∈ rows) {p : ℝ × ℝ} (hp : p ∈ r.μs.zip r.σs) : p.1 + 6 * p.2 ≤ gmixHi rows := by
  have hm : p.1 + 6 * p.2 ∈ rows.flatMap fun r => List.zipWith (fun m s => m + 6 * s) r.μs r.σs := by
    rw [List.mem_flatMap]
    refine ⟨r, hr, ?_⟩
    rw [← List.map_uncurry_zip_eq_zipWith, List.mem_map]
    exact ⟨p, hp, rfl⟩
  unfold gmixHi
  cases hc : (rows.flatMap fun r => List.zipWith (fun m s => m + 6 * s) r.μs r.σs).max? with
  | none => rw [List.max?_eq_none_iff] at hc; rw [hc] at hm; simp at hm
  | some v => exact (List.max?_eq_some_iff.1 hc).2 _ hm

/-- **C90, quantiles**: the quantile returned for a probability inside `(0,1)` is between the smallest `μ - 6σ` and the largest `μ + 6σ` of the ensemble,
and its probability is wrong by at most `exp(-18)` or by what the CDF can grow in one of the 200 cells of that range. -/
theorem C90_quantiles_partial (rows : List GMix) (r : GMix) (hr : r ∈ rows) (h : MixOK r.w r.μs r.σs) (q : ℝ) (h0 : 0 < q) (h1 : q < 1) :
    ∃ x, gmixPpfIn rows r q = some x ∧ gmixLo rows ≤ x ∧ x ≤ gmixHi rows ∧
      |gmixCdf r.w r.μs r.σs x - q| ≤
        max (Real.exp (-18)) ((gmixHi rows - gmixLo rows) / 200 * weighted r.w (r.σs.map fun s => 1 / (Real.sqrt (2 * Real.pi) * s))) := by
  have hlh : gmixLo rows < gmixHi rows := by
    obtain ⟨p, hp⟩ : ∃ p, p ∈ r.μs.zip r.σs := by
      have hw : r.w ≠ [] := fun hn => by have := h.one; rw [hn] at this; simp at this
      match hm : r.μs, hs : r.σs, h.means, h.stds with
      | [], _, e, _ => exact absurd (List.length_eq_zero_iff.1 e.symm) hw
      | _ :: _, [], _, e => exact absurd (List.length_eq_zero_iff.1 e.symm) hw
      | m :: _, s :: _, _, _ => exact ⟨(m, s), by simp⟩
    have := h.pos p.2 (List.of_mem_zip hp).2
    linarith [gmixLo_le hr hp, le_gmixHi hr hp]
  exact quantile_bound r.w r.μs r.σs h _ _ hlh (fun p hp => gmixLo_le hr hp) (fun p hp => le_gmixHi hr hp) q h0 h1

/-- **C90, the quantiles of one PDF depend on the others**: in an ensemble that also holds a PDF far away, the median returned for the standard normal
distribution is larger than 200, its probability is 1 up to `exp(-18)`. -/
theorem C90_quantiles_wrong : ∃ (rows : List GMix) (r : GMix) (x : ℝ), r ∈ rows ∧ (∀ r ∈ rows, MixOK r.w r.μs r.σs) ∧ r = ⟨[1], [0], [1]⟩ ∧
    gmixPpfIn rows r (1 / 2) = some x ∧ 200 ≤ x ∧ 1 - Real.exp (-18) ≤ gmixCdf r.w r.μs r.σs x := by
  have hok : ∀ m : ℝ, MixOK [1] [m] [1] := fun m => ⟨rfl, rfl, by simp, by simp, by simp⟩
  have hF : ∀ x, gmixCdf [1] [0] [1] x = normCdf 0 1 x := by intro x; simp [gmixCdf, mixEval, Np.sum]
  have hlo : gmixLo [⟨[1], [0], [1]⟩, ⟨[1], [99988], [1]⟩] = -6 := by
    simp [gmixLo, List.min?]
  have hhi : gmixHi [⟨[1], [0], [1]⟩, ⟨[1], [99988], [1]⟩] = 99994 := by
    simp [gmixHi, List.max?]; norm_num
  have he : Real.exp (-18) ≤ 1 / 100 := by
    rw [Real.exp_neg, ← one_div]
    apply one_div_le_one_div_of_le (by norm_num)
    have := Real.quadratic_le_exp_of_nonneg (show (0 : ℝ) ≤ 18 by norm_num)
    linarith
  have hup : ∀ x : ℝ, 6 ≤ x → 1 - Real.exp (-18) ≤ normCdf 0 1 x := fun x hx => by
    have := normCdf_tail_up one_pos 0 x 6 (by norm_num) (by linarith)
    norm_num at this
    simpa using this
  have h6 : normCdf 0 1 (-6) ≤ Real.exp (-18) := by
    have := normCdf_tail one_pos 0 (-6) 6 (by norm_num) (by norm_num)
    norm_num at this
    simpa using this
  have hb := normCdf_bounds 0 1
  obtain ⟨t, ht⟩ : ∃ t, linspace (-6 : ℝ) 99994 201 = (-6) :: 494 :: t := by
    have e0 := getElem?_linspace (-6 : ℝ) 99994 201 (by norm_num) 0 (by norm_num)
    have e1 := getElem?_linspace (-6 : ℝ) 99994 201 (by norm_num) 1 (by norm_num)
    cases hc : linspace (-6 : ℝ) 99994 201 with
    | nil => rw [hc] at e0; simp at e0
    | cons a l =>
      rw [hc] at e0 e1
      cases l with
      | nil => simp at e1
      | cons b l =>
        refine ⟨l, ?_⟩
        norm_num at e0 e1
        rw [e0, e1]
  have hlast := Metrics.last_linspace (-6 : ℝ) 99994 201 (by norm_num)
  have hz : ((gmixGrid (-6) 99994).map (gmixCdf [1] [0] [1])).zip (gmixGrid (-6) 99994) = (gmixGrid (-6) 99994).map fun x => (normCdf 0 1 x, x) := by
    have := List.zip_map' (f := gmixCdf [1] [0] [1]) (g := fun x => x) (l := gmixGrid (-6) 99994)
    simp only [List.map_id', hF] at this
    rw [← this]
  set x := line (normCdf 0 1 (-6)) (-6 : ℝ) (normCdf 0 1 494) 494 (1 / 2) with hx
  have hx200 : 200 ≤ x := by
    rw [hx]
    unfold line
    have a1 := hup 494 (by norm_num)
    have a2 := (hb 494).2
    have a3 := (hb (-6)).1
    have hd : 0 < normCdf 0 1 494 - normCdf 0 1 (-6) := by linarith
    rw [div_mul_eq_mul_div]
    have : 206 ≤ (494 - (-6)) * (1 / 2 - normCdf 0 1 (-6)) / (normCdf 0 1 494 - normCdf 0 1 (-6)) := by
      rw [le_div_iff₀ hd]; nlinarith
    linarith
  refine ⟨[⟨[1], [0], [1]⟩, ⟨[1], [99988], [1]⟩], ⟨[1], [0], [1]⟩, x, by simp, ?_, rfl, ?_, hx200, ?_⟩
  · intro r hr
    simp only [List.mem_cons, List.not_mem_nil, or_false] at hr
    rcases hr with rfl | rfl <;> exact hok _
  · unfold gmixPpfIn gmixPpf
    rw [hlo, hhi]
    simp only
    rw [hz]
    unfold gmixGrid
    rw [ht] at hlast ⊢
    have hla' : ((-6 : ℝ) :: 494 :: t).getLast (by simp) = 99994 := by
      rw [List.getLast?_eq_some_getLast (by simp)] at hlast
      exact Option.some.inj hlast
    have hlast2 : (((normCdf 0 1 (-6), (-6 : ℝ)) :: (normCdf 0 1 494, 494) :: t.map fun x => (normCdf 0 1 x, x)).getLast (by simp)) =
        (normCdf 0 1 99994, 99994) := by
      have : ((normCdf 0 1 (-6), (-6 : ℝ)) :: (normCdf 0 1 494, 494) :: t.map fun x => (normCdf 0 1 x, x)) =
        ((-6 : ℝ) :: 494 :: t).map fun x => (normCdf 0 1 x, x) := rfl
      simp only [this, List.getLast_map, hla']
    rw [List.map_cons, List.map_cons]
    unfold interp
    simp only [hlast2]
    have b1 := hup 99994 (by norm_num)
    have b2 := hup 494 (by norm_num)
    rw [if_neg (by linarith), if_neg (by linarith)]
    simp only [npInterpGo]
    rw [if_neg (by linarith), if_neg (by intro hq; linarith)]
  · rw [hF]; exact hup x (by linarith)

/-- **C90, one normal distribution**: alone in its ensemble, the probability of the quantile is right within 0.024, whatever its mean and width. -/
theorem C90_quantiles_single (μ σ : ℝ) (hσ : 0 < σ) (q : ℝ) (h0 : 0 < q) (h1 : q < 1) :
    ∃ x, gmixPpfIn [⟨[1], [μ], [σ]⟩] ⟨[1], [μ], [σ]⟩ q = some x ∧ μ - 6 * σ ≤ x ∧ x ≤ μ + 6 * σ ∧ |normCdf μ σ x - q| ≤ 3 / 125 := by
  have hok : MixOK [1] [μ] [σ] := ⟨rfl, rfl, by simp, by simp, by simpa using hσ⟩
  obtain ⟨x, e, l, u, b⟩ := C90_quantiles_partial [⟨[1], [μ], [σ]⟩] ⟨[1], [μ], [σ]⟩ (by simp) hok q h0 h1
  have hlo : gmixLo [⟨[1], [μ], [σ]⟩] = μ - 6 * σ := by simp [gmixLo, List.min?]
  have hhi : gmixHi [⟨[1], [μ], [σ]⟩] = μ + 6 * σ := by simp [gmixHi, List.max?]
  rw [hlo, hhi] at b
  rw [hlo] at l
  rw [hhi] at u
  have hF : gmixCdf [1] [μ] [σ] x = normCdf μ σ x := by simp [gmixCdf, mixEval, Np.sum]
  simp only [hF] at b
  refine ⟨x, e, l, u, b.trans (max_le ?_ ?_)⟩
  · rw [Real.exp_neg, ← one_div]
    have := Real.quadratic_le_exp_of_nonneg (show (0 : ℝ) ≤ 18 by norm_num)
    rw [div_le_iff₀ (Real.exp_pos _)]
    linarith
  · have hs : (5 / 2 : ℝ) ≤ Real.sqrt (2 * Real.pi) := by
      apply Real.le_sqrt_of_sq_le
      have := Real.pi_gt_d2
      norm_num at this ⊢
      linarith
    have hp : 0 < Real.sqrt (2 * Real.pi) := by linarith
    simp only [weighted, List.map_cons, List.map_nil, List.zipWith_cons_cons, List.zipWith_nil_right, List.sum_cons, List.sum_nil]
    rw [show (μ + 6 * σ - (μ - 6 * σ)) / 200 * (1 * (1 / (Real.sqrt (2 * Real.pi) * σ)) + 0) = 3 / 50 / Real.sqrt (2 * Real.pi) by field_simp; ring,
      div_le_iff₀ hp]
    linarith

/-! ### a mixture of two components -/

theorem two_ok : MixOK [1/4, 3/4] [-1, 2] [1, 1/2] :=
  ⟨rfl, rfl, by simp; norm_num, by norm_num, by simp⟩

/-- its mean is 5/4 -/
theorem two_mean : weighted [1/4, 3/4] [-1, 2] = 5/4 := by norm_num [weighted]

/-- its variance is 17/8 -/
theorem two_var : weighted [1/4, 3/4] (List.zipWith (fun m s => s ^ 2 + m ^ 2) [-1, 2] [1, 1/2]) - weighted [1/4, 3/4] [-1, 2] * weighted [1/4, 3/4] [-1, 2] = 17/8 := by
  norm_num [weighted]

example := C90_density _ _ _ two_ok
example := C90_moments _ _ _ two_ok
example := C90_quantiles_partial [⟨[1/4, 3/4], [-1, 2], [1, 1/2]⟩, ⟨[1], [0], [1]⟩] ⟨[1/4, 3/4], [-1, 2], [1, 1/2]⟩ (by simp) two_ok (1/3) (by norm_num) (by norm_num)
example := C90_quantiles_single 7 (1/2) (by norm_num) (9/10) (by norm_num) (by norm_num)

end Verif.Props.MixReal
