import Verif.Lemmas.Hist
import Verif.Model.Scipy
import Verif.Props.Bins

/-!
# C06-C11: histogram distributions

Specification vocabulary: `Spec.totalMass`, `Spec.massUpTo`, `Spec.meanOf` (step functions), `Props.Bins.Inside` etc.
-/

set_option linter.unusedSectionVars false

namespace Verif.Props.Hist

open Verif Verif.Np Verif.Model Verif.Spec Verif.Lemmas.Hist Verif.Props.Bins

variable {K : Type*} [Field K] [LinearOrder K] [IsStrictOrderedRing K]

/-- A valid histogram grid for rows of `n` contents: strictly increasing edges, one more than contents, at least one
bin. -/
structure Grid (edges : List K) (n : ℕ) : Prop where
  strict : edges.Pairwise (· < ·)
  size : edges.length = n + 1
  pos : 1 ≤ n

/-! ## C06 -/

/-- **C06 (partial).** Density of a constructed histogram: strictly inside bin `i` it is `content_i / total mass`, outside
the range of the edges it is zero. Missing: grids that are non-uniform by less than the tolerance of `np.allclose`
(false there: `C06_tiny_bins_wrong`). -/
theorem C06_hist_pdf_partial [FloorRing K] (edges row p : List K) (hg : Grid edges row.length)
    (hu : Uniform edges ∨ DetectablyNonUniform edges) (hp : histNormRow edges row = some p) (x : K) :
    (∀ i v, Inside edges i x → row[i]? = some v → histPdf edges p x = .ok (v / totalMass edges row)) ∧
    ((∀ e ∈ edges, x < e) ∨ (∀ e ∈ edges, e < x) → histPdf edges p x = .ok 0) := by
  have h2 : 2 ≤ edges.length := by have := hg.size; have := hg.pos; omega
  obtain ⟨h1, h3⟩ := C05_bin_lookup_partial edges h2 hg.strict hu x
  have hpe : p = row.map (· / totalMass edges row) := by
    unfold histNormRow at hp
    split at hp
    · simp at hp
    · rw [histSum_eq] at hp; exact (Option.some.inj hp).symm
  constructor
  · intro i v hi hv
    unfold histPdf evalHist
    rw [h1 i hi, hpe]
    simp [hv]
  · intro hout
    unfold histPdf evalHist
    rw [h3 hout, hpe]
    have : ∃ v, row[0]? = some v := by
      have := hg.pos
      exact ⟨row[0], List.getElem?_eq_getElem (by omega)⟩
    obtain ⟨v, hv⟩ := this
    simp [hv]

/-- **C06 is violated** on tiny bins: edges `[0, 1e-9, 3e-9]`, contents `[1, 1]`: the density at `2.5e-9` (inside the
second bin) is reported as 0 although the content is positive. -/
theorem C06_tiny_bins_wrong :
    ∃ (edges p : List ℚ) (x : ℚ), Grid edges p.length ∧ Inside edges 1 x ∧ (∀ v ∈ p, 0 < v) ∧
      histPdf edges p x = .ok 0 := by
  refine ⟨[0, 1/1000000000, 3/1000000000], [1, 1], 5/2000000000, ⟨by decide +kernel, rfl, by decide⟩, ?_, ?_,
    by decide +kernel⟩
  · exact ⟨1/1000000000, 3/1000000000, rfl, rfl, by norm_num, by norm_num⟩
  · simp

/-! ## C07 -/

/-- **C07: normalisation of one row.** A row of non-zero total mass is divided by it: the result has mass one, keeps the
proportions, and stays non-negative if it was. A row of zero mass becomes non-finite. -/
theorem C07_row_normalised (edges row : List K) :
    (totalMass edges row = 0 → histNormRow edges row = none) ∧
    (totalMass edges row ≠ 0 → ∃ p, histNormRow edges row = some p ∧ totalMass edges p = 1 ∧
      p = row.map (· / totalMass edges row) ∧
      (edges.Pairwise (· < ·) → (∀ v ∈ row, 0 ≤ v) → ∀ v ∈ p, 0 ≤ v)) := by
  unfold histNormRow
  rw [histSum_eq]
  constructor
  · intro h; rw [if_pos h]
  · intro h
    rw [if_neg h]
    refine ⟨_, rfl, ?_, rfl, ?_⟩
    · rw [totalMass_div, div_self h]
    · intro hs hrow v hv
      obtain ⟨w, hw, rfl⟩ := List.mem_map.1 hv
      refine div_nonneg (hrow w hw) ?_
      have : ∀ (e p : List K), e.Pairwise (· < ·) → (∀ v ∈ p, 0 ≤ v) → 0 ≤ totalMass e p := by
        intro e p
        induction p generalizing e with
        | nil => intro _ _; rw [totalMass_nil_right]
        | cons q p ih =>
          intro hs hp
          match e with
          | [] => simp [totalMass]
          | [_] => simp [totalMass]
          | a :: b :: e =>
            have hs' := List.pairwise_cons.1 hs
            have h1 := ih (b :: e) hs'.2 (fun v hv => hp v (by simp [hv]))
            have h2 := mul_nonneg (hp q (by simp)) (sub_nonneg.2 (hs'.1 b (by simp)).le)
            simp only [totalMass]; linarith
      exact this edges row hs hrow

/-- **C07: rescaling the input does not matter.** -/
theorem C07_scale_invariant (edges row : List K) (c : K) (hc : c ≠ 0) :
    histNormRow edges (row.map (c * ·)) = histNormRow edges row := by
  unfold histNormRow
  rw [histSum_eq, histSum_eq, totalMass_scale]
  by_cases h : totalMass edges row = 0
  · simp [h]
  · rw [if_neg (mul_ne_zero hc h), if_neg h, List.map_map]
    congr 1
    apply List.map_congr_left
    intro v _
    simp only [Function.comp]
    rw [mul_div_mul_left _ _ hc]

/-- **C07: constructing again from what is stored changes nothing** (whole ensemble, default `check_input`). -/
theorem C07_reconstruct (edges : List K) (rows ps : List (List K)) (h : Hist K)
    (hc : histInit edges rows true = .ok h) (hfin : h.pdfs = ps.map some) :
    histInit h.bins ps true = .ok h := by
  unfold histInit at hc
  split at hc
  · simp at hc
  split at hc
  · simp at hc
  next hb hl =>
  simp only [if_true] at hc
  injection hc with hc
  subst hc
  simp only at hfin ⊢
  -- every stored row comes from an input row
  have key : ∀ p ∈ ps, histNormRow edges p = some p ∧ p.length = edges.length - 1 := by
    intro p hp
    have : some p ∈ rows.map (histNormRow edges) := by rw [hfin]; exact List.mem_map_of_mem hp
    obtain ⟨row, hrow, hrp⟩ := List.mem_map.1 this
    by_cases h0 : totalMass edges row = 0
    · rw [(C07_row_normalised edges row).1 h0] at hrp; simp at hrp
    · obtain ⟨p', h1, h2, h3, _⟩ := (C07_row_normalised edges row).2 h0
      obtain rfl : p' = p := Option.some.inj (h1.symm.trans hrp)
      constructor
      · unfold histNormRow
        rw [histSum_eq, h2]
        simp
      · have hl' : ∀ x ∈ rows, x.length = edges.length - 1 := by simpa using hl
        rw [h3]; simpa using hl' row hrow
  unfold histInit
  rw [if_neg hb, if_neg]
  · simp only [if_true]
    congr 2
    rw [hfin]
    apply List.map_congr_left
    intro p hp
    exact (key p hp).1
  · simp only [List.any_eq_true, not_exists, not_and]
    intro p hp
    simp [(key p hp).2]

/-- **C07: shape check.** Construction fails with `ValueError` exactly when some row does not have one content per bin. -/
theorem C07_shape_check (edges : List K) (hne : edges ≠ []) (rows : List (List K)) (ci : Bool) :
    (histInit edges rows ci = .error .ValueError ↔ ∃ r ∈ rows, r.length + 1 ≠ edges.length) ∧
    ((∀ r ∈ rows, r.length + 1 = edges.length) → ∃ h, histInit edges rows ci = .ok h ∧ h.bins = edges ∧
      h.pdfs.length = rows.length) := by
  have hpos : 0 < edges.length := List.length_pos_of_ne_nil hne
  have : (rows.any (fun r => r.length ≠ edges.length - 1)) = true ↔ ∃ r ∈ rows, r.length + 1 ≠ edges.length := by
    simp only [List.any_eq_true, decide_eq_true_eq]
    constructor
    · rintro ⟨r, h1, h2⟩; exact ⟨r, h1, by omega⟩
    · rintro ⟨r, h1, h2⟩; exact ⟨r, h1, by omega⟩
  unfold histInit
  rw [if_neg hne]
  constructor
  · rw [← this]
    split <;> simp_all
  · intro h
    rw [if_neg (by rw [this]; push Not; exact h)]
    refine ⟨_, rfl, rfl, ?_⟩
    cases ci <;> simp

/-! ## C08 -/

/-- **C08: the CDF is the integral of the density**, at *every* point. -/
theorem C08_cdf_is_mass (edges p : List K) (hg : Grid edges p.length) (h1 : totalMass edges p = 1) (x : K) :
    histCdf edges p x = some (massUpTo edges p x) := by
  match edges, hg with
  | [], hg => exact absurd hg.size (by simp)
  | a :: e, hg =>
    have hl : p.length = e.length := by have := hg.size; simpa using this.symm
    unfold histCdf
    rw [zip_cumul]
    unfold interp
    simp only
    have hlast := cumul_last e a p 0 hl
    by_cases hx : x < a
    · rw [if_pos hx, massUpTo_left e a p x hg.strict hx.le]
    · rw [if_neg hx]
      have hx := not_lt.1 hx
      have hl2 : (((a, (0 : K)) :: knots a e p).getLast (by simp)).1 = (a :: e).getLast (by simp) := by
        unfold knots; rw [hlast]
      by_cases hx2 : (a :: e).getLast (by simp) < x
      · rw [if_pos (by rw [hl2]; exact hx2)]
        rw [massUpTo_right e a p x hg.strict, h1]
        intro v hv
        have : v ≤ (a :: e).getLast (by simp) := by
          have hpw := hg.strict
          rw [← List.dropLast_append_getLast (l := a :: e) (by simp)] at hpw hv
          rcases List.mem_append.1 hv with hv | hv
          · exact le_of_lt ((List.pairwise_append.1 hpw).2.2 v hv _ (by simp))
          · exact le_of_eq (by simpa using hv)
        exact this.trans hx2.le
      · rw [if_neg (by rw [hl2]; exact hx2)]
        have := go_eq_mass e a p 0 x hg.strict hx hl
        unfold knots
        rw [this, zero_add]

/-- **C08: shape of the CDF**: 0 up to the first edge, 1 from the last edge on, non-decreasing, between 0 and 1. -/
theorem C08_cdf_shape (edges p : List K) (hg : Grid edges p.length) (h1 : totalMass edges p = 1)
    (hp : ∀ v ∈ p, 0 ≤ v) :
    (∀ x, (∀ e ∈ edges, x ≤ e) → histCdf edges p x = some 0) ∧
    (∀ x, (∀ e ∈ edges, e ≤ x) → histCdf edges p x = some 1) ∧
    (∀ x y, x ≤ y → ∃ u v, histCdf edges p x = some u ∧ histCdf edges p y = some v ∧ 0 ≤ u ∧ u ≤ v ∧ v ≤ 1) := by
  match edges, hg with
  | [], hg => exact absurd hg.size (by simp)
  | a :: e, hg =>
    have hleft : ∀ x, (∀ e' ∈ a :: e, x ≤ e') → massUpTo (a :: e) p x = 0 := fun x hx =>
      massUpTo_left e a p x hg.strict (hx a (by simp))
    have hright : ∀ x, (∀ e' ∈ a :: e, e' ≤ x) → massUpTo (a :: e) p x = 1 := fun x hx => by
      rw [massUpTo_right e a p x hg.strict hx, h1]
    have hmax : ∃ M, ∀ v ∈ a :: e, v ≤ M := by
      have : ∀ l : List K, ∃ M, ∀ v ∈ l, v ≤ M := by
        intro l; induction l with
        | nil => exact ⟨0, by simp⟩
        | cons b l ih =>
          obtain ⟨M, hM⟩ := ih
          refine ⟨max b M, ?_⟩
          intro v hv
          rcases List.mem_cons.1 hv with rfl | hv
          · exact le_max_left _ _
          · exact (hM v hv).trans (le_max_right _ _)
      exact this _
    have hge : ∀ x, 0 ≤ massUpTo (a :: e) p x := fun x => by
      have := massUpTo_mono (a :: e) p (min x a) x hp (min_le_left _ _)
      rwa [massUpTo_left e a p _ hg.strict (min_le_right _ _)] at this
    have hle : ∀ x, massUpTo (a :: e) p x ≤ 1 := fun x => by
      obtain ⟨M, hM⟩ := hmax
      have := massUpTo_mono (a :: e) p x (max x M) hp (le_max_left _ _)
      rwa [hright _ (fun v hv => (hM v hv).trans (le_max_right _ _))] at this
    refine ⟨?_, ?_, ?_⟩
    · intro x hx; rw [C08_cdf_is_mass _ p hg h1, hleft x hx]
    · intro x hx; rw [C08_cdf_is_mass _ p hg h1, hright x hx]
    · intro x y hxy
      exact ⟨_, _, C08_cdf_is_mass _ p hg h1 x, C08_cdf_is_mass _ p hg h1 y, hge x,
        massUpTo_mono _ p x y hp hxy, hle y⟩

/-- **C08 together with C06: the CDF grows at the rate of the density** in every bin: for two points of bin `i` the
difference of the CDF values is content times distance. -/
theorem C08_cdf_slope (edges p : List K) (hg : Grid edges p.length) (h1 : totalMass edges p = 1)
    (i : ℕ) (a b c x y : K) (ha : edges[i]? = some a) (hb : edges[i+1]? = some b) (hc : p[i]? = some c)
    (hx : a ≤ x) (hxy : x ≤ y) (hy : y ≤ b) :
    ∃ u v, histCdf edges p x = some u ∧ histCdf edges p y = some v ∧ v - u = c * (y - x) := by
  refine ⟨_, _, C08_cdf_is_mass _ p hg h1 x, C08_cdf_is_mass _ p hg h1 y, ?_⟩
  have : ∀ (edges p : List K) (i : ℕ), edges.Pairwise (· < ·) → edges[i]? = some a → edges[i+1]? = some b →
      p[i]? = some c → massUpTo edges p y - massUpTo edges p x = c * (y - x) := by
    clear ha hb hc h1 hg
    intro edges p
    induction p generalizing edges with
    | nil => intro i _ _ _ h; simp at h
    | cons q p ih =>
      intro i hs ha hb hc
      match edges, hs, ha, hb with
      | u :: v :: e, hs, ha, hb =>
        have hs' := List.pairwise_cons.1 hs
        simp only [massUpTo]
        cases i with
        | zero =>
          simp at ha hb hc
          subst ha hb hc
          rw [massUpTo_left e v p y hs'.2 hy, massUpTo_left e v p x hs'.2 (hxy.trans hy), min_eq_left hy,
            min_eq_left (hxy.trans hy), max_eq_right (by linarith), max_eq_right (by linarith)]
          ring
        | succ i =>
          simp only [List.getElem?_cons_succ] at ha hb hc
          have hva : v ≤ a := by
            cases i with
            | zero => simp at ha; exact ha.le
            | succ i =>
              simp only [List.getElem?_cons_succ] at ha
              exact ((List.pairwise_cons.1 hs'.2).1 a (List.mem_of_getElem? ha)).le
          have := ih (v :: e) i hs'.2 ha hb hc
          rw [min_eq_right (hva.trans (hx.trans hxy)), min_eq_right (hva.trans hx)]
          linear_combination this
      | [u], _, _, hb => simp at hb
      | [], _, ha, _ => simp at ha
  exact this edges p i hg.strict ha hb hc

/-! ## C09 -/

private theorem ppf_eq (a : K) (e p : List K) (hl : p.length = e.length) (h1 : totalMass (a :: e) p = 1) (q : K)
    (h0 : 0 ≤ q) (hq : q ≤ 1) :
    histPpf (a :: e) p q = some (npInterpGo 0 a (swapKnots (knots a e p)) q) := by
  unfold histPpf
  simp only
  have hz : (histCumul (a :: e) p).zip (a :: e) = (0, a) :: swapKnots (knots a e p) := by
    unfold swapKnots knots
    rw [zip_swap]; rfl
  rw [hz]
  unfold interp
  simp only
  have hlast : ((0, a) :: swapKnots (knots a e p)).getLast (by simp) =
      (((a, (0 : K)) :: knots a e p).getLast (by simp)).swap := by
    have : (0, a) :: swapKnots (knots a e p) = ((a, (0 : K)) :: knots a e p).map Prod.swap := rfl
    simp only [this]
    rw [List.getLast_map]
  have hl2 : (((0, a) :: swapKnots (knots a e p)).getLast (by simp)).1 = 1 := by
    rw [hlast]
    unfold knots
    rw [cumul_last e a p 0 hl, h1]; simp
  rw [if_neg (not_lt.2 h0), if_neg (by rw [hl2]; exact not_lt.2 hq)]

/-- on probabilities the fill values of the interpolation are not used -/
theorem interp_fill_irrelevant (a : K) (e p : List K) (hg : Grid (a :: e) p.length) (h1 : totalMass (a :: e) p = 1) (q : K)
    (h0 : 0 ≤ q) (hq : q ≤ 1) (l r l' r' : K) :
    interp l r ((histCumul (a :: e) p).zip (a :: e)) q = interp l' r' ((histCumul (a :: e) p).zip (a :: e)) q := by
  have hl : p.length = e.length := by have := hg.size; simpa using this.symm
  have hz : (histCumul (a :: e) p).zip (a :: e) = (0, a) :: swapKnots (knots a e p) := by
    unfold swapKnots knots
    rw [zip_swap]; rfl
  rw [hz]
  unfold interp
  simp only
  have hlast : ((0, a) :: swapKnots (knots a e p)).getLast (by simp) =
      (((a, (0 : K)) :: knots a e p).getLast (by simp)).swap := by
    have : (0, a) :: swapKnots (knots a e p) = ((a, (0 : K)) :: knots a e p).map Prod.swap := rfl
    simp only [this]
    rw [List.getLast_map]
  have hl2 : (((0, a) :: swapKnots (knots a e p)).getLast (by simp)).1 = 1 := by
    rw [hlast]
    unfold knots
    rw [cumul_last e a p 0 hl, h1]; simp
  rw [if_neg (not_lt.2 h0), if_neg (by rw [hl2]; exact not_lt.2 hq), if_neg (not_lt.2 h0), if_neg (by rw [hl2]; exact not_lt.2 hq)]

private theorem cdf_eq (a : K) (e p : List K) (hl : p.length = e.length) (x : K)
    (h0 : a ≤ x) (hx : x ≤ (a :: e).getLast (by simp)) :
    histCdf (a :: e) p x = some (npInterpGo a 0 (knots a e p) x) := by
  unfold histCdf
  rw [zip_cumul]
  unfold interp
  simp only
  rw [if_neg (not_lt.2 h0), if_neg]
  unfold knots
  rw [cumul_last e a p 0 hl]
  exact not_lt.2 hx

/-- **C09: `cdf(ppf(q)) = q`** for every probability, also with empty bins; the PPF stays inside the range of the edges and
is non-decreasing. (`histPpf` is the class's `_ppf`; see C10 for scipy's answer at `q = 0, 1`.) -/
theorem C09_cdf_ppf (edges p : List K) (hg : Grid edges p.length) (h1 : totalMass edges p = 1)
    (hp : ∀ v ∈ p, 0 ≤ v) (q : K) (h0 : 0 ≤ q) (hq : q ≤ 1) :
    ∃ x, histPpf edges p q = some x ∧ histCdf edges p x = some q ∧
      (∃ e ∈ edges, e ≤ x) ∧ (∃ e ∈ edges, x ≤ e) := by
  match edges, hg with
  | [], hg => exact absurd hg.size (by simp)
  | a :: e, hg =>
    have hl : p.length = e.length := by have := hg.size; simpa using this.symm
    have hX : StrictX ((a, 0) :: knots a e p) := knots_strictX e a p 0 hg.strict
    have hY : MonoY ((a, 0) :: knots a e p) := knots_monoY e a p 0 hg.strict hp
    have hlast := cumul_last e a p 0 hl
    have hlo : a ≤ npInterpGo 0 a (swapKnots (knots a e p)) q := swap_mem hX.mono h0
    have hY' : MonoY ((0, a) :: swapKnots (knots a e p)) := by
      have : MonoY (swapKnots ((a, 0) :: knots a e p)) := by
        unfold MonoY swapKnots; rw [List.isChain_map]; exact hX.mono
      exact this
    have hhi : npInterpGo 0 a (swapKnots (knots a e p)) q ≤ (a :: e).getLast (by simp) := by
      refine (npInterpGo_le hY' h0).trans ?_
      have : (0, a) :: swapKnots (knots a e p) = ((a, (0 : K)) :: knots a e p).map Prod.swap := rfl
      simp only [this]
      rw [List.getLast_map]
      unfold knots
      rw [hlast]; simp
    refine ⟨_, ppf_eq a e p hl h1 q h0 hq, ?_, ⟨a, by simp, hlo⟩, ⟨_, List.getLast_mem (by simp), hhi⟩⟩
    rw [cdf_eq a e p hl _ hlo hhi]
    congr 1
    refine npInterpGo_swap hX hY h0 ?_
    unfold knots
    rw [hlast, h1]; simpa using hq

/-- **C09: the PPF never leaves the range of the edges**, whatever the contents (also contents that are not normalised, as kept by an
object of the class built with `check_input=False`) and whatever the argument: below 0 it is the first edge, above the total the last one. -/
theorem C09_ppf_range (edges p : List K) (hg : Grid edges p.length) (hp : ∀ v ∈ p, 0 ≤ v) (hne : edges ≠ []) (q : K) :
    (∃ x, histPpf edges p q = some x ∧ edges.head hne ≤ x ∧ x ≤ edges.getLast hne) ∧
    (q < 0 → histPpf edges p q = some (edges.head hne)) ∧ (totalMass edges p < q → histPpf edges p q = some (edges.getLast hne)) := by
  match edges, hg with
  | [], hg => exact absurd hg.size (by simp)
  | a :: e, hg =>
    have hl : p.length = e.length := by have := hg.size; simpa using this.symm
    have hX : StrictX ((a, 0) :: knots a e p) := knots_strictX e a p 0 hg.strict
    have hY : MonoY ((a, 0) :: knots a e p) := knots_monoY e a p 0 hg.strict hp
    have hlast := cumul_last e a p 0 hl
    have hale : a ≤ (a :: e).getLast (by simp) := by
      rcases List.mem_cons.1 (List.getLast_mem (l := a :: e) (by simp)) with h | h
      · exact h.symm.le
      · exact ((List.pairwise_cons.1 hg.strict).1 _ h).le
    have hz : (histCumul (a :: e) p).zip (a :: e) = (0, a) :: swapKnots (knots a e p) := by
      unfold swapKnots knots
      rw [zip_swap]; rfl
    have hl2 : (((0, a) :: swapKnots (knots a e p)).getLast (by simp)) = (totalMass (a :: e) p, (a :: e).getLast (by simp)) := by
      have : (0, a) :: swapKnots (knots a e p) = ((a, (0 : K)) :: knots a e p).map Prod.swap := rfl
      simp only [this]
      rw [List.getLast_map]
      unfold knots
      rw [hlast]; simp
    have hM : 0 ≤ totalMass (a :: e) p := by
      have := hY.le_last
      simp only [knots] at this
      rw [hlast] at this
      simpa using this
    have hpp : histPpf (a :: e) p q = if q < 0 then some a else if totalMass (a :: e) p < q then some ((a :: e).getLast (by simp)) else
        some (npInterpGo 0 a (swapKnots (knots a e p)) q) := by
      unfold histPpf
      simp only
      rw [hz]
      unfold interp
      simp only [hl2]
    rw [hpp]
    refine ⟨?_, fun h => by rw [if_pos h]; rfl, fun h => by rw [if_neg (by linarith), if_pos h]⟩
    split_ifs with h1 h2
    · exact ⟨a, rfl, le_refl _, hale⟩
    · exact ⟨_, rfl, hale, le_refl _⟩
    · have hY' : MonoY ((0, a) :: swapKnots (knots a e p)) := by
        have : MonoY (swapKnots ((a, 0) :: knots a e p)) := by
          unfold MonoY swapKnots; rw [List.isChain_map]; exact hX.mono
        exact this
      refine ⟨_, rfl, swap_mem hX.mono (not_lt.1 h1), ?_⟩
      have := npInterpGo_le hY' (not_lt.1 h1)
      rw [hl2] at this
      exact this

/-- **C09: the PPF is non-decreasing.** -/
theorem C09_ppf_mono (edges p : List K) (hg : Grid edges p.length) (h1 : totalMass edges p = 1)
    (q q' : K) (h0 : 0 ≤ q) (hqq : q ≤ q') (hq : q' ≤ 1) :
    ∃ x y, histPpf edges p q = some x ∧ histPpf edges p q' = some y ∧ x ≤ y := by
  match edges, hg with
  | [], hg => exact absurd hg.size (by simp)
  | a :: e, hg =>
    have hl : p.length = e.length := by have := hg.size; simpa using this.symm
    refine ⟨_, _, ppf_eq a e p hl h1 q h0 (hqq.trans hq), ppf_eq a e p hl h1 q' (h0.trans hqq) hq, ?_⟩
    refine npInterpGo_mono ?_ h0 hqq
    have : MonoY (swapKnots ((a, 0) :: knots a e p)) := by
      unfold MonoY swapKnots; rw [List.isChain_map]; exact (knots_strictX e a p 0 hg.strict).mono
    exact this

/-- **C09: `ppf(cdf(x)) = x`** inside the range when all contents are positive. -/
theorem C09_ppf_cdf (edges p : List K) (hg : Grid edges p.length) (h1 : totalMass edges p = 1)
    (hp : ∀ v ∈ p, 0 < v) (x : K) (hlo : ∃ e ∈ edges, e ≤ x) (hhi : ∃ e ∈ edges, x ≤ e) :
    ∃ q, histCdf edges p x = some q ∧ histPpf edges p q = some x := by
  match edges, hg with
  | [], hg => exact absurd hg.size (by simp)
  | a :: e, hg =>
    have hl : p.length = e.length := by have := hg.size; simpa using this.symm
    have hX : StrictX ((a, 0) :: knots a e p) := knots_strictX e a p 0 hg.strict
    have hY : StrictY ((a, 0) :: knots a e p) := knots_strictY e a p 0 hg.strict hp
    have hlast := cumul_last e a p 0 hl
    have hax : a ≤ x := by
      obtain ⟨v, hv, hvx⟩ := hlo
      rcases List.mem_cons.1 hv with rfl | hv
      · exact hvx
      · exact ((List.pairwise_cons.1 hg.strict).1 v hv).le.trans hvx
    have hxl : x ≤ (a :: e).getLast (by simp) := by
      obtain ⟨v, hv, hvx⟩ := hhi
      refine hvx.trans ?_
      have hpw := hg.strict
      rw [← List.dropLast_append_getLast (l := a :: e) (by simp)] at hpw hv
      rcases List.mem_append.1 hv with hv | hv
      · exact le_of_lt ((List.pairwise_append.1 hpw).2.2 v hv _ (by simp))
      · exact le_of_eq (by simpa using hv)
    have hlow := le_npInterpGo hY.mono hax
    have hup := npInterpGo_le hY.mono hax
    have hup' : npInterpGo a 0 (knots a e p) x ≤ 1 := by
      refine hup.trans ?_
      unfold knots
      rw [hlast, h1]; simp
    refine ⟨_, cdf_eq a e p hl x hax hxl, ?_⟩
    rw [ppf_eq a e p hl h1 _ hlow hup']
    congr 1
    have hsw : swapKnots (swapKnots (knots a e p)) = knots a e p := by
      unfold swapKnots; rw [List.map_map]; simp
    have hX' : StrictX ((0, a) :: swapKnots (knots a e p)) := by
      have : StrictX (swapKnots ((a, 0) :: knots a e p)) := by
        unfold StrictX swapKnots; rw [List.isChain_map]; exact hY
      exact this
    have hY' : MonoY ((0, a) :: swapKnots (knots a e p)) := by
      have : MonoY (swapKnots ((a, 0) :: knots a e p)) := by
        unfold MonoY swapKnots; rw [List.isChain_map]; exact hX.mono
      exact this
    have := npInterpGo_swap hX' hY' hax (by
      have : (0, a) :: swapKnots (knots a e p) = ((a, (0 : K)) :: knots a e p).map Prod.swap := rfl
      simp only [this]
      rw [List.getLast_map]
      unfold knots
      rw [hlast]; simpa using hxl)
    rwa [hsw] at this

/-! ## C10 -/

/-- **C10 is violated for every histogram**: `ens.ppf(0)` is `-inf` and `ens.ppf(1)` is `+inf`, never the ends of the bins,
because the support of the scipy distribution is not set. -/
theorem C10_ppf_ends_infinite (edges row : List K) :
    ppfFront (histPpf edges row) 0 = .negInf ∧ ppfFront (histPpf edges row) 1 = .posInf ∧
    ∀ e, ppfFront (histPpf edges row) 0 ≠ .fin e ∧ ppfFront (histPpf edges row) 1 ≠ .fin e := by
  have : (1 : K) ≠ 0 := one_ne_zero
  simp [ppfFront, this]

/-- **C10 (partial).** The class's own `_ppf` does return the ends of the range at 0 and 1 when the contents are
positive. Missing: the value the user sees (see above). -/
theorem C10_inner_ppf_ends_partial (edges p : List K) (hg : Grid edges p.length) (h1 : totalMass edges p = 1)
    (hp : ∀ v ∈ p, 0 < v) (hne : edges ≠ []) :
    histPpf edges p 0 = some (edges.head hne) ∧ histPpf edges p 1 = some (edges.getLast hne) := by
  have hp' : ∀ v ∈ p, 0 ≤ v := fun v hv => (hp v hv).le
  have shape := C08_cdf_shape edges p hg h1 hp'
  constructor
  · have h := shape.1 (edges.head hne) (by
      intro e he
      match edges, he with
      | a :: t, he =>
        rcases List.mem_cons.1 he with rfl | he
        · simp
        · exact ((List.pairwise_cons.1 hg.strict).1 e he).le)
    obtain ⟨q, h2, h3⟩ := C09_ppf_cdf edges p hg h1 hp (edges.head hne) ⟨_, List.head_mem hne, le_rfl⟩
      ⟨_, List.head_mem hne, le_rfl⟩
    rw [h] at h2
    obtain rfl := Option.some.inj h2
    exact h3
  · have h := shape.2.1 (edges.getLast hne) (by
      intro e he
      have hpw := hg.strict
      rw [← List.dropLast_append_getLast hne] at hpw he
      rcases List.mem_append.1 he with he | he
      · exact le_of_lt ((List.pairwise_append.1 hpw).2.2 e he _ (by simp))
      · exact le_of_eq (by simpa using he))
    obtain ⟨q, h2, h3⟩ := C09_ppf_cdf edges p hg h1 hp (edges.getLast hne) ⟨_, List.getLast_mem hne, le_rfl⟩
      ⟨_, List.getLast_mem hne, le_rfl⟩
    rw [h] at h2
    obtain rfl := Option.some.inj h2
    exact h3

/-! ## C11 -/

/-- **C11 (partial).** On exactly uniform bins `custom_generic_moment(0) = 1` and `moment(1)` is the exact mean. Missing: non-uniform
bins, where it is false (`C11_nonuniform_wrong`). -/
theorem C11_moments_partial (edges p : List K) (hg : Grid edges p.length) (hu : Uniform edges)
    (h1 : totalMass edges p = 1) :
    histMoment edges p 0 = .ok 1 ∧ histMoment edges p 1 = .ok (meanOf edges p) := by
  obtain ⟨w, hw⟩ := hu
  have key : ∀ (e : List K) (a : K) (p : List K), p.length = e.length →
      (∀ i u v, (a :: e)[i]? = some u → (a :: e)[i+1]? = some v → v - u = w) →
      Np.sum (Np.mul ((edgeToCenter (a :: e)).map (· ^ 0)) p) * w = totalMass (a :: e) p ∧
      Np.sum (Np.mul ((edgeToCenter (a :: e)).map (· ^ 1)) p) * w = meanOf (a :: e) p := by
    intro e
    induction e with
    | nil => intro a p hl _; simp at hl; subst hl; simp [edgeToCenter, Np.mul, Np.sum, totalMass, meanOf]
    | cons b e ih =>
      intro a p hl hw
      cases p with
      | nil => simp at hl
      | cons q p =>
        have hab : b - a = w := hw 0 a b rfl rfl
        obtain ⟨i0, i1⟩ := ih b p (by simpa using hl) (fun i u v hu hv => hw (i+1) u v (by simpa using hu) (by simpa using hv))
        simp only [edgeToCenter, List.map_cons, Np.mul, List.zipWith_cons_cons, Np.sum, List.foldr_cons, totalMass,
          meanOf] at *
        rw [← i0, ← i1, ← hab]
        constructor <;> ring
  match edges, hg with
  | [], hg => exact absurd hg.size (by simp)
  | [a], hg => have h1 := hg.size; have h2 := hg.pos; simp at h1; simp [h1] at h2
  | a :: b :: e, hg =>
    have hl : p.length = (b :: e).length := by have := hg.size; simp at this ⊢; omega
    have hab : b - a = w := hw 0 a b rfl rfl
    obtain ⟨k0, k1⟩ := key (b :: e) a p hl hw
    simp only [histMoment]
    rw [hab]
    exact ⟨by rw [k0, h1], by rw [k1]⟩

/-- **C11 is violated** on non-uniform bins: the uniform density 1/3 on edges `[0, 1, 3]` has `custom_generic_moment(0) = 2/3` and
`moment(1) = 5/6` instead of 1 and 3/2. -/
theorem C11_nonuniform_wrong :
    ∃ (edges p : List ℚ), Grid edges p.length ∧ (∀ v ∈ p, 0 < v) ∧ totalMass edges p = 1 ∧ meanOf edges p = 3 / 2 ∧
      histMoment edges p 0 = .ok (2 / 3) ∧ histMoment edges p 1 = .ok (5 / 6) := by
  refine ⟨[0, 1, 3], [1/3, 1/3], ⟨by decide +kernel, rfl, by decide⟩, ?_, ?_, ?_, ?_, ?_⟩
  · simp
  · simp [totalMass]; norm_num
  · simp [meanOf]; norm_num
  · decide +kernel
  · decide +kernel

/-! ## non-vacuity -/

/-- a normalised histogram with an empty bin on non-uniform edges -/
example : Grid ([0, 1, 3, 4] : List ℚ) ([1/2, 0, 1/2] : List ℚ).length ∧
    totalMass ([0, 1, 3, 4] : List ℚ) [1/2, 0, 1/2] = 1 ∧ ∀ v ∈ ([1/2, 0, 1/2] : List ℚ), 0 ≤ v := by
  refine ⟨⟨by decide +kernel, rfl, by decide⟩, by simp [totalMass]; norm_num, by simp⟩
example : histCdf ([0, 1, 3, 4] : List ℚ) [1/2, 0, 1/2] 2 = some (1/2) := by decide +kernel
example : histPpf ([0, 1, 3, 4] : List ℚ) [1/2, 0, 1/2] (1/4) = some (1/2) := by decide +kernel
example : histPdf ([0, 1, 3, 4] : List ℚ) [1/2, 0, 1/2] (7/2) = .ok (1/2) := by decide +kernel
example : histNormRow ([0, 1, 3] : List ℚ) [2, 3] = some [1/4, 3/8] := by decide +kernel
example : totalMass ([0, 1, 3] : List ℚ) [2, 3] ≠ 0 := by simp [totalMass]; norm_num
example : (histInit ([0, 1, 3] : List ℚ) [[2, 3], [1, 0]] true).toOption.map Hist.pdfs =
    some [some [1/4, 3/8], some [1, 0]] := by decide +kernel
/-- contents that are not normalised -/
example : histPpf ([0, 1, 3] : List ℚ) [1/4, 1/8] (3/4) = some 3 := by decide +kernel
example : histPpf ([0, 1, 3] : List ℚ) [1/4, 3/8] 1 = some 3 := by decide +kernel
example : histMoment ([0, 1, 2] : List ℚ) [1/4, 3/4] 1 = .ok (5/4) := by decide +kernel

end Verif.Props.Hist
