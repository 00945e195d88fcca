import Verif.Lemmas.InterpPdf
import Verif.Props.Hist

/-!
# C12-C17: interpolated distributions

Specification vocabulary: `Spec.area`, `Spec.areaTo` (area below a broken line).
-/

set_option linter.unusedSectionVars false

namespace Verif.Props.InterpPdf

open Verif Verif.Np Verif.Model Verif.Spec Verif.Lemmas.InterpPdf Verif.Lemmas.Hist

variable {K : Type*} [Field K] [LinearOrder K] [IsStrictOrderedRing K]

/-- A valid interpolation grid for rows of `n` ordinates: strictly increasing, one abscissa per ordinate, at least two. -/
structure XGrid (xs : List K) (n : ℕ) : Prop where
  strict : xs.Pairwise (· < ·)
  size : xs.length = n
  two : 2 ≤ n

private theorem two_of {α : Type*} {l : List α} (h : 2 ≤ l.length) : ∃ a b t, l = a :: b :: t := by
  match l, h with
  | a :: b :: t, _ => exact ⟨a, b, t, rfl⟩

/-! ## C12 -/

private theorem cumul_last (a b : K) (xs : List K) (u v : K) (ys : List K) :
    ((1 / 2 * u * (b - a)) :: cumsum (trapezoids (a :: b :: xs) (u :: v :: ys))).getLast? =
      some (area (a :: b :: xs) (u :: v :: ys)) := by
  have h : trapezoids (a :: b :: xs) (u :: v :: ys) ≠ [] := by simp [trapezoids]
  have := cumsumFrom_last 0 _ h
  unfold cumsum
  rw [List.getLast?_cons, this, zero_add, sum_trapezoids]; rfl

/-- **C12.** Construction of one row: a row with zero area becomes non-finite; otherwise the stored ordinates are the input
divided by its area, the area below the stored broken line is exactly one, and constructing again from the stored
ordinates gives the same row and the same cumulated values. -/
theorem C12_interp_normalises (xs row : List K) (hg : XGrid xs row.length) :
    (area xs row = 0 → interpNormRow xs row = .ok none) ∧
    (area xs row ≠ 0 → ∃ ys c, interpNormRow xs row = .ok (some (ys, c)) ∧ area xs ys = 1 ∧
      ys = row.map (· / area xs row) ∧ interpNormRow xs ys = .ok (some (ys, c))) := by
  obtain ⟨u, v, r, rfl⟩ := two_of hg.two
  obtain ⟨a, b, t, rfl⟩ := two_of (l := xs) (by have := hg.size; have := hg.two; omega)
  have hrow : interpNormRow (a :: b :: t) (u :: v :: r) = .ok (if area (a :: b :: t) (u :: v :: r) = 0 then none else
      some ((u :: v :: r).map (· / area (a :: b :: t) (u :: v :: r)),
        ((1 / 2 * u * (b - a)) :: cumsum (trapezoids (a :: b :: t) (u :: v :: r))).map
          (· / area (a :: b :: t) (u :: v :: r)))) := by
    simp only [interpNormRow, interpCumul]
    rw [cumul_last]
  constructor
  · intro h; rw [hrow, if_pos h]
  · intro h
    set s := area (a :: b :: t) (u :: v :: r) with hs
    rw [if_neg h] at hrow
    have harea : area (a :: b :: t) ((u :: v :: r).map (· / s)) = 1 := by rw [area_div, ← hs, div_self h]
    refine ⟨_, _, hrow, harea, rfl, ?_⟩
    have hcum : (1 / 2 * (u / s) * (b - a)) :: cumsum (trapezoids (a :: b :: t) ((u :: v :: r).map (· / s))) =
        ((1 / 2 * u * (b - a)) :: cumsum (trapezoids (a :: b :: t) (u :: v :: r))).map (· / s) := by
      rw [trapezoids_div, List.map_cons, cumsum, cumsum, ← cumsumFrom_div, zero_div]
      congr 1; ring
    have hl := cumul_last a b t (u / s) (v / s) (r.map (· / s))
    simp only [List.map_cons] at harea hcum hl ⊢
    simp only [interpNormRow, interpCumul]
    rw [hl]
    simp only [harea]
    rw [if_neg one_ne_zero, hcum]
    simp

/-- **C12: rescaling the input does not matter.** -/
theorem C12_scale_invariant (xs row : List K) (hg : XGrid xs row.length) (k : K) (hk : k ≠ 0) :
    interpNormRow xs (row.map (· / k)) = interpNormRow xs row := by
  obtain ⟨u, v, r, rfl⟩ := two_of hg.two
  obtain ⟨a, b, t, rfl⟩ := two_of (l := xs) (by have := hg.size; have := hg.two; omega)
  have e1 := cumul_last a b t u v r
  have e2 := cumul_last a b t (u / k) (v / k) (r.map (· / k))
  have e3 := area_div (a :: b :: t) (u :: v :: r) k
  have e4 := trapezoids_div (a :: b :: t) (u :: v :: r) k
  simp only [List.map_cons] at e3 e4 ⊢
  simp only [interpNormRow, interpCumul]
  rw [e1, e2]
  simp only
  rw [e3, e4]
  set s := area (a :: b :: t) (u :: v :: r)
  by_cases h : s = 0
  · simp [h]
  · rw [if_neg (div_ne_zero h hk), if_neg h]
    have hd : ∀ z : K, z / k / (s / k) = z / s := fun z => div_div_div_cancel_right₀ hk z s
    have hmap : ∀ l : List K, (l.map (· / k)).map (· / (s / k)) = l.map (· / s) := by
      intro l; rw [List.map_map]; apply List.map_congr_left; intro z _; simp [hd]
    congr 3
    · have := hmap (u :: v :: r)
      simpa using this
    · have h5 : cumsum ((trapezoids (a :: b :: t) (u :: v :: r)).map (· / k)) =
          (cumsum (trapezoids (a :: b :: t) (u :: v :: r))).map (· / k) := by
        rw [cumsum, cumsum, ← cumsumFrom_div, zero_div]
      rw [h5]
      have := hmap ((1 / 2 * u * (b - a)) :: cumsum (trapezoids (a :: b :: t) (u :: v :: r)))
      rw [List.map_cons, List.map_cons] at this
      rw [← this, List.map_cons]
      congr 2; ring

/-! ## facts about a constructed row -/

/-- A row as the constructor stores it: `interpNormRow` of some input gave `(ys, c)`. -/
def Constructed (xs ys c : List K) : Prop :=
  ∃ row, XGrid xs row.length ∧ interpNormRow xs row = .ok (some (ys, c))

theorem constructed_facts {xs ys c : List K} (h : Constructed xs ys c) :
    ∃ a b t u v r, xs = a :: b :: t ∧ ys = u :: v :: r ∧ t.length = r.length ∧ xs.Pairwise (· < ·) ∧
      area xs ys = 1 ∧
      c = (1 / 2 * u * (b - a)) :: cumsum (trapezoids (a :: b :: t) (u :: v :: r)) := by
  obtain ⟨row, hg, hc⟩ := h
  have h12 := C12_interp_normalises xs row hg
  by_cases h0 : area xs row = 0
  · rw [h12.1 h0] at hc; simp at hc
  obtain ⟨ys', c', h1, h2, h3, h4⟩ := h12.2 h0
  obtain ⟨rfl, rfl⟩ : ys' = ys ∧ c' = c := by
    rw [h1] at hc; simpa using hc
  have hlen : ys'.length = row.length := by rw [h3]; simp
  obtain ⟨u, v, r, rfl⟩ := two_of (l := ys') (by have := hg.two; omega)
  obtain ⟨a, b, t, rfl⟩ := two_of (l := xs) (by have := hg.size; have := hg.two; omega)
  refine ⟨a, b, t, u, v, r, rfl, rfl, ?_, hg.strict, h2, ?_⟩
  · have := hg.size; simp at hlen this; omega
  · simp only [interpNormRow, interpCumul] at h4
    rw [cumul_last] at h4
    simp only [h2] at h4
    rw [if_neg one_ne_zero] at h4
    simp only [Except.ok.injEq, Option.some.injEq, Prod.mk.injEq] at h4
    have := h4.2
    rw [← this]; simp

private theorem length_cum (a b : K) (t : List K) (u v : K) (r : List K) (h : t.length = r.length) :
    (cumsum (trapezoids (a :: b :: t) (u :: v :: r))).length = t.length + 1 := by
  rw [cumsum, length_cumsumFrom, length_trapezoids _ _ (by simp [h])]; simp

private theorem cum_getLast (a b : K) (t : List K) (u v : K) (r : List K)
    (h1 : area (a :: b :: t) (u :: v :: r) = 1) (h : t.length = r.length) :
    ((a, 1 / 2 * u * (b - a)) :: (b :: t).zip (cumsum (trapezoids (a :: b :: t) (u :: v :: r)))).getLast (by simp) =
      ((a :: b :: t).getLast (by simp), 1) := by
  have hl := length_cum a b t u v r h
  have := getLast_zip (a :: b :: t) ((1 / 2 * u * (b - a)) :: cumsum (trapezoids (a :: b :: t) (u :: v :: r)))
    (by simp [hl]) (by simp) (by simp) (by simp)
  refine Eq.trans this ?_
  congr 1
  have h2 := cumul_last a b t u v r
  rw [h1, List.getLast?_eq_some_getLast (by simp)] at h2
  exact Option.some.inj h2

private theorem constructed_mono {a b : K} {t : List K} {u v : K} {r : List K}
    (hs : (a :: b :: t).Pairwise (· < ·)) (hy : ∀ w ∈ u :: v :: r, 0 ≤ w) :
    MonoY ((a, 1 / 2 * u * (b - a)) :: (b :: t).zip (cumsum (trapezoids (a :: b :: t) (u :: v :: r)))) := by
  have hab : 0 < b - a := sub_pos.2 ((List.pairwise_cons.1 hs).1 b (by simp))
  have hu := hy u (by simp)
  have hv := hy v (by simp)
  have hs' := List.pairwise_cons.1 hs
  simp only [cumsum, trapezoids, cumsumFrom, List.zip_cons_cons]
  refine List.isChain_cons_cons.2 ⟨?_, ?_⟩
  · simp only; nlinarith
  · refine monoY_cumul t r b v _ _ hs'.2 (fun w hw => hy w (List.mem_cons_of_mem _ hw)) le_rfl ?_
    intro d w xs' ys' hx hy'
    subst hx hy'
    have hbd : 0 < d - b := sub_pos.2 ((List.pairwise_cons.1 hs'.2).1 d (by simp))
    have hw := hy w (by simp)
    have : 0 ≤ (d - b) * (1 / 2) * (w + v) := by positivity
    linarith

/-! ## C13 -/

/-- **C13 (partial): shape of the CDF.** For non-negative ordinates the CDF is 0 left of the grid, 1 from the last grid point
on, non-decreasing and within [0,1] at all points. -/
theorem C13_cdf_shape (xs ys c : List K) (h : Constructed xs ys c) (hy : ∀ v ∈ ys, 0 ≤ v) :
    (∀ x, (∀ e ∈ xs, x < e) → interpCdf xs c x = some 0) ∧
    (∀ x, (∀ e ∈ xs, e ≤ x) → interpCdf xs c x = some 1) ∧
    (∀ x x', x ≤ x' → ∃ p q, interpCdf xs c x = some p ∧ interpCdf xs c x' = some q ∧ 0 ≤ p ∧ p ≤ q ∧ q ≤ 1) := by
  obtain ⟨a, b, t, u, v, r, rfl, rfl, hl, hs, h1, rfl⟩ := constructed_facts h
  have hmono := constructed_mono hs hy
  have hlast := cum_getLast a b t u v r h1 hl
  have hab : 0 < b - a := sub_pos.2 ((List.pairwise_cons.1 hs).1 b (by simp))
  have hX : StrictX ((a, 1 / 2 * u * (b - a)) :: (b :: t).zip (cumsum (trapezoids (a :: b :: t) (u :: v :: r)))) := by
    have := strictX_zip (ys := (1 / 2 * u * (b - a)) :: cumsum (trapezoids (a :: b :: t) (u :: v :: r))) hs
    rwa [List.zip_cons_cons] at this
  unfold interpCdf
  simp only [List.zip_cons_cons]
  refine ⟨?_, ?_, ?_⟩
  · intro x hx
    unfold interp
    simp only
    rw [if_pos (hx a (by simp))]
  · intro x hx
    unfold interp
    simp only
    rw [if_neg (not_lt.2 (hx a (by simp)))]
    by_cases hlt : (a :: b :: t).getLast (by simp) < x
    · rw [if_pos (by rw [hlast]; exact hlt)]
    · have hxe : x = (a :: b :: t).getLast (by simp) := le_antisymm (not_lt.1 hlt) (hx _ (List.getLast_mem (by simp)))
      rw [if_neg (by rw [hlast]; exact hlt)]
      have := npInterpGo_knot hX (List.getLast_mem (by simp))
      rw [hlast] at this
      rw [hxe, this]
  · intro x x' hxx
    refine interp_shape hmono ?_ ?_ hxx
    · have := hy u (by simp); positivity
    · rw [hlast]

/-- **C13: the CDF at the grid points.** From the second grid point on it is exactly the area below the PDF up to there; at the
first grid point it is half the first cell times the first ordinate. -/
theorem C13_cdf_at_grid (xs ys c : List K) (h : Constructed xs ys c) :
    (∀ i x, xs[i+1]? = some x → interpCdf xs c x = some (areaTo (i+1) xs ys)) ∧
    (∀ x0 x1 y0, xs[0]? = some x0 → xs[1]? = some x1 → ys[0]? = some y0 →
      interpCdf xs c x0 = some (y0 * (x1 - x0) / 2)) := by
  obtain ⟨a, b, t, u, v, r, rfl, rfl, hl, hs, h1, rfl⟩ := constructed_facts h
  have hlast := cum_getLast a b t u v r h1 hl
  have hX : StrictX ((a, 1 / 2 * u * (b - a)) :: (b :: t).zip (cumsum (trapezoids (a :: b :: t) (u :: v :: r)))) := by
    have := strictX_zip (ys := (1 / 2 * u * (b - a)) :: cumsum (trapezoids (a :: b :: t) (u :: v :: r))) hs
    rwa [List.zip_cons_cons] at this
  have knot : ∀ p ∈ (a, 1 / 2 * u * (b - a)) :: (b :: t).zip (cumsum (trapezoids (a :: b :: t) (u :: v :: r))),
      interpCdf (a :: b :: t) ((1 / 2 * u * (b - a)) :: cumsum (trapezoids (a :: b :: t) (u :: v :: r))) p.1 = some p.2 := by
    intro p hp
    unfold interpCdf
    rw [List.zip_cons_cons, interp_inside (head_le_mem hX hp) (StrictX_le_last hX hp), npInterpGo_knot hX hp]
  constructor
  · intro i x hx
    have hi : i < t.length + 1 := by
      have := (List.getElem?_eq_some_iff.1 hx).1; simpa using this
    have hc : (cumsum (trapezoids (a :: b :: t) (u :: v :: r)))[i]? =
        some (areaTo (i + 1) (a :: b :: t) (u :: v :: r)) := by
      have := getElem?_cumsumFrom_trap (a :: b :: t) (u :: v :: r) 0 i (by simpa using hi) (by simp [hl])
      rwa [zero_add] at this
    have hmem : (x, areaTo (i + 1) (a :: b :: t) (u :: v :: r)) ∈
        (b :: t).zip (cumsum (trapezoids (a :: b :: t) (u :: v :: r))) := by
      apply List.mem_of_getElem? (i := i)
      rw [List.getElem?_zip_eq_some]
      exact ⟨by simpa using hx, hc⟩
    exact knot _ (List.mem_cons_of_mem _ hmem)
  · intro x0 x1 y0 e0 e1 e2
    simp at e0 e1 e2
    subst e0 e1 e2
    rw [knot (a, 1 / 2 * u * (b - a)) (by simp)]
    congr 1; simp only; ring

/-- **C13 is violated at the first grid point**: for the uniform density on `[0, 1]` sampled at `0, 1/2, 1` the CDF at the
start of the grid is 1/4 although the PDF has no mass there. -/
theorem C13_first_point_wrong :
    ∃ (xs ys c : List ℚ), Constructed xs ys c ∧ (∀ v ∈ ys, 0 < v) ∧ xs[0]? = some 0 ∧
      areaTo 0 xs ys = 0 ∧ interpCdf xs c 0 = some (1 / 4) := by
  refine ⟨[0, 1/2, 1], [1, 1, 1], [1/4, 1/2, 1], ⟨[1, 1, 1], ⟨by decide +kernel, rfl, by decide⟩, by decide +kernel⟩,
    by simp, rfl, rfl, by decide +kernel⟩

/-! ## C14 -/

/-- **C14, exact behaviour.** For every probability `q` in [0,1] the PPF stays in the grid and
`cdf(ppf(q)) = max q c0`, where `c0 = y0 (x1 - x0) / 2` is the spurious CDF value at the first grid point. -/
theorem C14_cdf_ppf_exact (xs ys c : List K) (h : Constructed xs ys c) (hy : ∀ v ∈ ys, 0 ≤ v)
    (x0 x1 y0 : K) (e0 : xs[0]? = some x0) (e1 : xs[1]? = some x1) (e2 : ys[0]? = some y0)
    (q : K) (hq0 : 0 ≤ q) (hq1 : q ≤ 1) :
    ∃ x, interpPpf xs c q = some x ∧ interpCdf xs c x = some (max q (y0 * (x1 - x0) / 2)) ∧
      x0 ≤ x ∧ (∃ e ∈ xs, x ≤ e) := by
  have hgrid := (C13_cdf_at_grid xs ys c h).2 x0 x1 y0 e0 e1 e2
  obtain ⟨a, b, t, u, v, r, rfl, rfl, hl, hs, h1, rfl⟩ := constructed_facts h
  simp at e0 e1 e2
  subst e0 e1 e2
  have hlast := cum_getLast a b t u v r h1 hl
  have hX : StrictX ((a, 1 / 2 * u * (b - a)) :: (b :: t).zip (cumsum (trapezoids (a :: b :: t) (u :: v :: r)))) := by
    have := strictX_zip (ys := (1 / 2 * u * (b - a)) :: cumsum (trapezoids (a :: b :: t) (u :: v :: r))) hs
    rwa [List.zip_cons_cons] at this
  have hY := constructed_mono hs hy
  set kn := (b :: t).zip (cumsum (trapezoids (a :: b :: t) (u :: v :: r))) with hkn
  have hc0 : 1 / 2 * u * (b - a) = u * (b - a) / 2 := by ring
  have hz : ((1 / 2 * u * (b - a)) :: cumsum (trapezoids (a :: b :: t) (u :: v :: r))).zip (a :: b :: t) =
      (1 / 2 * u * (b - a), a) :: swapKnots kn := by
    rw [List.zip_cons_cons, hkn, swapKnots, zip_swap]
  have hlast' : ((1 / 2 * u * (b - a), a) :: swapKnots kn).getLast (by simp) =
      (1, (a :: b :: t).getLast (by simp)) := by
    have : (1 / 2 * u * (b - a), a) :: swapKnots kn = ((a, 1 / 2 * u * (b - a)) :: kn).map Prod.swap := rfl
    simp only [this]
    rw [List.getLast_map, hlast]; rfl
  by_cases hq : q < 1 / 2 * u * (b - a)
  · refine ⟨a, ?_, ?_, le_rfl, ⟨a, by simp, le_rfl⟩⟩
    · unfold interpPpf
      simp only
      rw [hz]
      unfold interp
      simp only
      rw [if_pos hq]
    · rw [hgrid, max_eq_right (by rw [← hc0]; exact hq.le)]
  · have hq := not_lt.1 hq
    have hlo : a ≤ npInterpGo (1 / 2 * u * (b - a)) a (swapKnots kn) q := swap_mem hX.mono hq
    have hY' : MonoY ((1 / 2 * u * (b - a), a) :: swapKnots kn) := by
      have : MonoY (swapKnots ((a, 1 / 2 * u * (b - a)) :: kn)) := by
        unfold MonoY swapKnots; rw [List.isChain_map]; exact hX.mono
      exact this
    have hhi : npInterpGo (1 / 2 * u * (b - a)) a (swapKnots kn) q ≤ (a :: b :: t).getLast (by simp) := by
      refine (npInterpGo_le hY' hq).trans ?_
      rw [hlast']
    refine ⟨npInterpGo (1 / 2 * u * (b - a)) a (swapKnots kn) q, ?_, ?_, hlo, ⟨_, List.getLast_mem (by simp), hhi⟩⟩
    · unfold interpPpf
      simp only
      rw [hz, interp_inside hq]
      rw [hlast']; exact hq1
    · unfold interpCdf
      rw [List.zip_cons_cons, interp_inside hlo (by rw [hlast]; exact hhi),
        npInterpGo_swap hX hY hq (by rw [hlast]; exact hq1), max_eq_left (by rw [← hc0]; exact hq)]

/-- **C14 (partial).** `cdf(ppf(q)) = q` for every probability at or above `y0 (x1-x0)/2`, in particular for all
probabilities when the first ordinate is zero. Missing: smaller probabilities, where it fails
(`C14_small_probability_wrong`). -/
theorem C14_cdf_ppf_partial (xs ys c : List K) (h : Constructed xs ys c) (hy : ∀ v ∈ ys, 0 ≤ v)
    (x0 x1 y0 : K) (e0 : xs[0]? = some x0) (e1 : xs[1]? = some x1) (e2 : ys[0]? = some y0)
    (q : K) (hq0 : 0 ≤ q) (hq1 : q ≤ 1) (hq : y0 * (x1 - x0) / 2 ≤ q) :
    ∃ x, interpPpf xs c q = some x ∧ interpCdf xs c x = some q := by
  obtain ⟨x, h1, h2, _⟩ := C14_cdf_ppf_exact xs ys c h hy x0 x1 y0 e0 e1 e2 q hq0 hq1
  exact ⟨x, h1, by rw [h2, max_eq_left hq]⟩

/-- **C14 is violated for small probabilities**: uniform density on `[0,1]` sampled at `0, 1/2, 1`: `ppf(1/8) = 0` and
`cdf(0) = 1/4`. -/
theorem C14_small_probability_wrong :
    ∃ (xs ys c : List ℚ), Constructed xs ys c ∧ (∀ v ∈ ys, 0 < v) ∧ interpPpf xs c (1/8) = some 0 ∧
      interpCdf xs c 0 = some (1/4) := by
  refine ⟨[0, 1/2, 1], [1, 1, 1], [1/4, 1/2, 1], ⟨[1, 1, 1], ⟨by decide +kernel, rfl, by decide⟩, by decide +kernel⟩,
    by simp, by decide +kernel, by decide +kernel⟩

/-- **C14: the PPF is non-decreasing.** -/
theorem C14_ppf_mono (xs ys c : List K) (h : Constructed xs ys c) (q q' : K) (hqq : q ≤ q') :
    ∃ x x', interpPpf xs c q = some x ∧ interpPpf xs c q' = some x' ∧ x ≤ x' := by
  obtain ⟨a, b, t, u, v, r, rfl, rfl, hl, hs, h1, rfl⟩ := constructed_facts h
  have hX : StrictX ((a, 1 / 2 * u * (b - a)) :: (b :: t).zip (cumsum (trapezoids (a :: b :: t) (u :: v :: r)))) := by
    have := strictX_zip (ys := (1 / 2 * u * (b - a)) :: cumsum (trapezoids (a :: b :: t) (u :: v :: r))) hs
    rwa [List.zip_cons_cons] at this
  have hlast := cum_getLast a b t u v r h1 hl
  set kn := (b :: t).zip (cumsum (trapezoids (a :: b :: t) (u :: v :: r))) with hkn
  have hz : ((1 / 2 * u * (b - a)) :: cumsum (trapezoids (a :: b :: t) (u :: v :: r))).zip (a :: b :: t) =
      (1 / 2 * u * (b - a), a) :: swapKnots kn := by
    rw [List.zip_cons_cons, hkn, swapKnots, zip_swap]
  have hlast' : ((1 / 2 * u * (b - a), a) :: swapKnots kn).getLast (by simp) =
      (1, (a :: b :: t).getLast (by simp)) := by
    have : (1 / 2 * u * (b - a), a) :: swapKnots kn = ((a, 1 / 2 * u * (b - a)) :: kn).map Prod.swap := rfl
    simp only [this]
    rw [List.getLast_map, hlast]; rfl
  have hY' : MonoY ((1 / 2 * u * (b - a), a) :: swapKnots kn) := by
    have : MonoY (swapKnots ((a, 1 / 2 * u * (b - a)) :: kn)) := by
      unfold MonoY swapKnots; rw [List.isChain_map]; exact hX.mono
    exact this
  unfold interpPpf
  simp only
  rw [hz]
  obtain ⟨x, x', h1, h2, _, h3, _⟩ := interp_shape (lo := a) (hi := (a :: b :: t).getLast (by simp)) hY' le_rfl
    (by rw [hlast']) hqq
  exact ⟨x, x', h1, h2, h3⟩

/-! ## C15 -/

/-- **C15.** The interpolated density takes the stored value at every grid point, lies between the two neighbouring stored
values inside a cell, is zero outside the grid, and is nowhere negative when the stored values are not. -/
theorem C15_pdf_through_points (xs ys : List K) (hg : XGrid xs ys.length) :
    (∀ (i : ℕ) x y, xs[i]? = some x → ys[i]? = some y → interpPdf xs ys x = some y) ∧
    (∀ (i : ℕ) x0 x1 y0 y1 x, xs[i]? = some x0 → xs[i+1]? = some x1 → ys[i]? = some y0 → ys[i+1]? = some y1 →
      x0 ≤ x → x ≤ x1 →
      ∃ d, interpPdf xs ys x = some d ∧ (d - y0) * (x1 - x0) = (y1 - y0) * (x - x0) ∧ min y0 y1 ≤ d ∧ d ≤ max y0 y1) ∧
    (∀ x, (∀ e ∈ xs, x < e) ∨ (∀ e ∈ xs, e < x) → interpPdf xs ys x = some 0) ∧
    ((∀ v ∈ ys, 0 ≤ v) → ∀ x, ∃ d, interpPdf xs ys x = some d ∧ 0 ≤ d) := by
  obtain ⟨u, v, r, rfl⟩ := two_of hg.two
  obtain ⟨a, b, t, rfl⟩ := two_of (l := xs) (by have := hg.size; have := hg.two; omega)
  have hl : t.length = r.length := by have := hg.size; simpa using this
  have hX : StrictX ((a, u) :: (b :: t).zip (v :: r)) := by
    have := strictX_zip (ys := u :: v :: r) hg.strict
    rwa [List.zip_cons_cons] at this
  have hz : (a :: b :: t).zip (u :: v :: r) = (a, u) :: (b :: t).zip (v :: r) := rfl
  have hlast : (((a, u) :: (b :: t).zip (v :: r)).getLast (by simp)).1 = (a :: b :: t).getLast (by simp) := by
    have := getLast_zip (a :: b :: t) (u :: v :: r) (by simp [hl]) (by simp) (by simp) (by simp)
    exact congrArg Prod.fst this
  have inside : ∀ (i : ℕ) x0 x1 y0 y1 x, (a :: b :: t)[i]? = some x0 → (a :: b :: t)[i+1]? = some x1 →
      (u :: v :: r)[i]? = some y0 → (u :: v :: r)[i+1]? = some y1 → x0 ≤ x → x ≤ x1 →
      x0 < x1 ∧ interpPdf (a :: b :: t) (u :: v :: r) x = some (line x0 y0 x1 y1 x) := by
    intro i x0 x1 y0 y1 x h0 h1 h2 h3 hx0 hx1
    have hp : ((a, u) :: (b :: t).zip (v :: r))[i]? = some (x0, y0) := by
      rw [← hz, List.getElem?_zip_eq_some]; exact ⟨h0, h2⟩
    have hq : ((a, u) :: (b :: t).zip (v :: r))[i+1]? = some (x1, y1) := by
      rw [← hz, List.getElem?_zip_eq_some]; exact ⟨h1, h3⟩
    refine ⟨?_, ?_⟩
    · have e0 := List.getElem?_eq_some_iff.1 h0
      have e1 := List.getElem?_eq_some_iff.1 h1
      have := List.pairwise_iff_getElem.1 hg.strict i (i+1) e0.1 e1.1 (by omega)
      rw [e0.2, e1.2] at this; exact this
    · unfold interpPdf
      rw [hz, interp_inside ((head_le_mem hX (List.mem_of_getElem? hp)).trans hx0)
        (hx1.trans (StrictX_le_last hX (List.mem_of_getElem? hq))),
        npInterpGo_cell hX hp hq hx0 hx1]
  have between : ∀ x0 x1 y0 y1 x : K, x0 < x1 → x0 ≤ x → x ≤ x1 → min y0 y1 ≤ line x0 y0 x1 y1 x ∧
      line x0 y0 x1 y1 x ≤ max y0 y1 := by
    intro x0 x1 y0 y1 x hlt h0 h1
    have hpos : 0 < x1 - x0 := sub_pos.2 hlt
    have hk : 0 ≤ (x - x0) / (x1 - x0) := div_nonneg (by linarith) hpos.le
    have hk1 : (x - x0) / (x1 - x0) ≤ 1 := by rw [div_le_one hpos]; linarith
    have he : line x0 y0 x1 y1 x = y0 + (x - x0) / (x1 - x0) * (y1 - y0) := by unfold line; ring
    rw [he]
    set k := (x - x0) / (x1 - x0)
    rcases le_total y0 y1 with h | h
    · rw [min_eq_left h, max_eq_right h]; constructor <;> nlinarith
    · rw [min_eq_right h, max_eq_left h]; constructor <;> nlinarith
  refine ⟨?_, ?_, ?_, ?_⟩
  · intro i x y hx hy
    have hp : (x, y) ∈ (a, u) :: (b :: t).zip (v :: r) := by
      apply List.mem_of_getElem? (i := i)
      rw [← hz, List.getElem?_zip_eq_some]; exact ⟨hx, hy⟩
    unfold interpPdf
    rw [hz, interp_inside (head_le_mem hX hp) (StrictX_le_last hX hp), npInterpGo_knot hX hp]
  · intro i x0 x1 y0 y1 x h0 h1 h2 h3 hx0 hx1
    obtain ⟨hlt, he⟩ := inside i x0 x1 y0 y1 x h0 h1 h2 h3 hx0 hx1
    refine ⟨_, he, ?_, between x0 x1 y0 y1 x hlt hx0 hx1⟩
    have hpos : x1 - x0 ≠ 0 := (sub_pos.2 hlt).ne'
    unfold line
    field_simp
    ring
  · intro x hx
    unfold interpPdf
    rw [hz]
    unfold interp
    simp only
    rcases hx with hx | hx
    · rw [if_pos (hx a (by simp))]
    · rw [if_neg (not_lt.2 (hx a (by simp)).le), if_pos (by rw [hlast]; exact hx _ (List.getLast_mem (by simp)))]
  · intro hy x
    have go : ∀ (tl : List (K × K)) (p : K × K), StrictX (p :: tl) → (∀ q ∈ p :: tl, 0 ≤ q.2) → p.1 ≤ x →
        0 ≤ npInterpGo p.1 p.2 tl x := by
      intro tl
      induction tl with
      | nil => intro p _ h _; simpa [npInterpGo] using h p (by simp)
      | cons p1 tl ih =>
        intro p hsx hq hpx
        obtain ⟨x1, y1⟩ := p1
        rw [npInterpGo_cons]
        split
        · next hle => exact ih (x1, y1) hsx.tail (fun q hq' => hq q (by simp [hq'])) hle
        · next hle =>
          have h1 := (between p.1 x1 p.2 y1 x hsx.head hpx (not_le.1 hle).le).1
          exact (le_min (hq p (by simp)) (hq (x1, y1) (by simp))).trans h1
    unfold interpPdf
    rw [hz]
    unfold interp
    simp only
    split
    · exact ⟨0, rfl, le_rfl⟩
    · next h0 =>
      split
      · exact ⟨0, rfl, le_rfl⟩
      · refine ⟨_, rfl, go _ (a, u) hX ?_ (not_lt.1 h0)⟩
        intro q hq
        rw [← hz] at hq
        exact hy _ (List.of_mem_zip hq).2

/-! ## C16 -/

/-- **C16, exact behaviour on a uniform grid.** `custom_generic_moment(0)` of a constructed row (`ens.moment(0)` does not
call it, see `Model/Stats`; orders 1 and 2: `C16_moments_exact`) is 1 plus half the grid step times the sum of
the first and last ordinate. -/
theorem C16_moment0_exact (xs ys c : List K) (h : Constructed xs ys c) (w : K)
    (hu : ∀ i p q, xs[i]? = some p → xs[i+1]? = some q → q - p = w) (y0 yn : K)
    (e0 : ys.head? = some y0) (en : ys.getLast? = some yn) :
    interpMoment xs ys 0 = .ok (1 + w * (y0 + yn) / 2) := by
  obtain ⟨a, b, t, u, v, r, rfl, rfl, hl, hs, h1, -⟩ := constructed_facts h
  have hab : b - a = w := hu 0 a b rfl rfl
  have key : ∀ (t r : List K) (a b u v yn : K), t.length = r.length →
      (∀ i p q, (a :: b :: t)[i]? = some p → (a :: b :: t)[i+1]? = some q → q - p = w) →
      (u :: v :: r).getLast? = some yn →
      Np.sum (Np.mul ((a :: b :: t).map (· ^ 0)) (u :: v :: r)) * w =
        area (a :: b :: t) (u :: v :: r) + w * (u + yn) / 2 := by
    intro t
    induction t with
    | nil =>
      intro r a b u v yn hl hu hn
      obtain rfl : r = [] := List.length_eq_zero_iff.1 hl.symm
      simp at hn; subst hn
      have : b - a = w := hu 0 a b rfl rfl
      simp [Np.mul, Np.sum, area, this]; ring
    | cons d t ih =>
      intro r a b u v yn hl hu hn
      cases r with
      | nil => simp at hl
      | cons z r =>
        have := ih r b d v z yn (by simpa using hl)
          (fun i p q hp hq => hu (i+1) p q (by simpa using hp) (by simpa using hq)) (by simpa using hn)
        have hw : b - a = w := hu 0 a b rfl rfl
        simp only [List.map_cons, Np.mul, List.zipWith_cons_cons, Np.sum, List.foldr_cons, area] at *
        rw [hw]
        linear_combination this
  have := key t r a b u v yn hl hu en
  obtain rfl : u = y0 := by simpa using e0
  simp only [interpMoment]
  rw [hab, this, h1]

/-- **C16 (partial).** `custom_generic_moment(0) = 1` on a uniform grid when the PDF vanishes at both ends. Missing: all other PDFs, where it
is false (`C16_moment0_wrong`). -/
theorem C16_moment0_partial (xs ys c : List K) (h : Constructed xs ys c) (w : K)
    (hu : ∀ i p q, xs[i]? = some p → xs[i+1]? = some q → q - p = w)
    (e0 : ys.head? = some 0) (en : ys.getLast? = some 0) :
    interpMoment xs ys 0 = .ok 1 := by
  rw [C16_moment0_exact xs ys c h w hu 0 0 e0 en]; simp

/-- **C16 is violated**: uniform density on `[0,1]` sampled at `0, 1/2, 1` has `custom_generic_moment(0) = 3/2`. -/
theorem C16_moment0_wrong :
    ∃ (xs ys c : List ℚ), Constructed xs ys c ∧ (∀ v ∈ ys, 0 < v) ∧ interpMoment xs ys 0 = .ok (3/2) := by
  refine ⟨[0, 1/2, 1], [1, 1, 1], [1/4, 1/2, 1], ⟨[1, 1, 1], ⟨by decide +kernel, rfl, by decide⟩, by decide +kernel⟩,
    by simp, by decide +kernel⟩

/-! ## C17 -/

private theorem irr_rects (xs : List K) : ∀ (a u : K) (ys : List K), xs.length = ys.length →
    rightRects (a :: xs) (u :: ys) = Np.mul ys (diff (a :: xs)) := by
  induction xs with
  | nil => intro a u ys h; obtain rfl : ys = [] := List.length_eq_zero_iff.1 h.symm; simp [rightRects, Np.mul]
  | cons b xs ih =>
    intro a u ys h
    cases ys with
    | nil => simp at h
    | cons v ys =>
      have := ih b v ys (by simpa using h)
      simp only [rightRects, diff, Np.mul, List.zipWith_cons_cons] at *
      rw [this]; congr 1; ring

theorem irr_hist (a u : K) (xs ys : List K) (h : xs.length = ys.length) (x : K) :
    irrCdf (a :: xs) (u :: ys) x = histCdf (a :: xs) ys x ∧
    Np.sum (rightRects (a :: xs) (u :: ys)) = totalMass (a :: xs) ys := by
  constructor
  · unfold irrCdf histCdf irrCumul histCumul binWidths
    rw [irr_rects xs a u ys h]
  · rw [irr_rects xs a u ys h]
    exact histSum_eq (a :: xs) ys

/-- **C17 (partial): the CDF of an irregular-grid PDF** is 0 up to the first, 1 from the last grid point on, non-decreasing
and within [0,1], for every non-negative input row with non-zero normalisation. Missing: "the stored PDF integrates
to one" (false, `C17_integral_wrong`). -/
theorem C17_cdf_partial (xs row ys : List K) (hg : XGrid xs row.length) (hn : irrNormRow xs row = some ys)
    (hrow : ∀ v ∈ row, 0 ≤ v) :
    (∀ x, (∀ e ∈ xs, x ≤ e) → irrCdf xs ys x = some 0) ∧
    (∀ x, (∀ e ∈ xs, e ≤ x) → irrCdf xs ys x = some 1) ∧
    (∀ x y, x ≤ y → ∃ p q, irrCdf xs ys x = some p ∧ irrCdf xs ys y = some q ∧ 0 ≤ p ∧ p ≤ q ∧ q ≤ 1) := by
  obtain ⟨u, v, r, rfl⟩ := two_of hg.two
  obtain ⟨a, b, t, rfl⟩ := two_of (l := xs) (by have := hg.size; have := hg.two; omega)
  have hl : (b :: t).length = (v :: r).length := by have := hg.size; simpa using this
  have hsum := (irr_hist a u (b :: t) (v :: r) hl 0).2
  simp only [irrNormRow] at hn
  rw [hsum] at hn
  have hhist : histNormRow (a :: b :: t) (v :: r) = some (ys.tail) := by
    unfold histNormRow
    rw [histSum_eq]
    split at hn
    · simp at hn
    · next h0 => rw [if_neg h0, ← Option.some.inj hn]; simp
  have hys : ys = (ys.head?.getD 0) :: ys.tail := by
    split at hn
    · simp at hn
    · rw [← Option.some.inj hn]; simp
  by_cases h0 : totalMass (a :: b :: t) (v :: r) = 0
  · rw [(Hist.C07_row_normalised _ _).1 h0] at hhist; simp at hhist
  obtain ⟨p, hp1, hp2, hp3, hp4⟩ := (Hist.C07_row_normalised _ _).2 h0
  obtain rfl : p = ys.tail := Option.some.inj (hp1.symm.trans hhist)
  have hlen : ys.tail.length = t.length + 1 := by rw [hp3]; simp at hl ⊢; omega
  have hgrid : Hist.Grid (a :: b :: t) ys.tail.length := ⟨hg.strict, by simp [hlen], by omega⟩
  have shape := Hist.C08_cdf_shape (a :: b :: t) ys.tail hgrid hp2
    (hp4 hg.strict (fun w hw => hrow w (List.mem_cons_of_mem _ hw)))
  rw [hys]
  have e : ∀ x, irrCdf (a :: b :: t) (ys.head?.getD 0 :: ys.tail) x = histCdf (a :: b :: t) ys.tail x := fun x =>
    (irr_hist a _ (b :: t) ys.tail (by simp [hlen]) x).1
  simp only [e]
  exact shape

/-- the constructed row of an irregular-grid PDF as a histogram -/
theorem irr_constructed {xs row ys : List K} (hg : XGrid xs row.length) (hn : irrNormRow xs row = some ys) (hrow : ∀ v ∈ row, 0 ≤ v) :
    ∃ u p, ys = u :: p ∧ Hist.Grid xs p.length ∧ totalMass xs p = 1 ∧ (∀ v ∈ p, 0 ≤ v) ∧ (∀ x, irrCdf xs ys x = histCdf xs p x) ∧
      irrCumul xs ys = histCumul xs p ∧ ((∀ v ∈ row, 0 < v) → ∀ v ∈ p, 0 < v) := by
  obtain ⟨u, v, r, rfl⟩ := two_of hg.two
  obtain ⟨a, b, t, rfl⟩ := two_of (l := xs) (by have := hg.size; have := hg.two; omega)
  have hl : (b :: t).length = (v :: r).length := by have := hg.size; simpa using this
  have hsum := (irr_hist a u (b :: t) (v :: r) hl 0).2
  simp only [irrNormRow] at hn
  rw [hsum] at hn
  split at hn
  · simp at hn
  · next h0 =>
    have hys := (Option.some.inj hn).symm
    have hhist : histNormRow (a :: b :: t) (v :: r) = some ((v :: r).map (· / totalMass (a :: b :: t) (v :: r))) := by
      unfold histNormRow
      rw [histSum_eq, if_neg h0]
    obtain ⟨p, hp1, hp2, hp3, hp4⟩ := (Hist.C07_row_normalised _ _).2 h0
    have hp : p = (v :: r).map (· / totalMass (a :: b :: t) (v :: r)) := Option.some.inj (hp1.symm.trans hhist)
    have hlen : p.length = t.length + 1 := by rw [hp3]; simp at hl ⊢; omega
    have hpos : 0 < totalMass (a :: b :: t) (v :: r) := by
      refine lt_of_le_of_ne ?_ (Ne.symm h0)
      have hgr : Hist.Grid (a :: b :: t) (v :: r).length := ⟨hg.strict, by simp at hl ⊢; omega, by simp⟩
      exact totalMass_nonneg hgr.strict fun w hw => hrow w (List.mem_cons_of_mem _ hw)
    refine ⟨u / totalMass (a :: b :: t) (v :: r), p, by rw [hys, hp]; simp, ⟨hg.strict, by simp [hlen], by omega⟩, hp2,
      hp4 hg.strict (fun w hw => hrow w (List.mem_cons_of_mem _ hw)), ?_, ?_, ?_⟩
    · intro x
      rw [hys, List.map_cons, ← hp]
      exact (irr_hist a _ (b :: t) p (by simp [hlen]) x).1
    · rw [hys, List.map_cons, ← hp]
      unfold irrCumul histCumul binWidths
      rw [irr_rects (b :: t) a _ p (by simp [hlen])]
    · intro hr w hw
      rw [hp, List.mem_map] at hw
      obtain ⟨z, hz, rfl⟩ := hw
      exact div_pos (hr z (List.mem_cons_of_mem _ hz)) hpos

/-- on probabilities the PPF of the irregular-grid PDF is that of the histogram, whatever the extrema over the other rows -/
theorem irrPpf_eq (lo hi : K) {xs ys p : List K} (hg : Hist.Grid xs p.length) (h1 : totalMass xs p = 1) (hp : ∀ v ∈ p, 0 ≤ v)
    (hc : irrCumul xs ys = histCumul xs p) (q : K) (h0 : 0 ≤ q) (hq : q ≤ 1) : irrPpf lo hi xs ys q = histPpf xs p q := by
  match xs, hg with
  | [], hg => exact absurd hg.size (by simp)
  | a :: e, hg =>
    unfold irrPpf histPpf
    rw [hc]
    simp only
    exact Hist.interp_fill_irrelevant a e p hg h1 q h0 hq _ _ _ _

/-- **C77: quantiles of PDFs with their own grids.** For every row of non-negative values that can be normalised and every probability the PPF
exists, lies within the row's own grid and is mapped back to the probability by the CDF; it is non-decreasing; where the values are positive it
undoes the CDF. `lo` and `hi`, the extrema over the grids of *all* rows, play no role. -/
theorem C77_irregular_ppf (lo hi : K) (xs row ys : List K) (hg : XGrid xs row.length) (hn : irrNormRow xs row = some ys) (hrow : ∀ v ∈ row, 0 ≤ v)
    (q : K) (h0 : 0 ≤ q) (hq : q ≤ 1) :
    (∃ x, irrPpf lo hi xs ys q = some x ∧ irrCdf xs ys x = some q ∧ (∃ e ∈ xs, e ≤ x) ∧ (∃ e ∈ xs, x ≤ e)) ∧
    (∀ q', q ≤ q' → q' ≤ 1 → ∃ x y, irrPpf lo hi xs ys q = some x ∧ irrPpf lo hi xs ys q' = some y ∧ x ≤ y) ∧
    ((∀ v ∈ row, 0 < v) → ∀ x, (∃ e ∈ xs, e ≤ x) → (∃ e ∈ xs, x ≤ e) → ∃ p, irrCdf xs ys x = some p ∧ irrPpf lo hi xs ys p = some x) := by
  obtain ⟨u, p, rfl, hgr, h1, hp, hcdf, hc, hpos⟩ := irr_constructed hg hn hrow
  have hpe := fun q h0 hq => irrPpf_eq lo hi hgr h1 hp hc q h0 hq
  refine ⟨?_, ?_, ?_⟩
  · obtain ⟨x, hx, hx', hb⟩ := Hist.C09_cdf_ppf xs p hgr h1 hp q h0 hq
    exact ⟨x, by rw [hpe q h0 hq, hx], by rw [hcdf, hx'], hb⟩
  · intro q' hqq hq'
    rw [hpe q h0 hq, hpe q' (h0.trans hqq) hq']
    exact Hist.C09_ppf_mono xs p hgr h1 q q' h0 hqq hq'
  · intro hr x hlo hhi
    obtain ⟨w, hw, hw'⟩ := Hist.C09_ppf_cdf xs p hgr h1 (hpos hr) x hlo hhi
    obtain ⟨w1, w2, hw1, hw2, h3, h4, h5⟩ := (Hist.C08_cdf_shape xs p hgr h1 hp).2.2 x x (le_refl x)
    rw [hw, Option.some.injEq] at hw1 hw2
    subst hw1
    exact ⟨w, by rw [hcdf, hw], by rw [hpe w h3 (by linarith), hw']⟩

/-- Rows kept without normalisation (`check_input=False` on the class itself; ensembles normalise, see C96) with a total below 1: a probability above the total is answered with the largest
grid point of **all** rows, outside the row's own grid. -/
theorem C77_unnormalised_wrong : irrPpf (K := ℚ) 0 100 [0, 1] [1/2, 1/2] (3/4) = some 100 := by decide +kernel

/-- **C17 is violated**: a triangle `(0,0), (1,2)` on a per-row grid is rescaled so that the area below the stored PDF
is 1/2 instead of 1. -/
theorem C17_integral_wrong :
    ∃ (xs row ys : List ℚ), XGrid xs row.length ∧ irrNormRow xs row = some ys ∧ area xs row = 1 ∧ area xs ys = 1 / 2 := by
  refine ⟨[0, 1], [0, 2], [0, 1], ⟨by decide +kernel, rfl, by decide⟩, by decide +kernel, ?_, ?_⟩
  · simp [area]
  · simp [area]

/-! ## non-vacuity -/

example : Constructed ([0, 1, 3] : List ℚ) [0, 1/2, 1/4] [0, 1/4, 1] :=
  ⟨[0, 2, 1], ⟨by decide +kernel, rfl, by decide⟩, by decide +kernel⟩
example : interpPpf ([0, 1, 3] : List ℚ) [0, 1/4, 1] (5/8) = some 2 := by decide +kernel
example : interpPdf ([0, 1, 3] : List ℚ) [0, 1/2, 1/4] 2 = some (3/8) := by decide +kernel
example : Constructed ([0, 1, 2] : List ℚ) [0, 1, 0] [0, 1/2, 1] :=
  ⟨[0, 3, 0], ⟨by decide +kernel, rfl, by decide⟩, by decide +kernel⟩
example : irrNormRow ([0, 1, 3] : List ℚ) [7, 2, 1] = some [7/4, 1/2, 1/4] := by decide +kernel
example : irrPpf (-1) 5 ([0, 1, 3] : List ℚ) [7/4, 1/2, 1/4] (3/4) = some 2 := by decide +kernel
example : irrCdf ([0, 1, 3] : List ℚ) [7/4, 1/2, 1/4] 2 = some (3/4) := by decide +kernel

end Verif.Props.InterpPdf
