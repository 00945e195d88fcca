import Verif.Props.Refine

/-!
# C130: how far the CDF of an interpolated PDF can move when grid points are added

The CDF between grid points depends on the grid (`C130_interp_cdf_changes`), but never by more than the probability of one cell of the coarser grid.
-/

set_option linter.unusedSectionVars false
set_option autoImplicit false

namespace Verif.Props.Refine

open Verif Verif.Np Verif.Model Verif.Lemmas Verif.Spec Verif.Props.InterpPdf

variable {K : Type} [Field K] [LinearOrder K] [IsStrictOrderedRing K]

theorem areaTo_step : ∀ (i : ℕ) (xs ys : List K) (a b u v : K), xs[i]? = some a → xs[i + 1]? = some b → ys[i]? = some u → ys[i + 1]? = some v →
    areaTo (i + 1) xs ys = areaTo i xs ys + (b - a) * (u + v) / 2 := by
  intro i
  induction i with
  | zero =>
    intro xs ys a b u v h1 h2 h3 h4
    match xs, ys, h2, h4 with
    | x0 :: x1 :: xs, y0 :: y1 :: ys, h2, h4 =>
      simp only [zero_add, List.getElem?_cons_zero, List.getElem?_cons_succ, Option.some.injEq] at h1 h2 h3 h4
      subst h1 h2 h3 h4
      simp [areaTo]
  | succ i ih =>
    intro xs ys a b u v h1 h2 h3 h4
    match xs, ys, h2, h4 with
    | x0 :: x1 :: xs, y0 :: y1 :: ys, h2, h4 =>
      have := ih (x1 :: xs) (y1 :: ys) a b u v (by simpa using h1) (by simpa using h2) (by simpa using h3) (by simpa using h4)
      rw [areaTo, this, areaTo]
      ring

/-- **C130: bound for the CDF.** However many grid points are added on the lines between the old ones, the CDF nowhere changes by more than the largest
probability of a cell of the old grid. -/
theorem C130_interp_cdf_bound {xs row xs' row' ys c ys' c' : List K} (hf : MorePoints (xs, row) (xs', row')) (hg : XGrid xs row.length)
    (hp : interpNormRow xs row = .ok (some (ys, c))) (hp' : interpNormRow xs' row' = .ok (some (ys', c'))) (hy : ∀ v ∈ ys, 0 ≤ v) (ε : K)
    (hε : ∀ (j : ℕ) (a b u v : K), xs[j]? = some a → xs[j + 1]? = some b → ys[j]? = some u → ys[j + 1]? = some v → (b - a) * (u + v) / 2 ≤ ε) (x : K) :
    ∃ p p', interpCdf xs c x = some p ∧ interpCdf xs' c' x = some p' ∧ |p' - p| ≤ ε := by
  obtain ⟨hg', ys2, c2, h2, hpdf, hcdf⟩ := C130_interp_partial hf hg hp
  rw [hp'] at h2
  simp only [Except.ok.injEq, Option.some.injEq, Prod.mk.injEq] at h2
  obtain ⟨rfl, rfl⟩ := h2
  have hC : Constructed xs ys c := ⟨row, hg, hp⟩
  have hC' : Constructed xs' ys' c' := ⟨row', hg', hp'⟩
  have hlen : ys.length = row.length := by
    obtain ⟨a, b, t, u, v, r, e1, e2, hl, -, -, -⟩ := constructed_facts hC
    have := hg.size
    rw [← this, e1, e2]
    simp [hl]
  have hlen' : ys'.length = row'.length := by
    obtain ⟨a, b, t, u, v, r, e1, e2, hl, -, -, -⟩ := constructed_facts hC'
    have := hg'.size
    rw [← this, e1, e2]
    simp [hl]
  have hy' : ∀ v ∈ ys', 0 ≤ v := by
    intro v hv
    obtain ⟨i, hi, rfl⟩ := List.mem_iff_getElem.1 hv
    have hi' : i < xs'.length := by rw [hg'.size, ← hlen']; exact hi
    have h1 := (C15_pdf_through_points xs' ys' (by rw [hlen']; exact hg')).1 i _ _ (List.getElem?_eq_getElem hi') (List.getElem?_eq_getElem hi)
    obtain ⟨d, hd, hd0⟩ := (C15_pdf_through_points xs ys (by rw [hlen]; exact hg)).2.2.2 hy xs'[i]
    rw [hpdf, hd, Option.some.injEq] at h1
    rwa [← h1]
  obtain ⟨s1, s2, s3⟩ := C13_cdf_shape xs ys c hC hy
  obtain ⟨s1', s2', s3'⟩ := C13_cdf_shape xs' ys' c' hC' hy'
  have hgr := (C13_cdf_at_grid xs ys c hC).1
  obtain ⟨p, -, hpx, -, hp0, -, -⟩ := s3 x x le_rfl
  obtain ⟨p', -, hpx', -, hp0', -, -⟩ := s3' x x le_rfl
  refine ⟨p, p', hpx, hpx', ?_⟩
  have h2 := hg.two
  have hsz := hg.size
  have h0len : 0 < xs.length := by omega
  -- some cell has non-negative probability, so that the bound is not negative
  have hε0 : 0 ≤ ε := by
    have h1len : 0 + 1 < xs.length := by omega
    refine le_trans ?_ (hε 0 _ _ _ _ (List.getElem?_eq_getElem h0len) (List.getElem?_eq_getElem h1len)
      (List.getElem?_eq_getElem (by omega : 0 < ys.length)) (List.getElem?_eq_getElem (by omega : 0 + 1 < ys.length)))
    have e1 := hy _ (List.getElem_mem (by omega : 0 < ys.length))
    have e2 := hy _ (List.getElem_mem (by omega : 0 + 1 < ys.length))
    have e3 : xs[0] < xs[0 + 1] := List.pairwise_iff_getElem.1 hg.strict 0 (0 + 1) h0len h1len (by omega)
    have := mul_nonneg (sub_pos.2 e3).le (add_nonneg e1 e2)
    linarith
  by_cases hx0 : x < xs[0]
  · have hlt : ∀ e ∈ xs, x < e := by
      intro e he
      obtain ⟨i, hi, rfl⟩ := List.mem_iff_getElem.1 he
      rcases Nat.eq_zero_or_pos i with rfl | hpos
      · exact hx0
      · exact hx0.trans (List.pairwise_iff_getElem.1 hg.strict 0 i h0len hi hpos)
    have hlt' : ∀ e ∈ xs', x < e := by
      obtain ⟨j, j1, -, j3⟩ := (points_facts hf hg.size).2.2.2.2.2 0 _ (List.getElem?_eq_getElem h0len)
      have hj0 : j = 0 := j3.1 rfl
      subst hj0
      simp only at j1
      obtain ⟨hj, hj2⟩ := List.getElem?_eq_some_iff.1 j1
      intro e he
      obtain ⟨i, hi, rfl⟩ := List.mem_iff_getElem.1 he
      rw [← hj2] at hx0
      rcases Nat.eq_zero_or_pos i with rfl | hpos
      · exact hx0
      · exact hx0.trans (List.pairwise_iff_getElem.1 hg'.strict 0 i hj hi hpos)
    rw [s1 x hlt, Option.some.injEq] at hpx
    rw [s1' x hlt', Option.some.injEq] at hpx'
    rw [← hpx, ← hpx', sub_zero, abs_zero]
    exact hε0
  · by_cases hbig : ∃ k : ℕ, ∃ e, xs[k]? = some e ∧ x < e
    · classical
      obtain ⟨e, he, hxe⟩ := Nat.find_spec hbig
      have hmin := fun m (hm : m < Nat.find hbig) => Nat.find_min hbig hm
      obtain ⟨i, hi⟩ : ∃ i, Nat.find hbig = i + 1 := by
        refine Nat.exists_eq_succ_of_ne_zero fun h0 => ?_
        rw [h0, List.getElem?_eq_getElem h0len, Option.some.injEq] at he
        rw [he] at hx0
        exact hx0 hxe
      rw [hi] at he
      have hil := (List.getElem?_eq_some_iff.1 he).1
      have hia : i < xs.length := by omega
      have hle : xs[i] ≤ x := by
        by_contra hc
        exact hmin i (by omega) ⟨_, List.getElem?_eq_getElem hia, not_le.1 hc⟩
      have hstep := areaTo_step i xs ys _ _ _ _ (List.getElem?_eq_getElem hia) he (List.getElem?_eq_getElem (by omega : i < ys.length))
        (List.getElem?_eq_getElem (by omega : i + 1 < ys.length))
      have hbd := hε i _ _ _ _ (List.getElem?_eq_getElem hia) he (List.getElem?_eq_getElem (by omega : i < ys.length))
        (List.getElem?_eq_getElem (by omega : i + 1 < ys.length))
      -- above
      have hup : p ≤ areaTo (i + 1) xs ys := by
        obtain ⟨q1, q2, e1, e2, -, e3, -⟩ := s3 x e hxe.le
        rw [hpx, Option.some.injEq] at e1
        rw [hgr i e he, Option.some.injEq] at e2
        rw [e1, e2]
        exact e3
      have hup' : p' ≤ areaTo (i + 1) xs ys := by
        obtain ⟨q1, q2, e1, e2, -, e3, -⟩ := s3' x e hxe.le
        rw [hpx', Option.some.injEq] at e1
        rw [hcdf i e he, hgr i e he, Option.some.injEq] at e2
        rw [e1, e2]
        exact e3
      -- below
      have hlow : areaTo i xs ys ≤ p ∧ areaTo i xs ys ≤ p' := by
        cases i with
        | zero => exact ⟨by simpa [areaTo] using hp0, by simpa [areaTo] using hp0'⟩
        | succ i =>
          have hk := List.getElem?_eq_getElem hia
          constructor
          · obtain ⟨q1, q2, e1, e2, -, e3, -⟩ := s3 _ x hle
            rw [hgr i _ hk, Option.some.injEq] at e1
            rw [hpx, Option.some.injEq] at e2
            rw [e1, e2]
            exact e3
          · obtain ⟨q1, q2, e1, e2, -, e3, -⟩ := s3' _ x hle
            rw [hcdf i _ hk, hgr i _ hk, Option.some.injEq] at e1
            rw [hpx', Option.some.injEq] at e2
            rw [e1, e2]
            exact e3
      rw [abs_le]
      constructor <;> linarith [hlow.1, hlow.2]
    · push Not at hbig
      have hall : ∀ e ∈ xs, e ≤ x := by
        intro e he
        obtain ⟨i, hi, rfl⟩ := List.mem_iff_getElem.1 he
        exact hbig i _ (List.getElem?_eq_getElem hi)
      have hp1 : p = 1 := by rw [s2 x hall, Option.some.injEq] at hpx; exact hpx.symm
      have hk : xs[xs.length - 2 + 1]? = some xs[xs.length - 2 + 1] := List.getElem?_eq_getElem (by omega)
      have hlast : ∀ e ∈ xs, e ≤ xs[xs.length - 2 + 1]'(by omega) := by
        intro e he
        obtain ⟨i, hi, rfl⟩ := List.mem_iff_getElem.1 he
        rcases Nat.lt_or_ge i (xs.length - 2 + 1) with h | h
        · exact (List.pairwise_iff_getElem.1 hg.strict i _ hi (by omega) h).le
        · have : i = xs.length - 2 + 1 := by omega
          subst this
          exact le_rfl
      obtain ⟨q1, q2, e1, e2, -, e3, e4⟩ := s3' _ x (hall _ (List.getElem_mem (by omega : xs.length - 2 + 1 < xs.length)))
      rw [hcdf _ _ hk, s2 _ hlast, Option.some.injEq] at e1
      rw [hpx', Option.some.injEq] at e2
      have hp1' : p' = 1 := by rw [e2]; exact le_antisymm e4 (e1 ▸ e3)
      rw [hp1, hp1', sub_self, abs_zero]
      exact hε0

/-- the bound with numbers: a triangle with a point added in its first cell, which has the probability 2/3 -/
example := C130_interp_cdf_bound (K := ℚ) (xs := [0, 2, 3]) (row := [0, 2, 0]) (xs' := [0, 1, 2, 3]) (row' := [0, 1, 2, 0]) (ys := [0, 2/3, 0])
  (c := [0, 2/3, 1]) (ys' := [0, 1/3, 2/3, 0]) (c' := [0, 1/6, 2/3, 1])
  (Relation.ReflTransGen.single (OnePoint.here 0 1 2 0 1 2 [3] [0] (by norm_num) (by norm_num) (by norm_num))) ⟨by decide +kernel, rfl, by decide⟩ (by decide +kernel)
  (by decide +kernel) (by decide +kernel) (2/3)
  (by
    intro j a b u v h1 h2 h3 h4
    match j with
    | 0 => simp at h1 h2 h3 h4; subst h1 h2 h3 h4; norm_num
    | 1 => simp at h1 h2 h3 h4; subst h1 h2 h3 h4; norm_num
    | j + 2 => simp at h2)

end Verif.Props.Refine
