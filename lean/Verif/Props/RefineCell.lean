import Verif.Props.RefineBound

/-!
# C130: how far the CDF of an interpolated PDF can move inside one cell
-/

set_option linter.unusedSectionVars false
set_option autoImplicit false

namespace Verif.Props.Refine

open Verif Verif.Np Verif.Model Verif.Lemmas Verif.Spec Verif.Props.InterpPdf

variable {K : Type} [Field K] [LinearOrder K] [IsStrictOrderedRing K]

/-- **C130: bound for the CDF in one cell.** However many grid points are added on the lines between the old ones, the CDF at a point of a cell of the old
grid does not change by more than the probability of that cell: a cell of probability zero keeps its CDF. -/
theorem C130_interp_cdf_cell {xs row xs' row' ys c ys' c' : List K} (hf : MorePoints (xs, row) (xs', row')) (hg : XGrid xs row.length)
    (hp : interpNormRow xs row = .ok (some (ys, c))) (hp' : interpNormRow xs' row' = .ok (some (ys', c'))) (hy : ∀ v ∈ ys, 0 ≤ v)
    (i : ℕ) (a b u v x : K) (ha : xs[i]? = some a) (hb : xs[i + 1]? = some b) (hu : ys[i]? = some u) (hv : ys[i + 1]? = some v) (h1 : a ≤ x) (h2 : x ≤ b) :
    ∃ p p', interpCdf xs c x = some p ∧ interpCdf xs' c' x = some p' ∧ |p' - p| ≤ (b - a) * (u + v) / 2 := by
  obtain ⟨hg', ys2, c2, e0, hpdf, hcdf⟩ := C130_interp_partial hf hg hp
  rw [hp'] at e0
  simp only [Except.ok.injEq, Option.some.injEq, Prod.mk.injEq] at e0
  obtain ⟨rfl, rfl⟩ := e0
  have hC : Constructed xs ys c := ⟨row, hg, hp⟩
  have hC' : Constructed xs' ys' c' := ⟨row', hg', hp'⟩
  have hlen : ys.length = row.length := by
    obtain ⟨a, b, t, u, v, r, e1, e2, hl, -, -, -⟩ := constructed_facts hC
    have := hg.size
    rw [← this, e1, e2]
    simp [hl]
  have hlen' : ys'.length = row'.length := by
    obtain ⟨a, b, t, u, v, r, e1, e2, hl, -, -, -⟩ := constructed_facts hC'
    have := hg'.size
    rw [← this, e1, e2]
    simp [hl]
  have hy' : ∀ v ∈ ys', 0 ≤ v := by
    intro v hv
    obtain ⟨i, hi, rfl⟩ := List.mem_iff_getElem.1 hv
    have hi' : i < xs'.length := by rw [hg'.size, ← hlen']; exact hi
    have h1 := (C15_pdf_through_points xs' ys' (by rw [hlen']; exact hg')).1 i _ _ (List.getElem?_eq_getElem hi') (List.getElem?_eq_getElem hi)
    obtain ⟨d, hd, hd0⟩ := (C15_pdf_through_points xs ys (by rw [hlen]; exact hg)).2.2.2 hy xs'[i]
    rw [hpdf, hd, Option.some.injEq] at h1
    rwa [← h1]
  have s3 := (C13_cdf_shape xs ys c hC hy).2.2
  have s3' := (C13_cdf_shape xs' ys' c' hC' hy').2.2
  have hgr := (C13_cdf_at_grid xs ys c hC).1
  obtain ⟨p, -, hpx, -, hp0, -, -⟩ := s3 x x le_rfl
  obtain ⟨p', -, hpx', -, hp0', -, -⟩ := s3' x x le_rfl
  refine ⟨p, p', hpx, hpx', ?_⟩
  have hstep := areaTo_step i xs ys _ _ _ _ ha hb hu hv
  have hup : p ≤ areaTo (i + 1) xs ys := by
    obtain ⟨q1, q2, e1, e2, -, e3, -⟩ := s3 x b h2
    rw [hpx, Option.some.injEq] at e1
    rw [hgr i b hb, Option.some.injEq] at e2
    rw [e1, e2]
    exact e3
  have hup' : p' ≤ areaTo (i + 1) xs ys := by
    obtain ⟨q1, q2, e1, e2, -, e3, -⟩ := s3' x b h2
    rw [hpx', Option.some.injEq] at e1
    rw [hcdf i b hb, hgr i b hb, Option.some.injEq] at e2
    rw [e1, e2]
    exact e3
  have hlow : areaTo i xs ys ≤ p ∧ areaTo i xs ys ≤ p' := by
    cases i with
    | zero => exact ⟨by simpa [areaTo] using hp0, by simpa [areaTo] using hp0'⟩
    | succ i =>
      constructor
      · obtain ⟨q1, q2, e1, e2, -, e3, -⟩ := s3 a x h1
        rw [hgr i _ ha, Option.some.injEq] at e1
        rw [hpx, Option.some.injEq] at e2
        rw [e1, e2]
        exact e3
      · obtain ⟨q1, q2, e1, e2, -, e3, -⟩ := s3' a x h1
        rw [hcdf i _ ha, hgr i _ ha, Option.some.injEq] at e1
        rw [hpx', Option.some.injEq] at e2
        rw [e1, e2]
        exact e3
  rw [abs_le]
  constructor <;> linarith [hlow.1, hlow.2]

/-- a point added in the first cell of a triangle; the bound for the second cell is 1/3 -/
example := C130_interp_cdf_cell (K := ℚ) (xs := [0, 2, 3]) (row := [0, 2, 0]) (xs' := [0, 1, 2, 3]) (row' := [0, 1, 2, 0]) (ys := [0, 2/3, 0])
  (c := [0, 2/3, 1]) (ys' := [0, 1/3, 2/3, 0]) (c' := [0, 1/6, 2/3, 1])
  (Relation.ReflTransGen.single (OnePoint.here 0 1 2 0 1 2 [3] [0] (by norm_num) (by norm_num) (by norm_num))) ⟨by decide +kernel, rfl, by decide⟩ (by decide +kernel)
  (by decide +kernel) (by decide +kernel) 1 2 3 (2/3) 0 (5/2) rfl rfl rfl rfl (by norm_num) (by norm_num)

end Verif.Props.Refine
