import Verif.Props.Integrals
import Verif.Props.NearUniform
import Verif.Props.Entropy

/-!
# C08: integrals of histograms with arbitrary bins

`C08_integral_partial` leaves out bins that are unequal by less than the tolerance of the lookup. For these the density that is returned is the one of the
same contents on equal bins, so its integrals are those of the CDF up to the tolerances.
-/

set_option linter.unusedSectionVars false
set_option autoImplicit false

namespace Verif.Props.Integrals

open Verif Verif.Np Verif.Model Verif.Spec Verif.Props.Hist Verif.Props.Bins Verif.Lemmas.Hist MeasureTheory

/-- `m + 2` equally spaced edges beginning with `b0, b1` -/
def evenEdges (b0 b1 : ℝ) (m : ℕ) : List ℝ := b0 :: b1 :: (List.range m).map fun (i : ℕ) => b0 + ((i : ℝ) + 2) * (b1 - b0)

theorem evenEdges_get (b0 b1 : ℝ) (m i : ℕ) (a : ℝ) (h : (evenEdges b0 b1 m)[i]? = some a) : a = b0 + i * (b1 - b0) := by
  match i with
  | 0 => simp [evenEdges] at h; simp [h]
  | 1 => simp [evenEdges] at h; simp [h]
  | i + 2 =>
    unfold evenEdges at h
    rw [List.getElem?_cons_succ, List.getElem?_cons_succ, List.getElem?_map] at h
    obtain ⟨k, hk, rfl⟩ := Option.map_eq_some_iff.1 h
    obtain rfl : i = k := by
      obtain ⟨hk1, hk2⟩ := List.getElem?_eq_some_iff.1 hk
      simpa using hk2
    push_cast; ring

theorem evenEdges_uniform (b0 b1 : ℝ) (m : ℕ) : Uniform (evenEdges b0 b1 m) := by
  refine ⟨b1 - b0, fun i a b ha hb => ?_⟩
  rw [evenEdges_get _ _ _ _ _ ha, evenEdges_get _ _ _ _ _ hb]
  push_cast; ring

theorem evenEdges_strict (b0 b1 : ℝ) (h : b0 < b1) (m : ℕ) : (evenEdges b0 b1 m).Pairwise (· < ·) := by
  rw [List.pairwise_iff_getElem]
  intro i j hi hj hij
  rw [evenEdges_get b0 b1 m i _ (List.getElem?_eq_getElem hi), evenEdges_get b0 b1 m j _ (List.getElem?_eq_getElem hj)]
  have : (i : ℝ) < j := by exact_mod_cast hij
  nlinarith

theorem evenEdges_allclose (b0 b1 : ℝ) (m : ℕ) : allcloseScalar (binWidths (evenEdges b0 b1 m)) (b1 - b0) = true := by
  simp only [allcloseScalar, List.all_eq_true, isclose, decide_eq_true_eq]
  intro v hv
  have hv' : v ∈ diff (evenEdges b0 b1 m) := hv
  obtain ⟨i, hi, rfl⟩ := List.mem_iff_getElem.1 hv'
  have hl := length_diff (evenEdges b0 b1 m)
  have e1 := List.getElem?_eq_getElem (l := evenEdges b0 b1 m) (i := i) (by omega)
  have e2 := List.getElem?_eq_getElem (l := evenEdges b0 b1 m) (i := i + 1) (by omega)
  have := getElem?_diff _ i _ _ e1 e2
  rw [evenEdges_get _ _ _ _ _ e1, evenEdges_get _ _ _ _ _ e2, List.getElem?_eq_getElem hi] at this
  rw [Option.some.inj this]
  have e3 : b0 + ((i + 1 : ℕ) : ℝ) * (b1 - b0) - (b0 + i * (b1 - b0)) - (b1 - b0) = 0 := by push_cast; ring
  rw [e3, abs_zero]
  positivity

theorem lookup_even (b0 b1 : ℝ) (t : List ℝ) (h : allcloseScalar (binWidths (b0 :: b1 :: t)) (b1 - b0) = true) (x : ℝ) :
    getBinIndex (b0 :: b1 :: t) x = getBinIndex (evenEdges b0 b1 t.length) x := by
  have h' := evenEdges_allclose b0 b1 t.length
  unfold evenEdges at h' ⊢
  rw [getBinIndex_cons b0 b1 t x _ (if_pos h).symm, getBinIndex_cons b0 b1 _ x _ (if_pos h').symm]
  simp

theorem mass_close (T : ℝ) (hT : 0 ≤ T) : ∀ (e e' p : List ℝ), e.length = e'.length →
    (∀ (i : ℕ) a b a' b', e[i]? = some a → e[i+1]? = some b → e'[i]? = some a' → e'[i+1]? = some b' → |(b - a) - (b' - a')| ≤ T) →
    (∀ v ∈ p, 0 ≤ v) → |totalMass e p - totalMass e' p| ≤ T * p.sum
  | [], [], p, _, _, hp => by simp [totalMass]; exact mul_nonneg hT (List.sum_nonneg hp)
  | [_], [_], p, _, _, hp => by simp [totalMass]; exact mul_nonneg hT (List.sum_nonneg hp)
  | a :: b :: e, a' :: b' :: e', [], _, _, _ => by simp [totalMass]
  | a :: b :: e, a' :: b' :: e', q :: p, hl, h, hp => by
    have ih := mass_close T hT (b :: e) (b' :: e') p (by simpa using hl)
      (fun i x y x' y' h1 h2 h3 h4 => h (i + 1) x y x' y' (by simpa using h1) (by simpa using h2) (by simpa using h3) (by simpa using h4))
      (fun v hv => hp v (by simp [hv]))
    have h0 := h 0 a b a' b' rfl rfl rfl rfl
    have hq := hp q (by simp)
    rw [totalMass, totalMass, List.sum_cons]
    have e1 : q * (b - a) + totalMass (b :: e) p - (q * (b' - a') + totalMass (b' :: e') p) =
        q * ((b - a) - (b' - a')) + (totalMass (b :: e) p - totalMass (b' :: e') p) := by ring
    rw [e1]
    refine (abs_add_le _ _).trans ?_
    rw [abs_mul, abs_of_nonneg hq]
    nlinarith [mul_le_mul_of_nonneg_left h0 hq]

theorem upto_close (D : ℝ) (hD : 0 ≤ D) (x : ℝ) : ∀ (e e' p : List ℝ), e.length = e'.length →
    (∀ (i : ℕ) a a', e[i]? = some a → e'[i]? = some a' → |a - a'| ≤ D) →
    (∀ v ∈ p, 0 ≤ v) → |massUpTo e p x - massUpTo e' p x| ≤ 2 * D * p.sum
  | [], [], p, _, _, hp => by simp [massUpTo]; exact mul_nonneg (by linarith) (List.sum_nonneg hp)
  | [_], [_], p, _, _, hp => by simp [massUpTo]; exact mul_nonneg (by linarith) (List.sum_nonneg hp)
  | a :: b :: e, a' :: b' :: e', [], _, _, _ => by simp [massUpTo]
  | a :: b :: e, a' :: b' :: e', q :: p, hl, h, hp => by
    have ih := upto_close D hD x (b :: e) (b' :: e') p (by simpa using hl)
      (fun i x x' h1 h2 => h (i + 1) x x' (by simpa using h1) (by simpa using h2)) (fun v hv => hp v (by simp [hv]))
    have h0 := h 0 a a' rfl rfl
    have h1 := h 1 b b' rfl rfl
    have hq := hp q (by simp)
    have hm : |max 0 (min x b - a) - max 0 (min x b' - a')| ≤ 2 * D := by
      have i1 := abs_max_sub_max_le_max (0 : ℝ) (min x b - a) 0 (min x b' - a')
      have i2 := abs_min_sub_min_le_max x b x b'
      rw [sub_self, abs_zero, max_eq_right (abs_nonneg (_ : ℝ))] at i1 i2
      have i3 : min x b - a - (min x b' - a') = (min x b - min x b') - (a - a') := by ring
      rw [i3] at i1
      have i4 := abs_sub (min x b - min x b') (a - a')
      linarith
    rw [massUpTo, massUpTo, List.sum_cons]
    have e1 : q * max 0 (min x b - a) + massUpTo (b :: e) p x - (q * max 0 (min x b' - a') + massUpTo (b' :: e') p x) =
        q * (max 0 (min x b - a) - max 0 (min x b' - a')) + (massUpTo (b :: e) p x - massUpTo (b' :: e') p x) := by ring
    rw [e1]
    refine (abs_add_le _ _).trans ?_
    rw [abs_mul, abs_of_nonneg hq]
    nlinarith [mul_le_mul_of_nonneg_left hm hq]

theorem massUpTo_div (c : ℝ) (x : ℝ) : ∀ (e p : List ℝ), massUpTo e (p.map (· / c)) x = massUpTo e p x / c
  | [], p => by cases p <;> simp [massUpTo]
  | [_], p => by cases p <;> simp [massUpTo]
  | a :: b :: e, [] => by simp [massUpTo]
  | a :: b :: e, q :: p => by
    rw [List.map_cons, massUpTo, massUpTo, massUpTo_div c x (b :: e) p]; ring

/-- **C08 (integral form), any increasing edges.** For contents that are not negative the PDF is an integrable function. Its integral over the line is
one, and its integrals between two points are the differences of the CDF, up to the tolerance with which the lookup compares the widths (times the
sum of the densities and four times the number of bins). -/
theorem C08_integral_any_edges (edges row p : List ℝ) (hg : Grid edges row.length) (hrow : ∀ v ∈ row, 0 ≤ v) (b0 b1 : ℝ) (h0 : edges[0]? = some b0)
    (h1 : edges[1]? = some b1) (hp : histNormRow edges row = some p) :
    ∃ f : ℝ → ℝ, (∀ x, histPdf edges p x = .ok (f x)) ∧ Integrable f volume ∧ |(∫ x, f x) - 1| ≤ widthTol (b1 - b0) * p.sum ∧
      ∀ x y, ∃ u v, histCdf edges p x = some u ∧ histCdf edges p y = some v ∧
        |(∫ t in x..y, f t) - (v - u)| ≤ 4 * row.length * widthTol (b1 - b0) * p.sum := by
  have hm : totalMass edges row ≠ 0 := by
    intro h; rw [(C07_row_normalised edges row).1 h] at hp; simp at hp
  obtain ⟨p', g1, g2, g3, -⟩ := (C07_row_normalised edges row).2 hm
  obtain rfl : p' = p := by rw [hp] at g1; exact (Option.some.inj g1).symm
  have hlen : p'.length = row.length := by rw [g3, List.length_map]
  have hg' : Grid edges p'.length := by rw [hlen]; exact hg
  have hcdf := C08_cdf_is_mass edges p' hg' g2
  have hmpos : 0 ≤ totalMass edges row := totalMass_nonneg hg.strict hrow
  have hpn : ∀ v ∈ p', 0 ≤ v := by
    intro v hv
    rw [g3] at hv
    obtain ⟨q, hq, rfl⟩ := List.mem_map.1 hv
    exact div_nonneg (hrow q hq) hmpos
  have hS : 0 ≤ p'.sum := List.sum_nonneg hpn
  have hT := widthTol_nonneg (b1 - b0)
  match edges, h0, h1 with
  | c0 :: c1 :: t, h0, h1 =>
    obtain rfl : c0 = b0 := by simpa using h0
    obtain rfl : c1 = b1 := by simpa using h1
    have hw : c0 < c1 := by have := hg.strict; rw [List.pairwise_cons] at this; exact this.1 c1 (by simp)
    by_cases hall : allcloseScalar (binWidths (c0 :: c1 :: t)) (c1 - c0) = true
    · have htl : t.length + 1 = p'.length := by have := hg'.size; simp at this; omega
      set e' := evenEdges c0 c1 t.length with he'
      have hel : e'.length = t.length + 2 := by simp [he', evenEdges]
      have hge : Grid e' p'.length := ⟨evenEdges_strict c0 c1 hw _, by omega, hg'.pos⟩
      have hclose : ∀ (i : ℕ) a a', (c0 :: c1 :: t)[i]? = some a → e'[i]? = some a' → |a - a'| ≤ row.length * widthTol (c1 - c0) := by
        intro i a a' ha ha'
        have h1 := near_edge hall i a ha
        rw [evenEdges_get _ _ _ _ _ ha']
        have hi := (List.getElem?_eq_some_iff.1 ha).1
        have : (i : ℝ) ≤ row.length := by
          rw [← hlen, ← htl]; simp at hi; exact_mod_cast (by omega : i ≤ t.length + 1)
        exact h1.trans (mul_le_mul_of_nonneg_right this hT)
      have hTM := mass_close (widthTol (c1 - c0)) hT (c0 :: c1 :: t) e' p' (by rw [hel]; simp) (by
        intro i a b a' b' ha hb ha' hb'
        rw [evenEdges_get _ _ _ _ _ ha', evenEdges_get _ _ _ _ _ hb']
        have h2 := getElem?_diff (c0 :: c1 :: t) i a b ha hb
        simp only [allcloseScalar, List.all_eq_true, isclose, decide_eq_true_eq] at hall
        have h3 := hall _ (List.mem_of_getElem? h2)
        have e3 : c0 + ((i + 1 : ℕ) : ℝ) * (c1 - c0) - (c0 + i * (c1 - c0)) = c1 - c0 := by push_cast; ring
        rw [e3]
        exact h3) hpn
      rw [g2] at hTM
      set T' := totalMass e' p' with hT'
      have hT'0 : T' ≠ 0 := by
        intro hz
        have z1 := (Entropy.totalMass_zero id e' p' hge.strict hge.size hpn).2
        have z2 := (Entropy.totalMass_zero id (c0 :: c1 :: t) p' hg'.strict hg'.size hpn).2
        rw [List.map_id] at z1 z2
        have := z2.2 (z1.1 hz)
        rw [g2] at this
        exact one_ne_zero this
      obtain ⟨q, q1, q2, q3, -⟩ := (C07_row_normalised e' p').2 hT'0
      obtain ⟨f, f1, f2, f3, f4⟩ := C08_integral_partial e' p' q hge (.inl (evenEdges_uniform _ _ _)) q1
      have hgq : Grid e' q.length := by rw [q3, List.length_map]; exact hge
      refine ⟨fun x => T' * f x, fun x => ?_, f2.const_mul _, ?_, fun x y => ?_⟩
      · have := f1 x
        rw [q3] at this
        unfold histPdf evalHist at this ⊢
        rw [lookup_even c0 c1 t hall, ← he']
        obtain ⟨i, m, hi, hil⟩ := C05_index_valid e' (by omega) x
        have hip : i < p'.length := by omega
        rw [hi] at this ⊢
        simp only [List.getElem?_map, List.getElem?_eq_getElem hip, Option.map_some, Except.ok.injEq] at this ⊢
        rw [← this]
        cases m
        · simp
        · simp only [if_true, ← hT']; field_simp
      · rw [integral_const_mul, f3, mul_one, abs_sub_comm]; exact hTM
      · refine ⟨_, _, hcdf x, hcdf y, ?_⟩
        obtain ⟨u, v, e1, e2, e3⟩ := f4 x y
        rw [C08_cdf_is_mass _ _ hgq q2, q3, massUpTo_div] at e1 e2
        injection e1 with e1
        injection e2 with e2
        have hD : 0 ≤ row.length * widthTol (c1 - c0) := by positivity
        have u1 := abs_le.1 (upto_close _ hD x (c0 :: c1 :: t) e' p' (by rw [hel]; simp) hclose hpn)
        have u2 := abs_le.1 (upto_close _ hD y (c0 :: c1 :: t) e' p' (by rw [hel]; simp) hclose hpn)
        rw [intervalIntegral.integral_const_mul, e3, ← e1, ← e2]
        have e4 : T' * (massUpTo e' p' y / T' - massUpTo e' p' x / T') = massUpTo e' p' y - massUpTo e' p' x := by field_simp
        rw [e4, abs_le]
        constructor <;> linarith [u1.1, u1.2, u2.1, u2.2]
    · have hd : DetectablyNonUniform (c0 :: c1 :: t) := by
        simp only [allcloseScalar, List.all_eq_true, isclose, decide_eq_true_eq] at hall
        push Not at hall
        obtain ⟨v, hv, hgt⟩ := hall
        have hv' : v ∈ diff (c0 :: c1 :: t) := hv
        obtain ⟨i, hi, rfl⟩ := List.mem_iff_getElem.1 hv'
        have hl := length_diff (c0 :: c1 :: t)
        have e1 := List.getElem?_eq_getElem (l := c0 :: c1 :: t) (i := i) (by omega)
        have e2 := List.getElem?_eq_getElem (l := c0 :: c1 :: t) (i := i + 1) (by omega)
        have h3 := getElem?_diff _ i _ _ e1 e2
        rw [List.getElem?_eq_getElem hi] at h3
        refine ⟨c0, c1, i, _, _, rfl, rfl, e1, e2, ?_⟩
        rw [← Option.some.inj h3]
        exact hgt
      obtain ⟨f, f1, f2, f3, f4⟩ := C08_integral_partial _ row p' hg (.inr hd) hp
      refine ⟨f, f1, f2, by rw [f3, sub_self, abs_zero]; positivity, fun x y => ?_⟩
      obtain ⟨u, v, e1, e2, e3⟩ := f4 x y
      exact ⟨u, v, e1, e2, by rw [e3, sub_self, abs_zero]; positivity⟩

/-- bins of widths `1, 1, 1 + 1e-6`, which count as equal -/
example : ∃ f : ℝ → ℝ, Integrable f volume ∧ |(∫ x, f x) - 1| ≤ 11 / 1000000 := by
  have hg : Grid ([0, 1, 2, 3 + 1/1000000] : List ℝ) ([0, 1, 0] : List ℝ).length := by
    refine ⟨?_, rfl, by simp⟩
    simp
    norm_num
  have hn : histNormRow ([0, 1, 2, 3 + 1/1000000] : List ℝ) [0, 1, 0] = some [0, 1, 0] := by
    simp [histNormRow, histSum, binWidths, Np.mul, Np.sum, Np.diff]; norm_num
  obtain ⟨f, h1, h2, h3, -⟩ := C08_integral_any_edges _ _ _ hg (by intro v hv; simp at hv; rcases hv with rfl | rfl | rfl <;> norm_num) 0 1 rfl rfl hn
  refine ⟨f, h2, h3.trans ?_⟩
  norm_num [widthTol]

end Verif.Props.Integrals
