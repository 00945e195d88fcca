import Verif.Props.EndToEnd
import Verif.Model.MixReal
import Verif.Lemmas.EvalCase

/-!
# C116: change of units

The point `x` is called `s * x + t` in the new units (`s > 0`), and the grid of an ensemble is given in the new units.
-/

set_option linter.unusedSectionVars false
set_option autoImplicit false

namespace Verif.Props.Units

open Verif Verif.Np Verif.Model Verif.Spec Verif.Lemmas Verif.Props.EndToEnd Verif.Props.Bins Verif.Props.Hist Verif.Props.InterpPdf

variable {K : Type} [Field K] [LinearOrder K] [IsStrictOrderedRing K]

/-- the name of the point `x` in the new units -/
def unit (s t x : K) : K := s * x + t

section order
variable {s : K} (hs : 0 < s) (t : K)
include hs

theorem unit_lt {a b : K} : unit s t a < unit s t b ↔ a < b := by
  unfold unit
  constructor
  · intro h; nlinarith
  · intro h; nlinarith

theorem unit_le {a b : K} : unit s t a ≤ unit s t b ↔ a ≤ b := by
  rw [← not_lt, unit_lt hs, not_lt]

theorem unit_inj {a b : K} : unit s t a = unit s t b ↔ a = b := by
  rw [le_antisymm_iff, le_antisymm_iff, unit_le hs, unit_le hs]

theorem unit_sub (a b : K) : unit s t a - unit s t b = s * (a - b) := by unfold unit; ring

theorem pairwise_unit {l : List K} : (l.map (unit s t)).Pairwise (· < ·) ↔ l.Pairwise (· < ·) := by
  rw [List.pairwise_map]
  exact ⟨fun h => h.imp (unit_lt hs t).1, fun h => h.imp (unit_lt hs t).2⟩

/-! ### the curves -/

theorem stepLeft_unit : ∀ (e r : List K) (x : K), stepLeft (e.map (unit s t)) r (unit s t x) = stepLeft e r x
  | [], _, _ => by simp [stepLeft]
  | [_], _, _ => by simp [stepLeft]
  | _ :: _ :: _, [], _ => by simp [stepLeft]
  | a :: b :: e, v :: r, x => by
    have := stepLeft_unit (b :: e) r x
    simp only [List.map_cons, stepLeft, unit_le hs, unit_lt hs] at this ⊢
    rw [this]

theorem stepRight_unit : ∀ (e r : List K) (x : K), stepRight (e.map (unit s t)) r (unit s t x) = stepRight e r x
  | [], _, _ => by simp [stepRight]
  | [_], _, _ => by simp [stepRight]
  | _ :: _ :: _, [], _ => by simp [stepRight]
  | a :: b :: e, v :: r, x => by
    have := stepRight_unit (b :: e) r x
    simp only [List.map_cons, stepRight, unit_le hs, unit_lt hs] at this ⊢
    rw [this]

theorem brokenLine_unit : ∀ (xs ys : List K) (x : K), brokenLine (xs.map (unit s t)) ys (unit s t x) = brokenLine xs ys x
  | [], _, _ => by simp [brokenLine]
  | [_], _, _ => by simp [brokenLine]
  | _ :: _ :: _, [], _ => by simp [brokenLine]
  | _ :: _ :: _, [_], _ => by simp [brokenLine]
  | a :: b :: xs, u :: v :: ys, x => by
    have := brokenLine_unit (b :: xs) (v :: ys) x
    simp only [List.map_cons, brokenLine, unit_le hs, unit_sub hs] at this ⊢
    rw [this]
    have h : (v - u) / (s * (b - a)) * (s * (x - a)) = (v - u) / (b - a) * (x - a) := by
      rw [div_mul_eq_mul_div, div_mul_eq_mul_div, mul_left_comm, mul_div_mul_left _ _ hs.ne']
    rw [h]

theorem totalMass_unit : ∀ (e r : List K), totalMass (e.map (unit s t)) r = s * totalMass e r
  | [], _ => by simp [totalMass]
  | [_], _ => by simp [totalMass]
  | _ :: _ :: _, [] => by simp [totalMass]
  | a :: b :: e, v :: r => by
    have := totalMass_unit (b :: e) r
    simp only [List.map_cons, totalMass, unit_sub hs] at this ⊢
    rw [this]; ring

theorem massUpTo_unit : ∀ (e r : List K) (x : K), massUpTo (e.map (unit s t)) r (unit s t x) = s * massUpTo e r x
  | [], _, _ => by simp [massUpTo]
  | [_], _, _ => by simp [massUpTo]
  | _ :: _ :: _, [], _ => by simp [massUpTo]
  | a :: b :: e, v :: r, x => by
    have := massUpTo_unit (b :: e) r x
    simp only [List.map_cons, massUpTo] at this ⊢
    have hmin : min (unit s t x) (unit s t b) = unit s t (min x b) := by
      rcases le_total x b with h | h
      · rw [min_eq_left h, min_eq_left ((unit_le hs t).2 h)]
      · rw [min_eq_right h, min_eq_right ((unit_le hs t).2 h)]
    have hmax : max 0 (s * (min x b - a)) = s * max 0 (min x b - a) := by
      rw [mul_max_of_nonneg _ _ hs.le, mul_zero]
    rw [this, hmin, unit_sub hs, hmax]; ring

theorem area_unit : ∀ (xs ys : List K), area (xs.map (unit s t)) ys = s * area xs ys
  | [], _ => by simp [area]
  | [_], _ => by simp [area]
  | _ :: _ :: _, [] => by simp [area]
  | _ :: _ :: _, [_] => by simp [area]
  | a :: b :: xs, u :: v :: ys => by
    have := area_unit (b :: xs) (v :: ys)
    simp only [List.map_cons, area, unit_sub hs] at this ⊢
    rw [this]; ring

theorem areaTo_unit : ∀ (i : ℕ) (xs ys : List K), areaTo i (xs.map (unit s t)) ys = s * areaTo i xs ys
  | 0, _, _ => by simp [areaTo]
  | _ + 1, [], _ => by simp [areaTo]
  | _ + 1, [_], _ => by simp [areaTo]
  | _ + 1, _ :: _ :: _, [] => by simp [areaTo]
  | _ + 1, _ :: _ :: _, [_] => by simp [areaTo]
  | i + 1, a :: b :: xs, u :: v :: ys => by
    have := areaTo_unit i (b :: xs) (v :: ys)
    simp only [List.map_cons, areaTo, unit_sub hs] at this ⊢
    rw [this]; ring

theorem uniform_unit {e : List K} (h : Uniform e) : Uniform (e.map (unit s t)) := by
  obtain ⟨w, hw⟩ := h
  refine ⟨s * w, fun i a b ha hb => ?_⟩
  rw [List.getElem?_map, Option.map_eq_some_iff] at ha hb
  obtain ⟨a', ha, rfl⟩ := ha
  obtain ⟨b', hb, rfl⟩ := hb
  rw [unit_sub hs, hw i a' b' ha hb]

/-- clearly unequal bins are clearly unequal in smaller units (larger numbers) -/
theorem nonuniform_unit (h1 : 1 ≤ s) {e : List K} (h : DetectablyNonUniform e) : DetectablyNonUniform (e.map (unit s t)) := by
  obtain ⟨b0, b1, i, a, b, h0, h1', ha, hb, h⟩ := h
  refine ⟨unit s t b0, unit s t b1, i, unit s t a, unit s t b, by simp [h0], by simp [h1'], by simp [ha], by simp [hb], ?_⟩
  have e1 : unit s t b - unit s t a - (unit s t b1 - unit s t b0) = s * (b - a - (b1 - b0)) := by
    rw [unit_sub hs, unit_sub hs]; ring
  rw [e1, unit_sub hs, abs_mul, abs_mul, abs_of_pos hs]
  have : s * (1 / 100000000 + 1 / 100000 * |b1 - b0|) < s * |b - a - (b1 - b0)| := mul_lt_mul_of_pos_left h hs
  have h8 : (1 / 100000000 : K) ≤ s * (1 / 100000000) := le_mul_of_one_le_left (by positivity) h1
  calc 1 / 100000000 + 1 / 100000 * (s * |b1 - b0|) ≤ s * (1 / 100000000) + 1 / 100000 * (s * |b1 - b0|) := by
        exact add_le_add_left h8 _
    _ = s * (1 / 100000000 + 1 / 100000 * |b1 - b0|) := by ring
    _ < _ := this

end order

/-! ### ensembles made in the old and in the new units -/

/-- **C116: histograms.** The same contents on edges given in the new units: at the same points the density is that in the old units divided
by `s` and the CDF is the same. Missing: bins whose inequality is detected in one of the units only (false, `C116_small_units_wrong`); unequal
bins are also detected in the new units if `s` is at least one (`nonuniform_unit`). -/
theorem C116_hist_partial [FloorRing K] (s t : K) (hs : 0 < s) (bins : List K) (rows : List (List K)) (hb : bins.Pairwise (· < ·))
    (h2 : 2 ≤ bins.length) (hlen : ∀ r ∈ rows, r.length + 1 = bins.length) (hm : ∀ r ∈ rows, totalMass bins r ≠ 0)
    (hu : Uniform bins ∨ DetectablyNonUniform bins ∧ DetectablyNonUniform (bins.map (unit s t))) :
    ∃ e e', mkEns (rowCreate histCls) (rowCreate histCls) (histArgs bins rows) none = .ok e ∧
      mkEns (rowCreate histCls) (rowCreate histCls) (histArgs (bins.map (unit s t)) rows) none = .ok e' ∧
      ∀ x : List K, x.Pairwise (· < ·) → ∃ d c : List (List K),
        ensEval histEval e.frozen x = .ok (d.map fun r => r.map fun v => some (.ok v)) ∧
        ensEval histEval e'.frozen (x.map (unit s t)) = .ok (d.map fun r => r.map fun v => some (.ok (v / s))) ∧
        ensEval histCdfElem e.frozen x = .ok (c.map fun r => r.map fun v => .num (some v)) ∧
        ensEval histCdfElem e'.frozen (x.map (unit s t)) = .ok (c.map fun r => r.map fun v => .num (some v)) := by
  obtain ⟨e, h1, -, h3⟩ := C104_hist bins rows hb h2 hlen hm
  obtain ⟨e', h1', -, h3'⟩ := C104_hist (bins.map (unit s t)) rows ((pairwise_unit hs t).2 hb) (by simpa using h2)
    (fun r hr => by rw [List.length_map]; exact hlen r hr)
    (fun r hr => by rw [totalMass_unit hs]; exact mul_ne_zero hs.ne' (hm r hr))
  refine ⟨e, e', h1, h1', fun x hx => ?_⟩
  obtain ⟨hl, hr, hc⟩ := h3 x hx
  obtain ⟨hl', hr', hc'⟩ := h3' (x.map (unit s t)) ((pairwise_unit hs t).2 hx)
  have key : ∀ f f' : List K → K → K, (∀ r ∈ rows, ∀ v, f' r (unit s t v) / totalMass (bins.map (unit s t)) r = f r v / totalMass bins r / s) →
      (rows.map fun r => (x.map (unit s t)).map fun v => (some (.ok (f' r v / totalMass (bins.map (unit s t)) r)) : Option (Except Err K))) =
      (rows.map fun r => x.map fun v => f r v / totalMass bins r).map fun r => r.map fun v => some (.ok (v / s)) := by
    intro f f' h
    rw [List.map_map]
    apply List.map_congr_left
    intro r hr
    simp only [Function.comp, List.map_map]
    apply List.map_congr_left
    intro v _
    simp only [Function.comp, h r hr v]
  have hmass : ∀ r ∈ rows, ∀ v, massUpTo (bins.map (unit s t)) r (unit s t v) / totalMass (bins.map (unit s t)) r = massUpTo bins r v / totalMass bins r := by
    intro r _ v
    rw [massUpTo_unit hs, totalMass_unit hs, mul_div_mul_left _ _ hs.ne']
  have hcc : (rows.map fun r => (x.map (unit s t)).map fun v => (.num (some (massUpTo (bins.map (unit s t)) r v / totalMass (bins.map (unit s t)) r)) : Elem K)) =
      (rows.map fun r => x.map fun v => massUpTo bins r v / totalMass bins r).map fun r => r.map fun v => .num (some v) := by
    rw [List.map_map]
    apply List.map_congr_left
    intro r hr
    simp only [Function.comp, List.map_map]
    apply List.map_congr_left
    intro v _
    simp only [Function.comp, hmass r hr v]
  rcases hu with hu | ⟨hu, hu'⟩
  · refine ⟨rows.map fun r => x.map fun v => stepLeft bins r v / totalMass bins r, rows.map fun r => x.map fun v => massUpTo bins r v / totalMass bins r,
      ?_, ?_, ?_, ?_⟩
    · rw [hl hu]; simp [Function.comp_def]
    · rw [hl' (uniform_unit hs t hu), key (stepLeft bins) (stepLeft (bins.map (unit s t)))]
      intro r _ v
      rw [stepLeft_unit hs, totalMass_unit hs, div_div, mul_comm s]
    · rw [hc]; simp [Function.comp_def]
    · rw [hc', hcc]
  · refine ⟨rows.map fun r => x.map fun v => stepRight bins r v / totalMass bins r, rows.map fun r => x.map fun v => massUpTo bins r v / totalMass bins r,
      ?_, ?_, ?_, ?_⟩
    · rw [hr hu]; simp [Function.comp_def]
    · rw [hr' hu', key (stepRight bins) (stepRight (bins.map (unit s t)))]
      intro r _ v
      rw [stepRight_unit hs, totalMass_unit hs, div_div, mul_comm s]
    · rw [hc]; simp [Function.comp_def]
    · rw [hc', hcc]

/-- **C116: interpolation on a common grid.** The same values on a grid given in the new units: the density is divided by `s`, the CDF at the
grid points after the first is the same. -/
theorem C116_interp (s t : K) (hs : 0 < s) (xs : List K) (rows : List (List K)) (hb : xs.Pairwise (· < ·)) (h2 : 2 ≤ xs.length)
    (hlen : ∀ r ∈ rows, r.length = xs.length) (ha : ∀ r ∈ rows, area xs r ≠ 0) :
    ∃ e e', mkEns (rowCreate interpCls) (rowCreate interpCls) (interpArgs xs rows) none = .ok e ∧
      mkEns (rowCreate interpCls) (rowCreate interpCls) (interpArgs (xs.map (unit s t)) rows) none = .ok e' ∧
      (∀ x : List K, x.Pairwise (· < ·) → ∃ d : List (List K),
        ensEval interpEval e.frozen x = .ok (d.map fun r => r.map fun v => some v) ∧
        ensEval interpEval e'.frozen (x.map (unit s t)) = .ok (d.map fun r => r.map fun v => some (v / s))) ∧
      ∀ x ∈ xs.tail, ∃ c : List (List K),
        ensEval interpCdfEval e.frozen [x] = .ok (c.map fun r => r.map fun v => some v) ∧
        ensEval interpCdfEval e'.frozen [unit s t x] = .ok (c.map fun r => r.map fun v => some v) := by
  obtain ⟨e, h1, -, h3, h4⟩ := C104_interp xs rows hb h2 hlen ha
  obtain ⟨e', h1', -, h3', h4'⟩ := C104_interp (xs.map (unit s t)) rows ((pairwise_unit hs t).2 hb) (by simpa using h2)
    (fun r hr => by rw [List.length_map]; exact hlen r hr)
    (fun r hr => by rw [area_unit hs]; exact mul_ne_zero hs.ne' (ha r hr))
  refine ⟨e, e', h1, h1', fun x hx => ⟨rows.map fun r => x.map fun v => brokenLine xs r v / area xs r, ?_, ?_⟩, fun x hx => ?_⟩
  · rw [h3 x hx]; simp [Function.comp_def]
  · rw [h3' _ ((pairwise_unit hs t).2 hx)]
    simp [Function.comp_def, brokenLine_unit hs, area_unit hs, div_div, mul_comm s]
  · obtain ⟨i, hi, hx⟩ := List.getElem_of_mem hx
    have hx' : xs[i+1]? = some x := by
      rw [List.getElem_tail] at hx
      rw [← hx, List.getElem?_eq_getElem]
    refine ⟨rows.map fun r => [areaTo (i+1) xs r / area xs r], ?_, ?_⟩
    · rw [h4 i x hx']; simp [Function.comp_def]
    · rw [h4' i (unit s t x) (by simp [hx'])]
      simp [Function.comp_def, areaTo_unit hs, area_unit hs, mul_div_mul_left _ _ hs.ne']

/-- **C116: interpolation on separate grids.** Density divided by `s`, CDF the same. -/
theorem C116_irregular (s t : K) (hs : 0 < s) (n : ℕ) (h2 : 2 ≤ n) (rows : List (List K × List K)) (hne : rows ≠ [])
    (hb : ∀ r ∈ rows, r.1.Pairwise (· < ·)) (hx : ∀ r ∈ rows, r.1.length = n) (hy : ∀ r ∈ rows, r.2.length = n)
    (hm : ∀ r ∈ rows, totalMass r.1 r.2.tail ≠ 0) :
    ∃ e e', mkEns (rowCreate irrCls) (rowCreate irrCls) (irrArgs n rows) none = .ok e ∧
      mkEns (rowCreate irrCls) (rowCreate irrCls) (irrArgs n (rows.map fun r => (r.1.map (unit s t), r.2))) none = .ok e' ∧
      ∀ x : List K, x.Pairwise (· < ·) → ∃ d c : List (List K),
        ensEval irrEval e.frozen x = .ok (d.map fun r => r.map fun v => some v) ∧
        ensEval irrEval e'.frozen (x.map (unit s t)) = .ok (d.map fun r => r.map fun v => some (v / s)) ∧
        ensEval irrCdfEval e.frozen x = .ok (c.map fun r => r.map fun v => some v) ∧
        ensEval irrCdfEval e'.frozen (x.map (unit s t)) = .ok (c.map fun r => r.map fun v => some v) := by
  obtain ⟨e, h1, -, h3⟩ := C104_irregular n h2 rows hne hb hx hy hm
  obtain ⟨e', h1', -, h3'⟩ := C104_irregular n h2 (rows.map fun r => (r.1.map (unit s t), r.2)) (by simpa using hne)
    (by intro r hr; obtain ⟨r', hr', rfl⟩ := List.mem_map.1 hr; exact (pairwise_unit hs t).2 (hb r' hr'))
    (by intro r hr; obtain ⟨r', hr', rfl⟩ := List.mem_map.1 hr; simpa using hx r' hr')
    (by intro r hr; obtain ⟨r', hr', rfl⟩ := List.mem_map.1 hr; exact hy r' hr')
    (by intro r hr; obtain ⟨r', hr', rfl⟩ := List.mem_map.1 hr; simp only; rw [totalMass_unit hs]; exact mul_ne_zero hs.ne' (hm r' hr'))
  refine ⟨e, e', h1, h1', fun x hx => ?_⟩
  obtain ⟨hd, hc⟩ := h3 x hx
  obtain ⟨hd', hc'⟩ := h3' _ ((pairwise_unit hs t).2 hx)
  refine ⟨rows.map fun r => x.map fun v => brokenLine r.1 r.2 v / totalMass r.1 r.2.tail,
    rows.map fun r => x.map fun v => massUpTo r.1 r.2.tail v / totalMass r.1 r.2.tail, ?_, ?_, ?_, ?_⟩
  · rw [hd]; simp [Function.comp_def]
  · rw [hd']; simp [Function.comp_def, brokenLine_unit hs, totalMass_unit hs, div_div, mul_comm s]
  · rw [hc]; simp [Function.comp_def]
  · rw [hc']; simp [Function.comp_def, massUpTo_unit hs, totalMass_unit hs, mul_div_mul_left _ _ hs.ne']

/-- **C116: mixtures.** Centres `s * m + t` and widths `s * w`: if the component curve changes by the factor `c` (`1 / s` for a density, one
for a distribution function) so does the mixture. -/
theorem C116_mixture (s t : K) (hs : 0 < s) (c : K) (phi : K → K → K → K)
    (hphi : ∀ m w x, 0 < w → phi (unit s t m) (s * w) (unit s t x) = c * phi m w x) (n : ℕ) (rows : List (List (K × K × K)))
    (hn : ∀ r ∈ rows, r.length = n) (hpos : ∀ r ∈ rows, ∀ c ∈ r, 0 < c.2.1) (hw : ∀ r ∈ rows, ∀ c ∈ r, 0 ≤ c.2.2)
    (hsum : ∀ r ∈ rows, (r.map (·.2.2)).sum ≠ 0) :
    ∃ e e', mkEns (rowCreate mixCls) (rowCreate mixCls) (mixArgs n rows) none = .ok e ∧
      mkEns (rowCreate mixCls) (rowCreate mixCls) (mixArgs n (rows.map fun r => r.map fun p => (unit s t p.1, s * p.2.1, p.2.2))) none = .ok e' ∧
      ∀ x : List K, x.Pairwise (· < ·) → ∃ d : List (List K),
        ensEval (mixRowEval phi) e.frozen x = .ok (d.map fun r => r.map fun v => some v) ∧
        ensEval (mixRowEval phi) e'.frozen (x.map (unit s t)) = .ok (d.map fun r => r.map fun v => some (c * v)) := by
  obtain ⟨e, h1, -, h3⟩ := C104_mixture phi n rows hn hw hsum
  obtain ⟨e', h1', -, h3'⟩ := C104_mixture phi n (rows.map fun r => r.map fun p => (unit s t p.1, s * p.2.1, p.2.2))
    (by intro r hr; obtain ⟨r', hr', rfl⟩ := List.mem_map.1 hr; simpa using hn r' hr')
    (by
      intro r hr p hp
      obtain ⟨r', hr', rfl⟩ := List.mem_map.1 hr
      obtain ⟨p', hp', rfl⟩ := List.mem_map.1 hp
      exact hw r' hr' p' hp')
    (by intro r hr; obtain ⟨r', hr', rfl⟩ := List.mem_map.1 hr; simpa [Function.comp_def] using hsum r' hr')
  refine ⟨e, e', h1, h1', fun x hx => ⟨rows.map fun r => x.map fun v => mixture phi r v, ?_, ?_⟩⟩
  · rw [h3 x hx]; simp [Function.comp_def]
  · rw [h3' _ ((pairwise_unit hs t).2 hx)]
    congr 1
    simp only [List.map_map]
    apply List.map_congr_left
    intro r hr
    simp only [Function.comp, List.map_map]
    apply List.map_congr_left
    intro v _
    simp only [Function.comp, mixture, List.map_map, Option.some.injEq]
    rw [← List.sum_map_mul_left]
    apply congrArg
    apply List.map_congr_left
    intro p hp
    simp only [Function.comp_def]
    rw [hphi _ _ _ (hpos r hr p hp)]
    ring

/-- the normal density and distribution function are of the kind asked for in `C116_mixture` -/
theorem normal_unit (s t : ℝ) (hs : 0 < s) (m w x : ℝ) (_hw : 0 < w) :
    normPdf (unit s t m) (s * w) (unit s t x) = 1 / s * normPdf m w x ∧ normCdf (unit s t m) (s * w) (unit s t x) = 1 * normCdf m w x := by
  have h : (unit s t x - unit s t m) / (s * w) = (x - m) / w := by
    rw [unit_sub hs, mul_div_mul_left _ _ hs.ne']
  unfold normPdf normCdf
  rw [h]
  refine ⟨?_, by ring⟩
  rw [mul_comm s w, ← div_div]
  ring

/-! ### quantiles -/

theorem npInterp_unit {s : K} (hs : 0 < s) (t : K) (kn : List (K × K)) : ∀ (x0 y0 q : K),
    npInterpGo x0 (unit s t y0) (kn.map fun p => (p.1, unit s t p.2)) q = unit s t (npInterpGo x0 y0 kn q) := by
  induction kn with
  | nil => intro x0 y0 q; rfl
  | cons p kn ih =>
    intro x0 y0 q
    simp only [List.map_cons, npInterpGo]
    split_ifs
    · exact ih _ _ _
    · rfl
    · unfold line
      rw [unit_sub hs]
      unfold unit
      ring

/-- interpolated values in the new units -/
theorem interp_unit {s : K} (hs : 0 < s) (t lo hi : K) (kn : List (K × K)) (q : K) :
    interp (unit s t lo) (unit s t hi) (kn.map fun p => (p.1, unit s t p.2)) q = (interp lo hi kn q).map (unit s t) := by
  cases kn with
  | nil => rfl
  | cons p kn =>
    have hlast : (((p.1, unit s t p.2) :: kn.map fun p => (p.1, unit s t p.2)).getLast (by simp)).1 = ((p :: kn).getLast (by simp)).1 := by
      have : ((p.1, unit s t p.2) :: kn.map fun p => (p.1, unit s t p.2)) = (p :: kn).map fun p => (p.1, unit s t p.2) := rfl
      simp only [this, List.getLast_map]
    simp only [List.map_cons, interp]
    rw [hlast]
    split_ifs
    · rfl
    · rfl
    · simp [npInterp_unit hs]

theorem npInterp_unit_x {s : K} (hs : 0 < s) (t : K) (kn : List (K × K)) : ∀ (x0 y0 x : K),
    npInterpGo (unit s t x0) y0 (kn.map fun p => (unit s t p.1, p.2)) (unit s t x) = npInterpGo x0 y0 kn x := by
  induction kn with
  | nil => intro x0 y0 q; rfl
  | cons p kn ih =>
    intro x0 y0 q
    simp only [List.map_cons, npInterpGo, unit_le hs, unit_inj hs, ih]
    have : line (unit s t x0) y0 (unit s t p.1) p.2 (unit s t q) = line x0 y0 p.1 p.2 q := by
      unfold line
      rw [unit_sub hs, unit_sub hs, div_mul_eq_mul_div, div_mul_eq_mul_div, mul_left_comm, mul_div_mul_left _ _ hs.ne']
    rw [this]

/-- interpolation at the same point in the new units -/
theorem interp_unit_x {s : K} (hs : 0 < s) (t lo hi : K) (kn : List (K × K)) (x : K) :
    interp lo hi (kn.map fun p => (unit s t p.1, p.2)) (unit s t x) = interp lo hi kn x := by
  cases kn with
  | nil => rfl
  | cons p kn =>
    have hlast : (((unit s t p.1, p.2) :: kn.map fun p => (unit s t p.1, p.2)).getLast (by simp)).1 = unit s t ((p :: kn).getLast (by simp)).1 := by
      have : ((unit s t p.1, p.2) :: kn.map fun p => (unit s t p.1, p.2)) = (p :: kn).map fun p => (unit s t p.1, p.2) := rfl
      simp only [this, List.getLast_map]
    simp only [List.map_cons, interp, hlast, unit_lt hs, npInterp_unit_x hs]

theorem zip_unit_x (s t : K) (l xs : List K) : ((xs.map (unit s t)).zip l) = (xs.zip l).map fun p => (unit s t p.1, p.2) := by
  rw [List.zip_map_left]
  rfl

theorem zip_unit (s t : K) (l xs : List K) : (l.zip (xs.map (unit s t))) = (l.zip xs).map fun p => (p.1, unit s t p.2) := by
  rw [List.zip_map_right]
  rfl

theorem cumsum_mul (s : K) : ∀ (l : List K) (a : K), cumsumFrom (s * a) (l.map (s * ·)) = (cumsumFrom a l).map (s * ·)
  | [], _ => rfl
  | b :: l, a => by
    have := cumsum_mul s l (a + b)
    simp only [List.map_cons, cumsumFrom, ← mul_add] at this ⊢
    rw [this]

theorem diff_unit {s : K} (hs : 0 < s) (t : K) : ∀ l : List K, diff (l.map (unit s t)) = (diff l).map (s * ·)
  | [] => rfl
  | [_] => rfl
  | a :: b :: l => by
    have := diff_unit hs t (b :: l)
    simp only [List.map_cons, diff, unit_sub hs] at this ⊢
    rw [this]

theorem mul_unit {s : K} (hs : 0 < s) : ∀ p w : List K, Np.mul (p.map (· / s)) (w.map (s * ·)) = Np.mul p w
  | [], _ => by simp [Np.mul]
  | _ :: _, [] => by simp [Np.mul]
  | a :: p, b :: w => by
    have := mul_unit hs p w
    simp only [Np.mul, List.map_cons, List.zipWith_cons_cons] at this ⊢
    rw [this, div_mul_eq_mul_div, mul_left_comm, mul_div_cancel_left₀ _ hs.ne']

theorem histCumul_unit {s : K} (hs : 0 < s) (t : K) (bins p : List K) : histCumul (bins.map (unit s t)) (p.map (· / s)) = histCumul bins p := by
  unfold histCumul binWidths
  rw [diff_unit hs, mul_unit hs]

theorem histNorm_unit {s : K} (hs : 0 < s) (t : K) (bins row : List K) :
    histNormRow (bins.map (unit s t)) row = (histNormRow bins row).map fun p => p.map (· / s) := by
  unfold histNormRow
  simp only [Lemmas.Hist.histSum_eq, totalMass_unit hs, mul_eq_zero, hs.ne', false_or]
  split_ifs
  · rfl
  · simp [div_div, mul_comm s]

theorem centers_unit (s t : K) : ∀ l : List K, edgeToCenter (l.map (unit s t)) = (edgeToCenter l).map (unit s t)
  | [] => rfl
  | [_] => rfl
  | a :: b :: l => by
    have := centers_unit s t (b :: l)
    simp only [List.map_cons, edgeToCenter] at this ⊢
    rw [this]
    have : (1 / 2 : K) * (unit s t b + unit s t a) = unit s t (1 / 2 * (b + a)) := by unfold unit; ring
    rw [this]

theorem moment_unit {s : K} (hs : 0 < s) (t w : K) : ∀ (c p : List K),
    Np.sum (Np.mul ((c.map (unit s t)).map (· ^ 1)) (p.map (· / s))) * (s * w) =
      s * (Np.sum (Np.mul (c.map (· ^ 1)) p) * w) + t * (Np.sum (Np.mul (c.map (· ^ 0)) p) * w)
  | [], _ => by simp [Np.mul, Np.sum]
  | _ :: _, [] => by simp [Np.mul, Np.sum]
  | c :: cs, a :: p => by
    have := moment_unit hs t w cs p
    simp only [Np.mul, Np.sum, List.map_cons, List.zipWith_cons_cons, List.foldr_cons, pow_one, pow_zero] at this ⊢
    rw [add_mul, this]
    have h : unit s t c * (a / s) * (s * w) = (s * c + t) * a * w := by
      unfold unit
      field_simp
    rw [h]; ring

/-- **C116: quantiles and mean of a histogram.** In the new units the quantiles are the old ones in the new units; so is the mean of equal bins. -/
theorem C116_hist_quantiles (s t : K) (hs : 0 < s) (bins row p : List K) (hp : histNormRow bins row = some p) :
    ∃ p', histNormRow (bins.map (unit s t)) row = some p' ∧ (∀ q, histPpf (bins.map (unit s t)) p' q = (histPpf bins p q).map (unit s t)) ∧
      (Grid bins row.length → Uniform bins → ∀ m, histMoment bins p 1 = .ok m → histMoment (bins.map (unit s t)) p' 1 = .ok (unit s t m)) := by
  refine ⟨p.map (· / s), by rw [histNorm_unit hs, hp]; rfl, fun q => ?_, fun hg hu m hm => ?_⟩
  · cases bins with
    | nil => rfl
    | cons b0 l =>
      simp only [histPpf]
      have hc := histCumul_unit hs t (b0 :: l) p
      rw [List.map_cons] at hc
      rw [← interp_unit hs, ← zip_unit, ← hc]
      simp only [List.map_cons]
      congr 1
      have : unit s t b0 :: l.map (unit s t) = (b0 :: l).map (unit s t) := rfl
      simp only [this, List.getLast_map]
  · have h1 : totalMass bins p = 1 := by
      have h0 : totalMass bins row ≠ 0 := by
        intro h0
        rw [(C07_row_normalised bins row).1 h0] at hp
        exact absurd hp (by simp)
      obtain ⟨p2, h2, h3, -⟩ := (C07_row_normalised bins row).2 h0
      rw [hp] at h2
      rw [Option.some.inj h2]
      exact h3
    have hl : p.length = row.length := by
      unfold histNormRow at hp
      split at hp
      · exact absurd hp (by simp)
      · rw [← Option.some.inj hp]; simp
    have h0 := (C11_moments_partial bins p (by rw [hl]; exact hg) hu h1).1
    match bins, hm, h0 with
    | b0 :: b1 :: l, hm, h0 =>
      simp only [histMoment, Except.ok.injEq] at hm h0
      have hc := centers_unit s t (b0 :: b1 :: l)
      simp only [List.map_cons] at hc
      simp only [histMoment, List.map_cons, hc, unit_sub hs, Except.ok.injEq]
      rw [moment_unit hs, hm, h0]
      unfold unit
      ring

theorem trapezoids_unit {s : K} (hs : 0 < s) (t : K) : ∀ xs ys : List K, trapezoids (xs.map (unit s t)) ys = (trapezoids xs ys).map (s * ·)
  | [], _ => by simp [trapezoids]
  | [_], _ => by simp [trapezoids]
  | _ :: _ :: _, [] => by simp [trapezoids]
  | _ :: _ :: _, [_] => by simp [trapezoids]
  | a :: b :: xs, u :: v :: ys => by
    have := trapezoids_unit hs t (b :: xs) (v :: ys)
    simp only [List.map_cons, trapezoids, unit_sub hs] at this ⊢
    rw [this]
    congr 1
    ring

/-- **C116: distribution function and quantiles of an interpolated PDF**, between the grid points as well. -/
theorem C116_interp_quantiles (s t : K) (hs : 0 < s) (xs row ys c : List K) (h : interpNormRow xs row = .ok (some (ys, c))) :
    interpNormRow (xs.map (unit s t)) row = .ok (some (ys.map (· / s), c)) ∧
      (∀ x, interpCdf (xs.map (unit s t)) c (unit s t x) = interpCdf xs c x) ∧
      ∀ q, interpPpf (xs.map (unit s t)) c q = (interpPpf xs c q).map (unit s t) := by
  refine ⟨?_, fun x => ?_, fun q => ?_⟩
  · match xs, row, h with
    | [], _, h => simp [interpNormRow, interpCumul] at h
    | [_], _, h => simp [interpNormRow, interpCumul] at h
    | _ :: _ :: _, [], h => simp [interpNormRow, interpCumul] at h
    | a :: b :: xs, u :: r, h =>
      have ht := trapezoids_unit hs t (a :: b :: xs) (u :: r)
      have hc := cumsum_mul s (trapezoids (a :: b :: xs) (u :: r)) 0
      rw [mul_zero] at hc
      have hcum : interpCumul ((a :: b :: xs).map (unit s t)) (u :: r) =
          .ok ((1 / 2 * u * (b - a) :: cumsum (trapezoids (a :: b :: xs) (u :: r))).map (s * ·)) := by
        simp only [List.map_cons] at ht
        simp only [List.map_cons, interpCumul, ht, cumsum, hc, unit_sub hs]
        congr 2
        ring
      obtain ⟨L, hL⟩ : ∃ L, L = 1 / 2 * u * (b - a) :: cumsum (trapezoids (a :: b :: xs) (u :: r)) := ⟨_, rfl⟩
      have h1 : interpCumul (a :: b :: xs) (u :: r) = .ok L := by rw [hL]; rfl
      rw [← hL] at hcum
      simp only [interpNormRow, h1, hcum, List.getLast?_map] at h ⊢
      cases hl : L.getLast? with
      | none => rw [hl] at h; simp at h
      | some v =>
        rw [hl] at h
        simp only [Option.map_some, Except.ok.injEq, mul_eq_zero, hs.ne', false_or] at h ⊢
        split_ifs at h ⊢
        · simp only [Option.some.injEq, Prod.mk.injEq] at h ⊢
          rw [← h.1, ← h.2]
          simp only [List.map_map]
          refine ⟨List.map_congr_left fun y _ => ?_, List.map_congr_left fun y _ => ?_⟩
          · simp [div_div, mul_comm s]
          · simp [mul_div_mul_left _ _ hs.ne']
  · unfold interpCdf
    rw [zip_unit_x, interp_unit_x hs]
  · cases xs with
    | nil => rfl
    | cons b0 l =>
      simp only [interpPpf]
      rw [← interp_unit hs, ← zip_unit]
      simp only [List.map_cons]
      congr 1
      have : unit s t b0 :: l.map (unit s t) = (b0 :: l).map (unit s t) := rfl
      simp only [this, List.getLast_map]

/-- the mean reported for an interpolated PDF in the new units, for any normalisation of the rectangle sum of order zero -/
theorem interpMoment_unit (s t : K) (hs : 0 < s) (xs ys : List K) (m0 m1 : K) (h0 : interpMoment xs ys 0 = .ok m0) (h1 : interpMoment xs ys 1 = .ok m1) :
    interpMoment (xs.map (unit s t)) (ys.map (· / s)) 1 = .ok (s * m1 + t * m0) := by
  match xs, h0, h1 with
  | a :: b :: l, h0, h1 =>
    simp only [interpMoment, Except.ok.injEq] at h0 h1
    have := moment_unit hs t (b - a) (a :: b :: l) ys
    simp only [interpMoment, List.map_cons, unit_sub hs, Except.ok.injEq] at this ⊢
    rw [this]
    simp only [List.map_cons] at h0 h1
    rw [h0, h1]

theorem rightRects_unit {s : K} (hs : 0 < s) (t : K) : ∀ xs ys : List K, rightRects (xs.map (unit s t)) ys = (rightRects xs ys).map (s * ·)
  | [], _ => by simp [rightRects]
  | [_], _ => by simp [rightRects]
  | _ :: _ :: _, [] => by simp [rightRects]
  | _ :: _ :: _, [_] => by simp [rightRects]
  | a :: b :: xs, u :: v :: ys => by
    have := rightRects_unit hs t (b :: xs) (v :: ys)
    simp only [List.map_cons, rightRects] at this ⊢
    rw [this]
    congr 1
    unfold unit
    ring

theorem rightRects_div (s : K) : ∀ xs ys : List K, rightRects xs (ys.map (· / s)) = (rightRects xs ys).map (· / s)
  | [], _ => by simp [rightRects]
  | [_], _ => by simp [rightRects]
  | _ :: _ :: _, [] => by simp [rightRects]
  | _ :: _ :: _, [_] => by simp [rightRects]
  | a :: b :: xs, u :: v :: ys => by
    have := rightRects_div s (b :: xs) (v :: ys)
    simp only [List.map_cons, rightRects] at this ⊢
    rw [this]
    congr 1
    ring

theorem sum_mul (s : K) (l : List K) : Np.sum (l.map (s * ·)) = s * Np.sum l := by
  induction l with
  | nil => simp [Np.sum]
  | cons a l ih => simp only [Np.sum, List.map_cons, List.foldr_cons] at ih ⊢; rw [ih]; ring

/-- **C116: quantiles of a PDF on its own grid.** The bounds are the ends of the grids of all PDFs. -/
theorem C116_irregular_quantiles (s t : K) (hs : 0 < s) (xs row ys : List K) (h : irrNormRow xs row = some ys) :
    ∃ ys', irrNormRow (xs.map (unit s t)) row = some ys' ∧
      (∀ x, irrCdf (xs.map (unit s t)) ys' (unit s t x) = irrCdf xs ys x) ∧
      ∀ xmin xmax q, irrPpf (unit s t xmin) (unit s t xmax) (xs.map (unit s t)) ys' q = (irrPpf xmin xmax xs ys q).map (unit s t) := by
  have hc : irrCumul (xs.map (unit s t)) (ys.map (· / s)) = irrCumul xs ys := by
    unfold irrCumul
    rw [rightRects_unit hs, rightRects_div, List.map_map]
    congr 2
    conv_rhs => rw [← List.map_id (rightRects xs ys)]
    apply List.map_congr_left
    intro v _
    simp [mul_div_cancel₀ _ hs.ne']
  refine ⟨ys.map (· / s), ?_, fun x => ?_, fun xmin xmax q => ?_⟩
  · unfold irrNormRow at h ⊢
    simp only [rightRects_unit hs, sum_mul, mul_eq_zero, hs.ne', false_or] at h ⊢
    split_ifs at h ⊢
    rw [← Option.some.inj h]
    simp [div_div, mul_comm s]
  · unfold irrCdf
    rw [hc, zip_unit_x, interp_unit_x hs]
  · unfold irrPpf
    rw [hc, zip_unit, interp_unit hs]

theorem padRow_unit (s t : K) (lo hi : Bool) (q l : List K) : padRow lo hi q (l.map (unit s t)) = (padRow lo hi q l).map (List.map (unit s t)) := by
  have h1 : padLo q (l.map (unit s t)) = (padLo q l).map (unit s t) := by
    match q, l with
    | [], _ => rfl
    | [_], _ => rfl
    | _ :: _ :: _, [] => rfl
    | _ :: _ :: _, [_] => rfl
    | q0 :: q1 :: q, l0 :: l1 :: l =>
      simp only [List.map_cons, padLo, Option.map_some, Option.some.injEq]
      unfold unit
      ring
  have h2 : ∀ q l : List K, padHi q (l.map (unit s t)) = (padHi q l).map (unit s t) := by
    intro q l
    match q, l with
    | [], _ => rfl
    | [_], _ => rfl
    | _ :: _ :: _, [] => rfl
    | _ :: _ :: _, [_] => rfl
    | q0 :: q1 :: q, l0 :: l1 :: l =>
      simp only [List.map_cons, padHi, Option.map_some, Option.some.injEq]
      unfold unit
      ring
  unfold padRow
  rw [h1, ← List.map_reverse, h2]
  cases lo <;> cases hi <;> cases padLo q l <;> cases padHi q.reverse l.reverse <;> simp

/-- **C116: quantile PDFs.** The locations in the new units are padded in the new units; distribution function and quantiles follow, for every
interpolant that does not depend on the units (a quadratic spline through the points does not). -/
theorem C116_quantiles (s t : K) (hs : 0 < s) (spl : List (K × K) → K → K)
    (hx : ∀ kn x, spl (kn.map fun p => (unit s t p.1, p.2)) (unit s t x) = spl kn x)
    (hy : ∀ kn q, kn ≠ [] → spl (kn.map fun p => (p.1, unit s t p.2)) q = unit s t (spl kn q))
    (quants qs : List K) (locs ls : List (List K)) (ci : Bool) (h : quantInit quants locs ci = .ok (qs, ls)) :
    quantInit quants (locs.map (List.map (unit s t))) ci = .ok (qs, ls.map (List.map (unit s t))) ∧
      ∀ l ∈ ls, (∀ x, quantCdf spl qs (l.map (unit s t)) (unit s t x) = quantCdf spl qs l x) ∧
        ∀ lo hi q, quantPpf spl (unit s t lo) (unit s t hi) qs (l.map (unit s t)) q = (quantPpf spl lo hi qs l q).map (unit s t) := by
  have hpad : padQuantiles quants (locs.map (List.map (unit s t))) = (padQuantiles quants locs).map fun r => (r.1, r.2.map (List.map (unit s t))) := by
    unfold padQuantiles
    split
    · rename_i q0 qn _ _
      have ha : (locs.map (List.map (unit s t))).any (fun r => decide (r.length ≠ quants.length ∧ r.length ≠ 1)) =
          locs.any (fun r => decide (r.length ≠ quants.length ∧ r.length ≠ 1)) := by
        rw [List.any_map]
        congr 1
        funext r
        simp
      have hm : ∀ lo hi, (locs.map (List.map (unit s t))).mapM (padRow lo hi quants) = (locs.mapM (padRow lo hi quants)).map (List.map (List.map (unit s t))) := by
        intro lo hi
        clear ha h
        induction locs with
        | nil => rfl
        | cons r l ih =>
          simp only [List.map_cons, List.mapM_cons, padRow_unit, ih]
          cases padRow lo hi quants r <;> simp
          cases l.mapM (padRow lo hi quants) <;> simp
      simp only [ha, hm]
      generalize locs.mapM (padRow _ _ quants) = o
      split_ifs <;> first | rfl | (cases o <;> rfl)
    · rfl
  have hlen : ∀ l ∈ ls, l.length = qs.length := by
    intro l hl
    unfold quantInit at h
    cases hq : (if ci = true then padQuantiles quants locs else .ok (quants, locs)) with
    | error e => rw [hq] at h; simp at h
    | ok r =>
      rw [hq] at h
      simp only at h
      split_ifs at h with ha
      simp only [Except.ok.injEq, Prod.mk.injEq] at h
      rw [← h.1]
      rw [← h.2] at hl
      by_contra hn
      exact ha (List.any_eq_true.2 ⟨l, hl, by simpa using hn⟩)
  refine ⟨?_, fun l hl => ⟨fun x => ?_, fun lo hi q => ?_⟩⟩
  · unfold quantInit at h ⊢
    rw [hpad]
    have : (if ci = true then (padQuantiles quants locs).map (fun r => (r.1, r.2.map (List.map (unit s t)))) else .ok (quants, locs.map (List.map (unit s t)))) =
        (if ci = true then padQuantiles quants locs else .ok (quants, locs)).map fun r => (r.1, r.2.map (List.map (unit s t))) := by
      split_ifs <;> rfl
    rw [this]
    cases hq : (if ci = true then padQuantiles quants locs else .ok (quants, locs)) with
    | error e => rw [hq] at h; simp at h
    | ok r =>
      rw [hq] at h
      simp only [Except.map] at h ⊢
      have ha : (r.2.map (List.map (unit s t))).any (fun a => decide (a.length ≠ r.1.length)) = r.2.any (fun a => decide (a.length ≠ r.1.length)) := by
        rw [List.any_map]
        congr 1
        funext r
        simp
      rw [ha]
      split_ifs at h ⊢
      simp only [Except.ok.injEq, Prod.mk.injEq] at h
      rw [← h.1, ← h.2]
  · cases l with
    | nil => rfl
    | cons l0 l =>
      have hlast : (unit s t l0 :: l.map (unit s t)).getLast (by simp) = unit s t ((l0 :: l).getLast (by simp)) := by
        have : unit s t l0 :: l.map (unit s t) = (l0 :: l).map (unit s t) := rfl
        simp only [this, List.getLast_map]
      have hz := zip_unit_x s t qs (l0 :: l)
      rw [List.map_cons] at hz
      simp only [List.map_cons, quantCdf, hlast, unit_lt hs, hz, hx]
  · cases qs with
    | nil => rfl
    | cons q0 qs =>
      have hl0 := hlen l hl
      have hne : (q0 :: qs).zip l ≠ [] := by
        cases l with
        | nil => simp at hl0
        | cons a l => simp
      simp only [quantPpf, zip_unit, hy _ q hne]
      split_ifs <;> rfl

/-! ### quantiles of Gaussian mixtures -/

/-- a mixture with means and widths in the new units -/
noncomputable def GMix.unit (s t : ℝ) (r : GMix) : GMix := ⟨r.w, r.μs.map (Units.unit s t), r.σs.map (s * ·)⟩

theorem linspace_unit (s t lo hi : ℝ) (n : ℕ) : linspace (unit s t lo) (unit s t hi) n = (linspace lo hi n).map (unit s t) := by
  unfold linspace
  rw [List.map_map]
  apply List.map_congr_left
  intro i _
  simp only [Function.comp]
  split_ifs
  · rfl
  · unfold unit
    ring

theorem min?_unit {s : ℝ} (hs : 0 < s) (t : ℝ) (l : List ℝ) : (l.map (unit s t)).min? = l.min?.map (unit s t) := by
  cases l with
  | nil => rfl
  | cons a l =>
    simp only [List.map_cons, List.min?_cons', Option.map_some, Option.some.injEq]
    induction l generalizing a with
    | nil => rfl
    | cons b l ih =>
      simp only [List.map_cons, List.foldl_cons]
      have : min (unit s t a) (unit s t b) = unit s t (min a b) := by
        rcases le_total a b with h | h
        · rw [min_eq_left h, min_eq_left ((unit_le hs t).2 h)]
        · rw [min_eq_right h, min_eq_right ((unit_le hs t).2 h)]
      rw [this, ih]

theorem max?_unit {s : ℝ} (hs : 0 < s) (t : ℝ) (l : List ℝ) : (l.map (unit s t)).max? = l.max?.map (unit s t) := by
  cases l with
  | nil => rfl
  | cons a l =>
    simp only [List.map_cons, List.max?_cons', Option.map_some, Option.some.injEq]
    induction l generalizing a with
    | nil => rfl
    | cons b l ih =>
      simp only [List.map_cons, List.foldl_cons]
      have : max (unit s t a) (unit s t b) = unit s t (max a b) := by
        rcases le_total a b with h | h
        · rw [max_eq_right h, max_eq_right ((unit_le hs t).2 h)]
        · rw [max_eq_left h, max_eq_left ((unit_le hs t).2 h)]
      rw [this, ih]

theorem zipWith_unit (s t c : ℝ) : ∀ μs σs : List ℝ, List.zipWith (fun m w => m + c * w) (μs.map (unit s t)) (σs.map (s * ·)) =
    (List.zipWith (fun m w => m + c * w) μs σs).map (unit s t)
  | [], _ => rfl
  | _ :: _, [] => rfl
  | m :: μs, w :: σs => by
    have := zipWith_unit s t c μs σs
    simp only [List.map_cons, List.zipWith_cons_cons, this]
    congr 1
    unfold unit
    ring

theorem flat_unit (s t c : ℝ) (rows : List GMix) : ((rows.map (GMix.unit s t)).flatMap fun r => List.zipWith (fun m w => m + c * w) r.μs r.σs) =
    (rows.flatMap fun r => List.zipWith (fun m w => m + c * w) r.μs r.σs).map (unit s t) := by
  rw [List.flatMap_map, List.map_flatMap]
  congr 1
  funext r
  exact zipWith_unit s t c r.μs r.σs

theorem gmixCdf_unit {s : ℝ} (hs : 0 < s) (t x : ℝ) : ∀ (w μs σs : List ℝ), (∀ v ∈ σs, 0 < v) →
    gmixCdf w (μs.map (unit s t)) (σs.map (s * ·)) (unit s t x) = gmixCdf w μs σs x
  | [], _, _, _ => by simp [gmixCdf, mixEval]
  | _ :: _, [], _, _ => by simp [gmixCdf, mixEval]
  | _ :: _, _ :: _, [], _ => by simp [gmixCdf, mixEval]
  | a :: w, m :: μs, v :: σs, hpos => by
    have ih := gmixCdf_unit hs t x w μs σs (fun u hu => hpos u (by simp [hu]))
    have hn := (normal_unit s t hs m v x (hpos v (by simp))).2
    simp only [gmixCdf, mixEval, Np.sum, List.map_cons, List.zipWith_cons_cons, List.foldr_cons] at ih ⊢
    rw [ih, hn, one_mul]

/-- **C116: quantiles of Gaussian mixtures**, of every PDF of an ensemble with at least one component. -/
theorem C116_mixture_quantiles (s t : ℝ) (hs : 0 < s) (rows : List GMix) (r : GMix) (hr : r ∈ rows) (hpos : ∀ v ∈ r.σs, 0 < v)
    (hμ : r.μs ≠ []) (hσ : r.σs ≠ []) (q : ℝ) :
    gmixPpfIn (rows.map (GMix.unit s t)) (GMix.unit s t r) q = (gmixPpfIn rows r q).map (unit s t) := by
  have hmem : (rows.flatMap fun r => List.zipWith (fun m w => m - 6 * w) r.μs r.σs) ≠ [] := by
    intro h
    rw [List.flatMap_eq_nil_iff] at h
    have := h r hr
    rw [List.zipWith_eq_nil_iff] at this
    exact this.elim hμ hσ
  have hmem' : (rows.flatMap fun r => List.zipWith (fun m w => m + 6 * w) r.μs r.σs) ≠ [] := by
    intro h
    rw [List.flatMap_eq_nil_iff] at h
    have := h r hr
    rw [List.zipWith_eq_nil_iff] at this
    exact this.elim hμ hσ
  have hlo : gmixLo (rows.map (GMix.unit s t)) = unit s t (gmixLo rows) := by
    unfold gmixLo
    have hf := flat_unit s t (-6) rows
    simp only [neg_mul, ← sub_eq_add_neg] at hf
    rw [hf, min?_unit hs]
    cases hm : (rows.flatMap fun r => List.zipWith (fun m w => m - 6 * w) r.μs r.σs).min? with
    | none => exact absurd (List.min?_eq_none_iff.1 hm) hmem
    | some v => rfl
  have hhi : gmixHi (rows.map (GMix.unit s t)) = unit s t (gmixHi rows) := by
    unfold gmixHi
    rw [flat_unit s t 6 rows, max?_unit hs]
    cases hm : (rows.flatMap fun r => List.zipWith (fun m w => m + 6 * w) r.μs r.σs).max? with
    | none => exact absurd (List.max?_eq_none_iff.1 hm) hmem'
    | some v => rfl
  unfold gmixPpfIn gmixPpf gmixGrid
  rw [hlo, hhi, linspace_unit, List.map_map]
  have hc : (linspace (gmixLo rows) (gmixHi rows) 201).map (gmixCdf (GMix.unit s t r).w (GMix.unit s t r).μs (GMix.unit s t r).σs ∘ unit s t) =
      (linspace (gmixLo rows) (gmixHi rows) 201).map (gmixCdf r.w r.μs r.σs) := by
    apply List.map_congr_left
    intro x _
    exact gmixCdf_unit hs t x _ _ _ hpos
  rw [hc, zip_unit, interp_unit hs]

/-! ### where it fails -/

/-- **C116 is violated** by histograms with unequal bins in large units: contents `[1, 1]` on the edges `[0, 1, 3]` have the density `1/3` at
`5/2`; with the edges (and the point) multiplied by `1e-9` the density there is reported as 0. -/
theorem C116_small_units_wrong : ∃ (bins row p p' : List ℚ) (s x : ℚ), 0 < s ∧ bins.Pairwise (· < ·) ∧ (∀ v ∈ row, 0 < v) ∧
    histNormRow bins row = some p ∧ histNormRow (bins.map (unit s 0)) row = some p' ∧
    histPdf bins p x = .ok (1 / 3) ∧ histPdf (bins.map (unit s 0)) p' (unit s 0 x) = .ok 0 :=
  ⟨[0, 1, 3], [1, 1], [1/3, 1/3], [1000000000/3, 1000000000/3], 1/1000000000, 5/2, by decide +kernel, by decide +kernel, by decide +kernel,
    by decide +kernel, by decide +kernel, by decide +kernel, by decide +kernel⟩

/-- **C116 is violated** by the mean of interpolated PDFs: for the flat PDF on `[0, 1]` given by its two ends the mean is reported as 1, for
that on `[1, 2]` as 3. -/
theorem C116_interp_mean_wrong : ∃ (xs row ys ys' c c' : List ℚ), interpNormRow xs row = .ok (some (ys, c)) ∧
    interpNormRow (xs.map (unit 1 1)) row = .ok (some (ys', c')) ∧ interpMoment xs ys 1 = .ok 1 ∧ interpMoment (xs.map (unit 1 1)) ys' 1 = .ok 3 :=
  ⟨[0, 1], [1, 1], [1, 1], [1, 1], [1/2, 1], [1/2, 1], by decide +kernel, by decide +kernel, by decide +kernel, by decide +kernel⟩

/-! ### examples -/

/-- unequal bins, in units ten times smaller -/
example : ([0, 1, 3] : List ℚ).Pairwise (· < ·) ∧ totalMass ([0, 1, 3] : List ℚ) [1, 2] = 5 ∧ DetectablyNonUniform ([0, 1, 3] : List ℚ) ∧
    DetectablyNonUniform (([0, 1, 3] : List ℚ).map (unit 10 0)) := by
  have h : DetectablyNonUniform ([0, 1, 3] : List ℚ) := ⟨0, 1, 1, 1, 3, rfl, rfl, rfl, rfl, by decide +kernel⟩
  exact ⟨by decide +kernel, by decide +kernel, h, nonuniform_unit (by norm_num) 0 (by norm_num) h⟩

/-- equal bins from 2 to 4 instead of 0 to 1: quantiles and mean -/
example : histNormRow ([0, 1/2, 1] : List ℚ) [1, 3] = some [1/2, 3/2] ∧ ([0, 1/2, 1] : List ℚ).map (unit 2 2) = [2, 3, 4] ∧
    histPpf ([0, 1/2, 1] : List ℚ) [1/2, 3/2] (5/8) = some (3/4) ∧ histPpf ([2, 3, 4] : List ℚ) [1/4, 3/4] (5/8) = some (7/2) ∧
    histMoment ([0, 1/2, 1] : List ℚ) [1/2, 3/2] 1 = .ok (5/8) ∧ histMoment ([2, 3, 4] : List ℚ) [1/4, 3/4] 1 = .ok (13/4) := by
  refine ⟨by decide +kernel, by decide +kernel, by decide +kernel, by decide +kernel, by decide +kernel, by decide +kernel⟩

/-- the broken line through the points is an interpolant that does not depend on the units -/
example (s t : ℚ) (hs : 0 < s) : ∃ spl : List (ℚ × ℚ) → ℚ → ℚ, (∀ kn x, spl (kn.map fun p => (unit s t p.1, p.2)) (unit s t x) = spl kn x) ∧
    (∀ kn q, kn ≠ [] → spl (kn.map fun p => (p.1, unit s t p.2)) q = unit s t (spl kn q)) := by
  refine ⟨fun kn x => kn.head?.elim 0 fun p => npInterpGo p.1 p.2 kn.tail x, fun kn x => ?_, fun kn q hk => ?_⟩
  · cases kn with
    | nil => rfl
    | cons p kn => exact npInterp_unit_x hs t kn _ _ _
  · cases kn with
    | nil => exact absurd rfl hk
    | cons p kn => exact npInterp_unit hs t kn _ _ _

/-- two normal components, from degrees Celsius to degrees Fahrenheit -/
example : ∃ e e', mkEns (rowCreate mixCls) (rowCreate mixCls) (mixArgs 2 [[((0 : ℝ), 1, 1), (3, 2, 1)]]) none = .ok e ∧
    mkEns (rowCreate mixCls) (rowCreate mixCls) (mixArgs 2 [[(unit (9/5) 32 (0 : ℝ), 9/5 * 1, 1), (unit (9/5) 32 3, 9/5 * 2, 1)]]) none = .ok e' ∧
    ∀ x : List ℝ, x.Pairwise (· < ·) → ∃ d : List (List ℝ),
      ensEval (mixRowEval normPdf) e.frozen x = .ok (d.map fun r => r.map fun v => some v) ∧
      ensEval (mixRowEval normPdf) e'.frozen (x.map (unit (9/5) 32)) = .ok (d.map fun r => r.map fun v => some (1 / (9/5) * v)) :=
  C116_mixture (9/5) 32 (by norm_num) (1 / (9/5)) normPdf (fun m w x hw => (normal_unit _ _ (by norm_num) m w x hw).1) 2
    [[(0, 1, 1), (3, 2, 1)]] (by simp)
    (by intro r hr p hp; simp only [List.mem_singleton] at hr; subst hr; simp at hp; rcases hp with rfl | rfl <;> norm_num)
    (by intro r hr p hp; simp only [List.mem_singleton] at hr; subst hr; simp at hp; rcases hp with rfl | rfl <;> norm_num) (by norm_num)

end Verif.Props.Units
