import Verif.Lemmas.CubicSpline
import Verif.Props.QuadSplineMono

/-!
# C140: the cubic spline through points

Specification: `Spec/CubicSpline.lean`.
-/

set_option linter.unusedSectionVars false
set_option autoImplicit false

namespace Verif.Props.CubicSpline

open Verif Verif.Np Verif.Model Verif.Spec Verif.Lemmas.CubicSpline

variable {K : Type} [Field K] [LinearOrder K] [IsStrictOrderedRing K]

theorem sorted3 {p0 p1 p2 : K × K} {t : List (K × K)} (hs : ((p0 :: p1 :: p2 :: t).map Prod.fst).Pairwise (· < ·)) :
    p0.1 < p1.1 ∧ p1.1 < p2.1 ∧ (p2.1 :: t.map Prod.fst).Pairwise (· < ·) := by
  simp only [List.map_cons] at hs
  exact ⟨(List.pairwise_cons.1 hs).1 _ (by simp), (List.pairwise_cons.1 (List.pairwise_cons.1 hs).2).1 _ (by simp), (List.pairwise_cons.1 (List.pairwise_cons.1 hs).2).2⟩

/-- the curve goes through the points, however many there are -/
theorem through (pts : List (K × K)) (hs : (pts.map Prod.fst).Pairwise (· < ·)) : ∀ p ∈ pts, cubSpline pts p.1 = p.2 := by
  match pts with
  | [] => simp
  | [p0] => simp [cubSpline]
  | [p0, p1] =>
    have h : p1.1 - p0.1 ≠ 0 := (sub_pos.2 ((List.pairwise_cons.1 hs).1 p1.1 (by simp))).ne'
    simp only [List.mem_cons, List.not_mem_nil, or_false, forall_eq_or_imp, forall_eq, cubSpline]
    constructor
    · ring
    · field_simp
      ring
  | [p0, p1, p2] =>
    obtain ⟨h01, h12, -⟩ := sorted3 hs
    obtain ⟨f0, f1⟩ := first_through p0 p1 p2 h01 h12 (cubStart p0 p1 p2 [])
    simp only [List.mem_cons, List.not_mem_nil, or_false, forall_eq_or_imp, forall_eq, cubSpline, cubFrom]
    exact ⟨f0, f1, by simp [cubVal]⟩
  | [p0, p1, p2, p3] =>
    obtain ⟨h01, h12, -⟩ := sorted3 hs
    obtain ⟨f0, f1⟩ := first_through p0 p1 p2 h01 h12 (cubStart p0 p1 p2 [p3])
    have h3 := (start_iff p0 p1 p2 _ [p3] (by simp) hs).2 rfl
    simp only [cubStartMiss] at h3
    simp only [List.mem_cons, List.not_mem_nil, or_false, forall_eq_or_imp, forall_eq, cubSpline, cubFrom]
    exact ⟨f0, f1, by simp [cubVal], sub_eq_zero.1 h3⟩
  | p0 :: p1 :: p2 :: p3 :: p4 :: t =>
    obtain ⟨h01, h12, hs2⟩ := sorted3 hs
    obtain ⟨f0, f1⟩ := first_through p0 p1 p2 h01 h12 (cubStart p0 p1 p2 (p3 :: p4 :: t))
    have h3 := (start_iff p0 p1 p2 _ (p3 :: p4 :: t) (by simp) hs).2 rfl
    simp only [cubStartMiss] at h3
    intro p hp
    simp only [cubSpline, cubFrom]
    rcases List.mem_cons.1 hp with rfl | hp
    · rw [if_pos (h01.trans h12).le]; exact f0
    rcases List.mem_cons.1 hp with rfl | hp
    · rw [if_pos h12.le]; exact f1
    rcases List.mem_cons.1 hp with rfl | hp
    · rw [if_pos le_rfl]; simp [cubVal]
    · have hlt := (List.pairwise_cons.1 hs2).1 p.1 (List.mem_map.2 ⟨p, hp, rfl⟩)
      rw [if_neg (not_le.2 hlt)]
      exact go_through _ _ _ _ _ hs2 h3 p hp

/-- slope of the curve -/
def slopeOf (p0 p1 p2 : K × K) (α : K) : List (K × K) → K → K
  | p3 :: p4 :: t, x =>
    if x ≤ p2.1 then cubSlope p2.1 (firstSlope p0 p1 p2 α) (firstBend p0 p1 p2 α) α x
    else slopeGo p2.1 p2.2 (firstSlope p0 p1 p2 α) (firstBend p0 p1 p2 α) (p3 :: p4 :: t) x
  | _, x => cubSlope p2.1 (firstSlope p0 p1 p2 α) (firstBend p0 p1 p2 α) α x

/-- half the second derivative of the curve -/
def bendOf (p0 p1 p2 : K × K) (α : K) : List (K × K) → K → K
  | p3 :: p4 :: t, x =>
    if x ≤ p2.1 then cubBend p2.1 (firstBend p0 p1 p2 α) α x
    else bendGo p2.1 p2.2 (firstSlope p0 p1 p2 α) (firstBend p0 p1 p2 α) (p3 :: p4 :: t) x
  | _, x => cubBend p2.1 (firstBend p0 p1 p2 α) α x

/-- **C140: there is such a curve.** For at least four points with increasing abscissae the computed curve goes through all the points and consists of cubics that fit together
in value, slope and curvature at the break points. -/
theorem C140_exists (pts : List (K × K)) (hs : (pts.map Prod.fst).Pairwise (· < ·)) (hn : 4 ≤ pts.length) : CubicSpline pts (cubSpline pts) := by
  refine ⟨through pts hs, ?_⟩
  match pts, hn with
  | [p0, p1, p2, p3], _ =>
    refine ⟨slopeOf p0 p1 p2 (cubStart p0 p1 p2 [p3]) [p3], fun x => 2 * bendOf p0 p1 p2 (cubStart p0 p1 p2 [p3]) [p3] x, ?_⟩
    simp only [List.map_cons, List.map_nil]
    rw [cubicBreaks_four]
    simp only [List.isChain_cons_cons, List.IsChain.singleton, and_true]
    have : p0.1 < p3.1 := (List.pairwise_cons.1 hs).1 _ (by simp)
    exact piece_of_cubic this.le (fun t _ _ => ⟨rfl, rfl, rfl⟩)
  | p0 :: p1 :: p2 :: p3 :: p4 :: t, _ =>
    obtain ⟨h01, h12, hs2⟩ := sorted3 hs
    refine ⟨slopeOf p0 p1 p2 (cubStart p0 p1 p2 (p3 :: p4 :: t)) (p3 :: p4 :: t), fun x => 2 * bendOf p0 p1 p2 (cubStart p0 p1 p2 (p3 :: p4 :: t)) (p3 :: p4 :: t) x, ?_⟩
    simp only [List.map_cons]
    rw [cubicBreaks_five, List.isChain_cons_cons]
    set α := cubStart p0 p1 p2 (p3 :: p4 :: t) with hα
    constructor
    · refine piece_of_cubic (m := p2.1) (v := p2.2) (d := firstSlope p0 p1 p2 α) (e := firstBend p0 p1 p2 α) (f := α) (h01.trans h12).le (fun u _ h2 => ?_)
      simp only [cubSpline, cubFrom, slopeOf, bendOf, if_pos h2, and_self, and_true]
      rw [← hα]
    · refine chain_go _ _ _ (p3 :: p4 :: t) p2.1 p2.2 (firstSlope p0 p1 p2 α) (firstBend p0 p1 p2 α) hs2 (fun u hu => ?_)
      rcases hu.lt_or_eq with hu | rfl
      · simp only [cubSpline, cubFrom, slopeOf, bendOf, if_neg (not_le.2 hu), and_self, and_true]
        rw [← hα]
      · obtain ⟨k1, k2, k3⟩ := go_left p2.1 p2.2 (firstSlope p0 p1 p2 α) (firstBend p0 p1 p2 α) p3 (p4 :: t) hs2
        rw [k1, k2, k3]
        simp only [cubSpline, cubFrom, slopeOf, bendOf, le_refl, if_true]
        simp [cubVal, cubSlope, cubBend]

/-- the curve on a piece, seen from another point of the piece -/
theorem piece_from {s s' s'' : K → K} {a b m : K} (h : CubicPiece s s' s'' a b) (h1 : a ≤ m) (h2 : m ≤ b) :
    ∃ f, ∀ t, a ≤ t → t ≤ b → s t = cubVal m (s m) (s' m) (s'' m / 2) f t := by
  obtain ⟨f, h⟩ := h
  refine ⟨f, fun t h3 h4 => ?_⟩
  rw [(h t h3 h4).1, (h m h1 h2).1, (h m h1 h2).2.1, (h m h1 h2).2.2]
  unfold cubVal
  ring

/-- **C140: there is only one.** Every curve through the points that consists of cubics fitting together in value, slope and curvature at the break points is the computed one. -/
theorem C140_unique (pts : List (K × K)) (hs : (pts.map Prod.fst).Pairwise (· < ·)) (hn : 4 ≤ pts.length) (s : K → K) (h : CubicSpline pts s) (a b : K)
    (ha : (pts.map Prod.fst).head? = some a) (hb : (pts.map Prod.fst).getLast? = some b) (t : K) (hat : a ≤ t) (htb : t ≤ b) : s t = cubSpline pts t := by
  obtain ⟨ht, s', s'', hc⟩ := h
  match pts, hn with
  | [p0, p1, p2, p3], _ =>
    simp only [List.map_cons, List.map_nil] at hc
    rw [cubicBreaks_four] at hc
    simp only [List.isChain_cons_cons, List.IsChain.singleton, and_true] at hc
    simp only [List.map_cons, List.map_nil, List.head?_cons, Option.some.injEq, List.getLast?_cons_cons, List.getLast?_singleton] at ha hb
    subst ha hb
    obtain ⟨h01, h12, hs2⟩ := sorted3 hs
    have h23 : p2.1 < p3.1 := (List.pairwise_cons.1 hs2).1 _ (by simp)
    obtain ⟨f, hf⟩ := piece_from hc (h01.trans h12).le h23.le
    rw [ht p2 (by simp)] at hf
    have e0 := hf p0.1 le_rfl ((h01.trans h12).trans h23).le
    have e1 := hf p1.1 h01.le (h12.trans h23).le
    have e3 := hf p3.1 ((h01.trans h12).trans h23).le le_rfl
    rw [ht p0 (by simp)] at e0
    rw [ht p1 (by simp)] at e1
    rw [ht p3 (by simp)] at e3
    obtain ⟨g1, g2⟩ := first_fixed p0 p1 p2 h01 h12 _ _ f e0.symm e1.symm
    rw [g1, g2] at hf e3
    have hα : f = cubStart p0 p1 p2 [p3] := (start_iff p0 p1 p2 f [p3] (by simp) hs).1 (by simp only [cubStartMiss]; rw [← e3, sub_self])
    rw [hf t hat htb, hα]
    rfl
  | p0 :: p1 :: p2 :: p3 :: p4 :: l, _ =>
    simp only [List.map_cons] at hc
    rw [cubicBreaks_five, List.isChain_cons_cons] at hc
    obtain ⟨hc, hc'⟩ := hc
    simp only [List.map_cons, List.head?_cons, Option.some.injEq] at ha
    subst ha
    obtain ⟨h01, h12, hs2⟩ := sorted3 hs
    obtain ⟨f, hf⟩ := piece_from hc (h01.trans h12).le le_rfl
    obtain ⟨i1, i2⟩ := of_chain s s' s'' (p3 :: p4 :: l) p2.1 (by simp) hs2 hc' (fun q hq => ht q (by simp only [List.mem_cons] at hq ⊢; tauto))
    rw [ht p2 (by simp)] at hf i1 i2
    have e0 := hf p0.1 le_rfl (h01.trans h12).le
    have e1 := hf p1.1 h01.le h12.le
    rw [ht p0 (by simp)] at e0
    rw [ht p1 (by simp)] at e1
    obtain ⟨g1, g2⟩ := first_fixed p0 p1 p2 h01 h12 _ _ f e0.symm e1.symm
    rw [g1, g2] at hf i1 i2
    have hα : f = cubStart p0 p1 p2 (p3 :: p4 :: l) := (start_iff p0 p1 p2 f (p3 :: p4 :: l) (by simp) hs).1 i1
    simp only [cubSpline, cubFrom, ← hα]
    split_ifs with hle
    · exact hf t hat hle
    · refine i2 t (not_le.1 hle).le (fun c hc'' => ?_)
      simp only [List.map_cons, List.getLast?_cons_cons, Option.mem_def] at hb hc''
      rw [hb] at hc''
      rw [← Option.some.inj hc'']
      exact htb

/-- a cubic through the points is a cubic spline through the points -/
theorem cubic_spline (pts : List (K × K)) (u v w z : K) (h : ∀ p ∈ pts, p.2 = u + v * p.1 + w * p.1 ^ 2 + z * p.1 ^ 3) : CubicSpline pts (fun t => u + v * t + w * t ^ 2 + z * t ^ 3) := by
  refine ⟨fun p hp => (h p hp).symm, fun t => v + 2 * w * t + 3 * z * t ^ 2, fun t => 2 * w + 6 * z * t, ?_⟩
  generalize cubicBreaks (pts.map Prod.fst) = l
  rw [List.isChain_iff_getElem]
  intro i hi
  exact ⟨z, fun t _ _ => ⟨by ring, by ring, by ring⟩⟩

/-- **C140: cubics are reproduced.** If the points lie on a polynomial of degree at most three, the curve is this polynomial between the first and the last point. -/
theorem C140_reproduces (pts : List (K × K)) (hs : (pts.map Prod.fst).Pairwise (· < ·)) (hn : 4 ≤ pts.length) (u v w z : K) (h : ∀ p ∈ pts, p.2 = u + v * p.1 + w * p.1 ^ 2 + z * p.1 ^ 3) (a b : K)
    (ha : (pts.map Prod.fst).head? = some a) (hb : (pts.map Prod.fst).getLast? = some b) (t : K) (hat : a ≤ t) (htb : t ≤ b) : cubSpline pts t = u + v * t + w * t ^ 2 + z * t ^ 3 :=
  (C140_unique pts hs hn _ (cubic_spline pts u v w z h) a b ha hb t hat htb).symm

/-- **C140: linearity.** The curve through sums of ordinates is the sum of the curves, and the curve through `k` times the ordinates is `k` times the curve (what dividing a spline PDF by
its integral relies on: `splNorm`). -/
theorem C140_linear (xs l l' : List K) (k x : K) (h : l.length = xs.length) (h' : l'.length = xs.length) :
    cubSpline (xs.zip (List.zipWith (fun a b => a + k * b) l l')) x = cubSpline (xs.zip l) x + k * cubSpline (xs.zip l') x := by
  have := spline_lin k x (xs.zip (l.zip l'))
  have e : ∀ (xs l l' : List K), l.length = xs.length → l'.length = xs.length →
      Lemmas.QuadSpline.comb k (xs.zip (l.zip l')) = xs.zip (List.zipWith (fun a b => a + k * b) l l') ∧ Lemmas.QuadSpline.fstOf (xs.zip (l.zip l')) = xs.zip l ∧
        Lemmas.QuadSpline.sndOf (xs.zip (l.zip l')) = xs.zip l' := by
    intro xs
    induction xs with
    | nil => intro l l' _ _; simp [Lemmas.QuadSpline.comb, Lemmas.QuadSpline.fstOf, Lemmas.QuadSpline.sndOf]
    | cons x xs ih =>
      intro l l' h h'
      match l, l' with
      | [], _ => simp at h
      | _, [] => simp at h'
      | a :: l, b :: l' =>
        obtain ⟨i1, i2, i3⟩ := ih l l' (by simpa using h) (by simpa using h')
        simp only [Lemmas.QuadSpline.comb, Lemmas.QuadSpline.fstOf, Lemmas.QuadSpline.sndOf] at i1 i2 i3
        simp [Lemmas.QuadSpline.comb, Lemmas.QuadSpline.fstOf, Lemmas.QuadSpline.sndOf, i1, i2, i3]
  obtain ⟨i1, i2, i3⟩ := e xs l l' h h'
  rw [i1, i2, i3] at this
  exact this

/-! ### Units and mirror images -/

/-- a piece in other units -/
theorem piece_unit {f f' f'' : K → K} {u v : K} (h : CubicPiece f f' f'' u v) (s t a b : K) (hs : 0 < s) :
    CubicPiece (fun x => a * f ((x - t) / s) + b) (fun x => a / s * f' ((x - t) / s)) (fun x => a / (s * s) * f'' ((x - t) / s)) (s * u + t) (s * v + t) := by
  obtain ⟨c, h⟩ := h
  have hs' : s ≠ 0 := hs.ne'
  refine ⟨a * c / (s * s * s), fun x h1 h2 => ?_⟩
  have g1 : u ≤ (x - t) / s := by rw [le_div_iff₀ hs]; linarith
  have g2 : (x - t) / s ≤ v := by rw [div_le_iff₀ hs]; linarith
  have e : (s * u + t - t) / s = u := by field_simp; ring
  simp only [e]
  rw [(h _ g1 g2).1, (h _ g1 g2).2.1, (h _ g1 g2).2.2]
  have e2 : x - (s * u + t) = s * ((x - t) / s - u) := by field_simp; ring
  rw [e2]
  generalize (x - t) / s - u = τ
  refine ⟨?_, ?_, ?_⟩ <;> (field_simp; try ring)

/-- a piece mirrored -/
theorem piece_mirror {f f' f'' : K → K} {u v : K} (h : CubicPiece f f' f'' u v) (s a b : K) :
    CubicPiece (fun x => a * f (s - x) + b) (fun x => -(a * f' (s - x))) (fun x => a * f'' (s - x)) (s - v) (s - u) := by
  obtain ⟨c, h⟩ := h
  refine ⟨-(a * c), fun x h1 h2 => ?_⟩
  have g1 : u ≤ s - x := by linarith
  have g2 : s - x ≤ v := by linarith
  have huv := g1.trans g2
  simp only [sub_sub_cancel]
  rw [(h _ g1 g2).1, (h _ g1 g2).2.1, (h _ g1 g2).2.2, (h v huv le_rfl).1, (h v huv le_rfl).2.1, (h v huv le_rfl).2.2]
  refine ⟨by ring, by ring, by ring⟩

theorem cubicBreaks_map (g : K → K) (l : List K) : cubicBreaks (l.map g) = (cubicBreaks l).map g := by
  unfold cubicBreaks
  rw [List.map_append, List.map_append, List.map_dropLast, List.map_dropLast, List.map_drop, List.head?_map, List.getLast?_map]
  cases l.head? <;> cases l.getLast? <;> simp

theorem cubicBreaks_reverse (l : List K) (hn : 4 ≤ l.length) : cubicBreaks l.reverse = (cubicBreaks l).reverse := by
  unfold cubicBreaks
  have e : ((l.reverse.drop 2).dropLast).dropLast = (((l.drop 2).dropLast).dropLast).reverse := by
    have e1 : ∀ m : List K, m.dropLast.dropLast = m.take (m.length - 2) := fun m => by
      rw [List.dropLast_eq_take, List.dropLast_eq_take, List.take_take, List.length_take]
      congr 1
      omega
    rw [e1, e1, List.drop_reverse, List.length_reverse, List.take_reverse]
    simp only [List.length_take, List.length_drop]
    rw [min_eq_left (by omega), List.drop_take]
    congr 2
    · omega
    · congr 1; omega
  rw [e]
  simp only [List.head?_reverse, List.getLast?_reverse, List.reverse_append]
  cases l.head? <;> cases l.getLast? <;> simp

/-- **C140: units.** In other units of the abscissae and of the ordinates the curve is the same curve. -/
theorem C140_units (s t a b : K) (hs : 0 < s) (pts : List (K × K)) (hp : (pts.map Prod.fst).Pairwise (· < ·)) (hn : 4 ≤ pts.length) (u v : K)
    (hu : (pts.map Prod.fst).head? = some u) (hv : (pts.map Prod.fst).getLast? = some v) (x : K) (hux : u ≤ x) (hxv : x ≤ v) :
    cubSpline (pts.map fun p => (s * p.1 + t, a * p.2 + b)) (s * x + t) = a * cubSpline pts x + b := by
  have hs' : s ≠ 0 := hs.ne'
  have hfst : (pts.map fun p => (s * p.1 + t, a * p.2 + b)).map Prod.fst = (pts.map Prod.fst).map fun x => s * x + t := by simp [Function.comp_def]
  obtain ⟨ht, f', f'', hc⟩ := C140_exists pts hp hn
  have hS : CubicSpline (pts.map fun p => (s * p.1 + t, a * p.2 + b)) (fun x => a * cubSpline pts ((x - t) / s) + b) := by
    constructor
    · intro p hp
      obtain ⟨q, hq, rfl⟩ := List.mem_map.1 hp
      have e : (s * q.1 + t - t) / s = q.1 := by field_simp; ring
      simp only [e, ht q hq]
    · refine ⟨fun x => a / s * f' ((x - t) / s), fun x => a / (s * s) * f'' ((x - t) / s), ?_⟩
      · rw [hfst, cubicBreaks_map, List.isChain_map]
        exact hc.imp fun u v h => piece_unit h s t a b hs
  have := C140_unique _ (by
    rw [hfst, List.pairwise_map]
    exact hp.imp fun h => by have := mul_lt_mul_of_pos_left h hs; linarith) (by simpa using hn) _ hS (s * u + t) (s * v + t)
    (by rw [hfst, List.head?_map, hu]; rfl) (by rw [hfst, List.getLast?_map, hv]; rfl) (s * x + t)
    (by have := mul_le_mul_of_nonneg_left hux hs.le; linarith) (by have := mul_le_mul_of_nonneg_left hxv hs.le; linarith)
  rw [← this]
  have e : (s * x + t - t) / s = x := by field_simp; ring
  simp only [e]

/-- **C140: mirror images.** The curve through the mirrored points is the mirrored curve. -/
theorem C140_mirror (pts : List (K × K)) (hs : (pts.map Prod.fst).Pairwise (· < ·)) (hn : 4 ≤ pts.length) (s c d a b : K)
    (ha : (pts.map Prod.fst).head? = some a) (hb : (pts.map Prod.fst).getLast? = some b) (x : K) (hax : a ≤ x) (hxb : x ≤ b) :
    cubSpline (Mirror.mirrorKnots s c d pts) (s - x) = c * cubSpline pts x + d := by
  have hfst : (Mirror.mirrorKnots s c d pts).map Prod.fst = ((pts.map Prod.fst).map fun x => s - x).reverse := by
    simp [Mirror.mirrorKnots, List.map_reverse, Function.comp_def]
  obtain ⟨ht, f', f'', hc⟩ := C140_exists pts hs hn
  have hS : CubicSpline (Mirror.mirrorKnots s c d pts) (fun t => c * cubSpline pts (s - t) + d) := by
    constructor
    · intro p hp
      simp only [Mirror.mirrorKnots, List.mem_reverse, List.mem_map] at hp
      obtain ⟨q, hq, rfl⟩ := hp
      simp only [sub_sub_cancel, ht q hq]
    · refine ⟨fun t => -(c * f' (s - t)), fun t => c * f'' (s - t), ?_⟩
      · rw [hfst, cubicBreaks_reverse _ (by simpa using hn), cubicBreaks_map, List.isChain_reverse, List.isChain_map]
        exact hc.imp fun u v h => piece_mirror h s c d
  have := C140_unique _ (by
    rw [hfst, List.pairwise_reverse, List.pairwise_map]
    exact hs.imp (fun h => by linarith)) (by simpa [Mirror.mirrorKnots] using hn) _ hS (s - b) (s - a) (by rw [hfst, List.head?_reverse, List.getLast?_map, hb]; rfl)
    (by rw [hfst, List.getLast?_reverse, List.head?_map, ha]; rfl) (s - x) (by linarith) (by linarith)
  rw [← this]
  simp only [sub_sub_cancel]

/-! ### Constants -/

theorem go_const (c : K) : ∀ (pts : List (K × K)) (m x : K), (∀ p ∈ pts, p.2 = c) → cubGo m c 0 0 pts x = c ∧ cubMiss m c 0 0 pts = 0
  | [], m, x, _ => by simp [cubGo, cubMiss]
  | [p], m, x, h => by simp [cubGo, cubMiss, cubVal, cubThird, h p (by simp)]
  | [p, p'], m, x, h => by simp [cubGo, cubMiss, cubVal, cubThird, h p (by simp), h p' (by simp)]
  | p :: p' :: p'' :: t, m, x, h => by
    have ih := go_const c (p' :: p'' :: t) p.1 x (fun q hq => h q (List.mem_cons_of_mem _ hq))
    have hp : p.2 = c := h p (by simp)
    have e : cubThird m c 0 0 p.1 c = 0 := by simp [cubThird]
    simp only [cubGo, cubMiss, cubSlope, cubBend, hp, e, mul_zero, zero_mul, add_zero]
    refine ⟨?_, ih.2⟩
    split_ifs
    · simp [cubVal]
    · exact ih.1

/-- equal ordinates give a constant, everywhere -/
theorem const (pts : List (K × K)) (c : K) (hne : pts ≠ []) (h : ∀ p ∈ pts, p.2 = c) (x : K) : cubSpline pts x = c := by
  match pts with
  | [] => exact absurd rfl hne
  | [p0] => exact h p0 (by simp)
  | [p0, p1] => simp [cubSpline, h p0 (by simp), h p1 (by simp)]
  | p0 :: p1 :: p2 :: t =>
    have b0 : bend3 p0 p1 p2 = 0 := by simp [bend3, h p0 (by simp), h p1 (by simp), h p2 (by simp)]
    have s0 : slope3 p0 p1 p2 = 0 := by simp [slope3, b0, h p1 (by simp), h p2 (by simp)]
    have f1 : firstSlope p0 p1 p2 0 = 0 := by simp [firstSlope, s0]
    have f2 : firstBend p0 p1 p2 0 = 0 := by simp [firstBend, b0]
    have ht : ∀ p ∈ t, p.2 = c := fun p hp => h p (by simp [hp])
    have hc2 := h p2 (by simp)
    have hm : cubStartMiss p0 p1 p2 0 t = 0 := by
      match t, ht with
      | [], _ => rfl
      | [p3], ht => simp [cubStartMiss, f1, f2, cubVal, hc2, ht p3 (by simp)]
      | p3 :: p4 :: l, ht => simp only [cubStartMiss, f1, f2, hc2]; exact (go_const c _ _ 0 ht).2
    have h0 : cubStart p0 p1 p2 t = 0 := by simp [cubStart, hm]
    simp only [cubSpline, h0]
    match t, ht with
    | [], _ => simp [cubFrom, f1, f2, cubVal, hc2]
    | [p3], ht => simp [cubFrom, f1, f2, cubVal, hc2]
    | p3 :: p4 :: l, ht =>
      simp only [cubFrom, f1, f2, hc2]
      split_ifs
      · simp [cubVal]
      · exact (go_const c _ _ x ht).1

end Verif.Props.CubicSpline
