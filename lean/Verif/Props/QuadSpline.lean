import Verif.Lemmas.QuadSpline
import Verif.Props.Mirror
import Verif.Props.Units

/-!
# C139: the curve through the quantiles

With at least three quantiles the CDF of a quantile PDF, and its quantile function, are quadratic splines through the stored points. Specification: `Spec/QuadSpline.lean`.
-/

set_option linter.unusedSectionVars false
set_option autoImplicit false

namespace Verif.Props.QuadSpline

open Verif Verif.Np Verif.Model Verif.Spec Verif.Lemmas.QuadSpline

variable {K : Type} [Field K] [LinearOrder K] [IsStrictOrderedRing K]

/-- the curve goes through the points, however many there are -/
theorem through (pts : List (K × K)) (hs : (pts.map Prod.fst).Pairwise (· < ·)) : ∀ p ∈ pts, quadSpline pts p.1 = p.2 := by
  match pts with
  | [] => simp
  | [p0] => simp [quadSpline, quadGo]
  | p0 :: p1 :: t =>
    intro p hp
    simp only [quadSpline]
    rcases List.mem_cons.1 hp with rfl | hp
    · exact (go_left _ _ _ p1 t hs).1
    · refine go_through _ _ _ _ hs ?_ p hp
      match t with
      | [] => rfl
      | p2 :: t => exact (start_iff _ _ _ (p1 :: p2 :: t) (by simp) hs).2 rfl

/-- **C139: there is such a curve.** For at least three points with increasing abscissae the computed curve goes through all the points and consists of parabolas that fit together
in value and slope at the break points. -/
theorem C139_exists (pts : List (K × K)) (hs : (pts.map Prod.fst).Pairwise (· < ·)) (hn : 3 ≤ pts.length) : QuadraticSpline pts (quadSpline pts) := by
  refine ⟨through pts hs, ?_⟩
  match pts, hn with
  | p0 :: p1 :: p2 :: t, _ =>
    refine ⟨slopeGo p0.1 p0.2 (quadStart p0.1 p0.2 (p1 :: p2 :: t)) (p1 :: p2 :: t), ?_⟩
    simp only [List.map_cons]
    rw [breakPoints_cons]
    exact chain_go _ _ (p1 :: p2 :: t) _ _ _ hs (fun u _ => ⟨rfl, rfl⟩)

/-- **C139: there is only one.** Every curve through the points that consists of parabolas fitting together in value and slope at the break points is the computed one. -/
theorem C139_unique (pts : List (K × K)) (hs : (pts.map Prod.fst).Pairwise (· < ·)) (hn : 3 ≤ pts.length) (s : K → K) (h : QuadraticSpline pts s) (a b : K)
    (ha : (pts.map Prod.fst).head? = some a) (hb : (pts.map Prod.fst).getLast? = some b) (t : K) (hat : a ≤ t) (htb : t ≤ b) : s t = quadSpline pts t := by
  match pts, hn with
  | p0 :: p1 :: p2 :: l, _ =>
    obtain ⟨ht, s', hc⟩ := h
    simp only [List.map_cons] at hc
    rw [breakPoints_cons] at hc
    simp only [List.map_cons, List.head?_cons, Option.some.injEq] at ha
    subst ha
    obtain ⟨h1, h2⟩ := of_chain s s' (p1 :: p2 :: l) p0.1 (by simp) hs hc (fun p hp => ht p (List.mem_cons_of_mem _ hp))
    rw [ht p0 (by simp)] at h1 h2
    rw [start_iff _ _ _ _ (by simp) hs] at h1
    rw [h2 t hat (fun c hc' => ?_), h1]
    · rfl
    · simp only [List.map_cons, List.getLast?_cons_cons, Option.mem_def] at hb hc'
      rw [hb] at hc'
      rw [← Option.some.inj hc']
      exact htb

theorem map_fst_zip' (a b : List K) (h : a.length = b.length) : (a.zip b).map Prod.fst = a := List.map_fst_zip h.le

/-- the CDF between the first and the last location -/
theorem cdf_inside (spl : List (K × K) → K → K) (quants locs : List K) (a b x : K) (ha : locs.head? = some a) (hb : locs.getLast? = some b) (hax : a ≤ x) (hxb : x ≤ b) :
    quantCdf spl quants locs x = some (spl (locs.zip quants) x) := by
  match locs with
  | [] => simp at ha
  | l0 :: t =>
    simp only [List.head?_cons, Option.some.injEq] at ha
    subst ha
    rw [List.getLast?_eq_some_getLast (by simp), Option.some.injEq] at hb
    simp only [quantCdf]
    rw [if_neg (not_lt.2 hax), if_neg (by rw [hb]; exact not_lt.2 hxb)]

/-- the quantile function between the first and the last probability -/
theorem ppf_inside (spl : List (K × K) → K → K) (lo hi : K) (quants locs : List K) (a b p : K) (ha : quants.head? = some a) (hb : quants.getLast? = some b) (hap : a ≤ p) (hpb : p ≤ b) :
    quantPpf spl lo hi quants locs p = some (spl (quants.zip locs) p) := by
  match quants with
  | [] => simp at ha
  | l0 :: t =>
    simp only [List.head?_cons, Option.some.injEq] at ha
    subst ha
    rw [List.getLast?_eq_some_getLast (by simp), Option.some.injEq] at hb
    simp only [quantPpf]
    rw [if_neg (not_lt.2 hap), if_neg (by rw [hb]; exact not_lt.2 hpb)]

/-- **C139: CDF and quantile function.** For three or more quantiles with increasing locations: whatever quadratic spline `s` through the points one takes, `cdf(x)` is `s x` between the first and the
last location; and whatever quadratic spline `s` through the points with the roles exchanged one takes, `ppf(p)` is `s p` between the first and the last probability. Both splines exist. -/
theorem C139_cdf_ppf (quants locs : List K) (hl : locs.Pairwise (· < ·)) (hq : quants.Pairwise (· < ·)) (hlen : quants.length = locs.length) (hn : 3 ≤ locs.length) :
    (∃ s, QuadraticSpline (locs.zip quants) s) ∧ (∃ s, QuadraticSpline (quants.zip locs) s) ∧
    (∀ s, QuadraticSpline (locs.zip quants) s → ∀ a b, locs.head? = some a → locs.getLast? = some b → ∀ x, a ≤ x → x ≤ b → quantCdf quadSpline quants locs x = some (s x)) ∧
    ∀ s, QuadraticSpline (quants.zip locs) s → ∀ a b, quants.head? = some a → quants.getLast? = some b → ∀ p, a ≤ p → p ≤ b →
      ∀ lo hi, quantPpf quadSpline lo hi quants locs p = some (s p) := by
  have e1 := map_fst_zip' locs quants hlen.symm
  have e2 := map_fst_zip' quants locs hlen
  have n1 : 3 ≤ (locs.zip quants).length := by simp; omega
  have n2 : 3 ≤ (quants.zip locs).length := by simp; omega
  refine ⟨⟨_, C139_exists _ (by rw [e1]; exact hl) n1⟩, ⟨_, C139_exists _ (by rw [e2]; exact hq) n2⟩, fun s hs a b ha hb x hax hxb => ?_, fun s hs a b ha hb p hap hpb lo hi => ?_⟩
  · rw [cdf_inside _ _ _ a b x ha hb hax hxb, C139_unique _ (by rw [e1]; exact hl) n1 s hs a b (by rw [e1]; exact ha) (by rw [e1]; exact hb) x hax hxb]
  · rw [ppf_inside _ _ _ _ _ a b p ha hb hap hpb, C139_unique _ (by rw [e2]; exact hq) n2 s hs a b (by rw [e2]; exact ha) (by rw [e2]; exact hb) p hap hpb]

/-- a parabola through the points is a quadratic spline through the points -/
theorem parabola_spline (pts : List (K × K)) (u v w : K) (h : ∀ p ∈ pts, p.2 = u + v * p.1 + w * p.1 ^ 2) : QuadraticSpline pts (fun t => u + v * t + w * t ^ 2) := by
  refine ⟨fun p hp => (h p hp).symm, fun t => v + 2 * w * t, ?_⟩
  generalize breakPoints (pts.map Prod.fst) = l
  rw [List.isChain_iff_getElem]
  intro i hi
  exact ⟨w, fun t _ _ => ⟨by ring, by ring⟩⟩

/-- **C139: parabolas and straight lines are reproduced.** If the quantiles lie on a parabola as a function of the locations (for instance on a straight line: a uniform distribution), the CDF is
this parabola between the first and the last location; if the locations lie on a parabola as a function of the quantiles, the quantile function is this parabola. -/
theorem C139_reproduces (quants locs : List K) (hl : locs.Pairwise (· < ·)) (hq : quants.Pairwise (· < ·)) (hlen : quants.length = locs.length) (hn : 3 ≤ locs.length) (u v w : K) :
    ((∀ p ∈ locs.zip quants, p.2 = u + v * p.1 + w * p.1 ^ 2) → ∀ a b, locs.head? = some a → locs.getLast? = some b → ∀ x, a ≤ x → x ≤ b →
      quantCdf quadSpline quants locs x = some (u + v * x + w * x ^ 2)) ∧
    ((∀ p ∈ quants.zip locs, p.2 = u + v * p.1 + w * p.1 ^ 2) → ∀ a b, quants.head? = some a → quants.getLast? = some b → ∀ p, a ≤ p → p ≤ b →
      ∀ lo hi, quantPpf quadSpline lo hi quants locs p = some (u + v * p + w * p ^ 2)) := by
  obtain ⟨-, -, h1, h2⟩ := C139_cdf_ppf quants locs hl hq hlen hn
  exact ⟨fun h a b ha hb x hx hx' => h1 _ (parabola_spline _ u v w h) a b ha hb x hx hx', fun h a b ha hb p hp hp' lo hi => h2 _ (parabola_spline _ u v w h) a b ha hb p hp hp' lo hi⟩

/-! ### Units -/

theorem go_units (s t a b : K) (hs : 0 < s) (x : K) : ∀ (pts : List (K × K)) (m v d : K),
    quadGo (s * m + t) (a * v + b) (a * d / s) (pts.map fun p => (s * p.1 + t, a * p.2 + b)) (s * x + t) = a * quadGo m v d pts x + b ∧
    quadMiss (s * m + t) (a * v + b) (a * d / s) (pts.map fun p => (s * p.1 + t, a * p.2 + b)) = a * quadMiss m v d pts := by
  have hs' : s ≠ 0 := hs.ne'
  have hc : ∀ m v d x y : K, quadCurv (s * m + t) (a * v + b) (a * d / s) (s * x + t) (a * y + b) = a * quadCurv m v d x y / (s * s) := by
    intro m v d x y
    unfold quadCurv
    rw [show s * x + t - (s * m + t) = s * (x - m) by ring, show a * y + b - (a * v + b) - a * d / s * (s * (x - m)) = a * (y - v - d * (x - m)) by field_simp; ring,
      show s * (x - m) * (s * (x - m)) = (s * s) * ((x - m) * (x - m)) by ring, mul_comm (s * s), ← div_div, mul_div_assoc]
  have hv : ∀ m v d c x : K, quadVal (s * m + t) (a * v + b) (a * d / s) (a * c / (s * s)) (s * x + t) = a * quadVal m v d c x + b := by
    intro m v d c x
    unfold quadVal
    field_simp
    ring
  have hd : ∀ m d c x : K, quadSlope (s * m + t) (a * d / s) (a * c / (s * s)) (s * x + t) = a * quadSlope m d c x / s := by
    intro m d c x
    unfold quadSlope
    field_simp
    ring
  have hm : ∀ x y : K, (s * x + t + (s * y + t)) / 2 = s * ((x + y) / 2) + t := by intro x y; ring
  have hle : ∀ x y : K, s * x + t ≤ s * y + t ↔ x ≤ y := fun x y => by rw [add_le_add_iff_right, mul_le_mul_iff_right₀ hs]
  intro pts
  induction pts with
  | nil => intro m v d; simp [quadGo, quadMiss]
  | cons p pts ih =>
    intro m v d
    match pts, ih with
    | [], _ => simp only [List.map_cons, List.map_nil, quadGo, quadMiss, hc, hv, mul_zero, and_self]
    | [p'], _ =>
      simp only [List.map_cons, List.map_nil, quadGo, quadMiss, hc, hv, true_and]
      ring
    | p' :: p'' :: l, ih =>
      have ih := ih ((p.1 + p'.1) / 2) (quadVal m v d (quadCurv m v d p.1 p.2) ((p.1 + p'.1) / 2)) (quadSlope m d (quadCurv m v d p.1 p.2) ((p.1 + p'.1) / 2))
      simp only [List.map_cons] at ih
      simp only [List.map_cons, quadGo, quadMiss, hc, hm, hv, hd, hle]
      refine ⟨?_, ih.2⟩
      split_ifs
      · rfl
      · exact ih.1

/-- **C139: units.** In other units of the abscissae and of the ordinates the curve is the same curve. -/
theorem C139_units (s t a b : K) (hs : 0 < s) (pts : List (K × K)) (hne : pts ≠ []) (x : K) :
    quadSpline (pts.map fun p => (s * p.1 + t, a * p.2 + b)) (s * x + t) = a * quadSpline pts x + b := by
  match pts with
  | [] => exact absurd rfl hne
  | p :: l =>
    simp only [List.map_cons, quadSpline]
    have h0 := (go_units s t a b hs x l p.1 p.2 0).2
    have h1 := miss_affine (s * p.1 + t) (a * p.2 + b) 1 (l.map fun p => (s * p.1 + t, a * p.2 + b))
    have h2 := (go_units s t 1 0 hs x (zeros l) p.1 0 1).2
    simp only [mul_zero, zero_div, one_mul, add_zero] at h0 h2
    have hz : (zeros l).map (fun p => (s * p.1 + t, p.2)) = zeros (l.map fun p => (s * p.1 + t, a * p.2 + b)) := by simp [zeros]
    rw [hz] at h2
    have h3 : quadMiss (s * p.1 + t) 0 (1 / s) (zeros (l.map fun p => (s * p.1 + t, a * p.2 + b))) =
        (1 / s) * quadMiss (s * p.1 + t) 0 1 (zeros (l.map fun p => (s * p.1 + t, a * p.2 + b))) := by
      have e : zeros (zeros (l.map fun p => (s * p.1 + t, a * p.2 + b))) = zeros (l.map fun p => (s * p.1 + t, a * p.2 + b)) := by simp [zeros]
      rw [miss_affine, e]
      have := miss_neg (s * p.1 + t) 0 0 (l.map fun p => (s * p.1 + t, a * p.2 + b))
      rw [neg_zero] at this
      linarith
    have hst : quadStart (s * p.1 + t) (a * p.2 + b) (l.map fun p => (s * p.1 + t, a * p.2 + b)) = a * quadStart p.1 p.2 l / s := by
      unfold quadStart
      rw [miss_diff, miss_diff, h0]
      rw [← h2, h3]
      have hs' : s ≠ 0 := hs.ne'
      generalize quadMiss (s * p.1 + t) 0 1 (zeros (l.map fun p => (s * p.1 + t, a * p.2 + b))) = M
      rcases eq_or_ne M 0 with rfl | hM
      · simp
      · field_simp
    rw [hst]
    exact (go_units s t a b hs x l p.1 p.2 (quadStart p.1 p.2 l)).1

open Verif.Props.Units in
/-- **C116: quantile PDFs**, with the quadratic spline: `C116_quantiles` without a hypothesis on the interpolant. -/
theorem C116_quantiles_spline (s t : K) (hs : 0 < s) (quants qs : List K) (locs ls : List (List K)) (ci : Bool) (h : quantInit quants locs ci = .ok (qs, ls)) :
    quantInit quants (locs.map (List.map (unit s t))) ci = .ok (qs, ls.map (List.map (unit s t))) ∧
      ∀ l ∈ ls, (∀ x, quantCdf quadSpline qs (l.map (unit s t)) (unit s t x) = quantCdf quadSpline qs l x) ∧
        ∀ lo hi q, quantPpf quadSpline (unit s t lo) (unit s t hi) qs (l.map (unit s t)) q = (quantPpf quadSpline lo hi qs l q).map (unit s t) := by
  refine C116_quantiles s t hs quadSpline (fun kn x => ?_) (fun kn q hne => ?_) quants qs locs ls ci h
  · rcases eq_or_ne kn [] with rfl | hne
    · rfl
    · have := C139_units s t 1 0 hs kn hne x
      simpa [unit] using this
  · have := C139_units 1 0 s t one_pos kn hne q
    simpa [unit] using this

/-! ### Mirror images -/

theorem midpoints_reverse (l : List K) : midpoints l.reverse = (midpoints l).reverse := by
  apply List.ext_getElem?
  intro i
  simp only [midpoints]
  by_cases hi : i + 1 < l.length
  · rw [List.getElem?_reverse (by simp; omega)]
    simp only [List.getElem?_zipWith, List.getElem?_tail, List.length_zipWith, List.length_tail]
    rw [List.getElem?_reverse (by omega), List.getElem?_reverse hi]
    have e1 : l.length - 1 - i = min l.length (l.length - 1) - 1 - i + 1 := by omega
    have e2 : l.length - 1 - (i + 1) = min l.length (l.length - 1) - 1 - i := by omega
    rw [e1, e2, List.getElem?_eq_getElem (show min l.length (l.length - 1) - 1 - i + 1 < l.length by omega),
      List.getElem?_eq_getElem (show min l.length (l.length - 1) - 1 - i < l.length by omega)]
    simp only [Option.some.injEq]
    ring
  · rw [List.getElem?_eq_none (by simp; omega), List.getElem?_eq_none (by simp; omega)]

theorem midpoints_map (s : K) (l : List K) : midpoints (l.map fun x => s - x) = (midpoints l).map fun x => s - x := by
  unfold midpoints
  rw [← List.map_tail, List.zipWith_map, List.map_zipWith]
  congr 1
  funext a b
  ring

theorem breakPoints_mirror (s : K) (l : List K) : breakPoints ((l.map fun x => s - x).reverse) = ((breakPoints l).map fun x => s - x).reverse := by
  unfold breakPoints
  rw [midpoints_reverse, midpoints_map]
  have h : ∀ m : List K, ((m.map fun x => s - x).reverse.drop 1).dropLast = ((((m.drop 1).dropLast).map fun x => s - x)).reverse := by
    intro m
    rw [List.drop_one, List.tail_reverse, List.dropLast_reverse, List.drop_one, List.map_dropLast, List.map_tail]
    congr 1
    rw [List.tail_dropLast]
  rw [h]
  simp only [List.head?_reverse, List.getLast?_reverse, List.getLast?_map, List.head?_map, List.map_append, List.reverse_append]
  cases l.head? <;> cases l.getLast? <;> simp

/-- **C139: mirror images.** The curve through the mirrored points is the mirrored curve. -/
theorem C139_mirror (pts : List (K × K)) (hs : (pts.map Prod.fst).Pairwise (· < ·)) (hn : 3 ≤ pts.length) (s c d a b : K)
    (ha : (pts.map Prod.fst).head? = some a) (hb : (pts.map Prod.fst).getLast? = some b) (x : K) (hax : a ≤ x) (hxb : x ≤ b) :
    quadSpline (Mirror.mirrorKnots s c d pts) (s - x) = c * quadSpline pts x + d := by
  have hfst : (Mirror.mirrorKnots s c d pts).map Prod.fst = ((pts.map Prod.fst).map fun x => s - x).reverse := by
    simp [Mirror.mirrorKnots, List.map_reverse, Function.comp_def]
  have hs' : ((Mirror.mirrorKnots s c d pts).map Prod.fst).Pairwise (· < ·) := by
    rw [hfst, List.pairwise_reverse, List.pairwise_map]
    exact hs.imp (fun h => by linarith)
  obtain ⟨ht, f', hc⟩ := C139_exists pts hs hn
  have hS : QuadraticSpline (Mirror.mirrorKnots s c d pts) (fun t => c * quadSpline pts (s - t) + d) := by
    constructor
    · intro p hp
      simp only [Mirror.mirrorKnots, List.mem_reverse, List.mem_map] at hp
      obtain ⟨q, hq, rfl⟩ := hp
      simp only [sub_sub_cancel, ht q hq]
    · refine ⟨fun t => -(c * f' (s - t)), ?_⟩
      rw [hfst, breakPoints_mirror, List.isChain_reverse, List.isChain_map]
      refine hc.imp ?_
      rintro u v ⟨k, hk⟩
      refine ⟨c * k, fun t h1 h2 => ?_⟩
      have g1 : u ≤ s - t := by linarith
      have g2 : s - t ≤ v := by linarith
      have huv : u ≤ v := g1.trans g2
      simp only [sub_sub_cancel]
      rw [(hk _ g1 g2).1, (hk _ g1 g2).2, (hk v huv le_rfl).1, (hk v huv le_rfl).2]
      constructor <;> ring
  have := C139_unique _ hs' (by simpa [Mirror.mirrorKnots] using hn) _ hS (s - b) (s - a) (by rw [hfst, List.head?_reverse, List.getLast?_map, hb]; rfl)
    (by rw [hfst, List.getLast?_reverse, List.head?_map, ha]; rfl) (s - x) (by linarith) (by linarith)
  rw [← this]
  simp only [sub_sub_cancel]

theorem mirror_zip (a : K) (l m : List K) (h : l.length = m.length) (c d : K) :
    ((l.map fun x => a - x).reverse).zip ((m.map fun x => c * x + d).reverse) = Mirror.mirrorKnots a c d (l.zip m) := by
  unfold Mirror.mirrorKnots
  apply List.ext_getElem?
  intro i
  by_cases hi : i < l.length
  · rw [List.getElem?_reverse (by simp [h]; omega), List.getElem?_map]
    have e : (l.zip m).length - 1 - i = l.length - 1 - i := by simp [h]
    have e2 : ((l.map fun x => a - x).reverse)[i]? = some (a - l[l.length - 1 - i]'(by omega)) := by
      rw [List.getElem?_reverse (by simpa using hi), List.getElem?_map, List.length_map, List.getElem?_eq_getElem (by omega)]; rfl
    have e3 : ((m.map fun x => c * x + d).reverse)[i]? = some (c * m[l.length - 1 - i]'(by omega) + d) := by
      rw [List.getElem?_reverse (by simp; omega), List.getElem?_map, List.length_map, show m.length - 1 - i = l.length - 1 - i by omega, List.getElem?_eq_getElem (by omega)]; rfl
    have e4 : (l.zip m)[l.length - 1 - i]? = some (l[l.length - 1 - i]'(by omega), m[l.length - 1 - i]'(by omega)) :=
      List.getElem?_zip_eq_some.2 ⟨List.getElem?_eq_getElem (by omega), List.getElem?_eq_getElem (by omega)⟩
    rw [List.length_map, e, e4]
    exact List.getElem?_zip_eq_some.2 ⟨e2, e3⟩
  · rw [List.getElem?_eq_none (by simp; omega), List.getElem?_eq_none (by simp; omega)]

/-- **C131: quantile PDFs.** For three or more stored quantiles with increasing locations: if all locations are negated and all probabilities `q` replaced by `1 - q` (both lists in the opposite
order, the smallest and the largest location of the ensemble negated), the CDF at `-x` is one minus the CDF at `x`, and the quantile of `1 - p` is the negated quantile of `p`, everywhere. -/
theorem C131_quantiles (quants locs : List K) (hl : locs.Pairwise (· < ·)) (hq : quants.Pairwise (· < ·)) (hlen : quants.length = locs.length) (hn : 3 ≤ locs.length) :
    (∀ x, quantCdf quadSpline (quants.map fun q => 1 - q).reverse (Mirror.mirror locs) (-x) = (quantCdf quadSpline quants locs x).map fun F => 1 - F) ∧
    ∀ lo hi p, quantPpf quadSpline (-hi) (-lo) (quants.map fun q => 1 - q).reverse (Mirror.mirror locs) (1 - p) = (quantPpf quadSpline lo hi quants locs p).map fun x => -x := by
  obtain ⟨a, ha⟩ : ∃ a, locs.head? = some a := ⟨_, List.head?_eq_some_head (List.ne_nil_of_length_pos (by omega))⟩
  obtain ⟨b, hb⟩ : ∃ b, locs.getLast? = some b := ⟨_, List.getLast?_eq_some_getLast (List.ne_nil_of_length_pos (by omega))⟩
  obtain ⟨a', ha'⟩ : ∃ a, quants.head? = some a := ⟨_, List.head?_eq_some_head (List.ne_nil_of_length_pos (by omega))⟩
  obtain ⟨b', hb'⟩ : ∃ b, quants.getLast? = some b := ⟨_, List.getLast?_eq_some_getLast (List.ne_nil_of_length_pos (by omega))⟩
  have hm : Mirror.mirror locs = (locs.map fun x => 0 - x).reverse := by unfold Mirror.mirror; congr 2; funext x; simp
  have outside : ∀ (spl : List (K × K) → K → K) (qs ls : List K) (u v x : K), ls.head? = some u → ls.getLast? = some v → u ≤ v →
      (x < u → quantCdf spl qs ls x = some 0) ∧ (v < x → quantCdf spl qs ls x = some 1) := by
    intro spl qs ls u v x hu hv huv
    match ls with
    | [] => simp at hu
    | l0 :: t =>
      simp only [List.head?_cons, Option.some.injEq] at hu
      subst hu
      rw [List.getLast?_eq_some_getLast (by simp), Option.some.injEq] at hv
      simp only [quantCdf, hv]
      exact ⟨fun h => by rw [if_pos h], fun h => by rw [if_neg (not_lt.2 (huv.trans h.le)), if_pos h]⟩
  have outside' : ∀ (spl : List (K × K) → K → K) (lo hi : K) (qs ls : List K) (u v x : K), qs.head? = some u → qs.getLast? = some v → u ≤ v →
      (x < u → quantPpf spl lo hi qs ls x = some lo) ∧ (v < x → quantPpf spl lo hi qs ls x = some hi) := by
    intro spl lo hi qs ls u v x hu hv huv
    match qs with
    | [] => simp at hu
    | l0 :: t =>
      simp only [List.head?_cons, Option.some.injEq] at hu
      subst hu
      rw [List.getLast?_eq_some_getLast (by simp), Option.some.injEq] at hv
      simp only [quantPpf, hv]
      exact ⟨fun h => by rw [if_pos h], fun h => by rw [if_neg (not_lt.2 (huv.trans h.le)), if_pos h]⟩
  have order : ∀ (l : List K) (u v : K), l.Pairwise (· < ·) → l.head? = some u → l.getLast? = some v → u ≤ v := by
    intro l u v hp hu hv
    match l with
    | [] => simp at hu
    | l0 :: t =>
      simp only [List.head?_cons, Option.some.injEq] at hu
      subst hu
      rcases List.mem_cons.1 (List.mem_of_getLast? hv) with h | h
      · exact h.ge
      · exact ((List.pairwise_cons.1 hp).1 v h).le
  have e1 := map_fst_zip' locs quants hlen.symm
  have e2 := map_fst_zip' quants locs hlen
  have m1 : (Mirror.mirror locs).head? = some (-b) := by rw [hm, List.head?_reverse, List.getLast?_map, hb]; simp
  have m2 : (Mirror.mirror locs).getLast? = some (-a) := by rw [hm, List.getLast?_reverse, List.head?_map, ha]; simp
  have m3 : ((quants.map fun q => 1 - q).reverse).head? = some (1 - b') := by rw [List.head?_reverse, List.getLast?_map, hb']; rfl
  have m4 : ((quants.map fun q => 1 - q).reverse).getLast? = some (1 - a') := by rw [List.getLast?_reverse, List.head?_map, ha']; rfl
  have hab := order locs a b hl ha hb
  have hab' := order quants a' b' hq ha' hb'
  constructor
  · intro x
    rcases lt_or_ge x a with h | h
    · rw [(outside _ _ _ a b x ha hb hab).1 h, (outside _ _ _ (-b) (-a) (-x) m1 m2 (by linarith)).2 (by linarith)]
      simp
    · rcases lt_or_ge b x with h' | h'
      · rw [(outside _ _ _ a b x ha hb hab).2 h', (outside _ _ _ (-b) (-a) (-x) m1 m2 (by linarith)).1 (by linarith)]
        simp
      · rw [cdf_inside _ _ _ a b x ha hb h h', cdf_inside _ _ _ (-b) (-a) (-x) m1 m2 (by linarith) (by linarith)]
        have := C139_mirror (locs.zip quants) (by rw [e1]; exact hl) (by simp; omega) 0 (-1) 1 a b (by rw [e1]; exact ha) (by rw [e1]; exact hb) x h h'
        rw [← mirror_zip 0 locs quants hlen.symm, ← hm] at this
        rw [show (fun x : K => -1 * x + 1) = fun q => 1 - q by funext q; ring, zero_sub] at this
        rw [this, Option.map_some]
        congr 1
        ring
  · intro lo hi p
    rcases lt_or_ge p a' with h | h
    · rw [(outside' _ _ _ _ _ a' b' p ha' hb' hab').1 h, (outside' _ _ _ _ _ (1 - b') (1 - a') (1 - p) m3 m4 (by linarith)).2 (by linarith)]
      rfl
    · rcases lt_or_ge b' p with h' | h'
      · rw [(outside' _ _ _ _ _ a' b' p ha' hb' hab').2 h', (outside' _ _ _ _ _ (1 - b') (1 - a') (1 - p) m3 m4 (by linarith)).1 (by linarith)]
        rfl
      · rw [ppf_inside _ _ _ _ _ a' b' p ha' hb' h h', ppf_inside _ _ _ _ _ (1 - b') (1 - a') (1 - p) m3 m4 (by linarith) (by linarith)]
        have := C139_mirror (quants.zip locs) (by rw [e2]; exact hq) (by simp; omega) 1 (-1) 0 a' b' (by rw [e2]; exact ha') (by rw [e2]; exact hb') p h h'
        rw [← mirror_zip 1 quants locs hlen] at this
        rw [show (fun x : K => -1 * x + 0) = fun q => 0 - q by funext q; ring, ← hm] at this
        rw [this, Option.map_some]
        congr 1
        ring

/-! ### Linearity and stability -/

/-- a list with one 1 in place `i` -/
def unitList (n i : ℕ) : List K := (List.range n).map fun (j : ℕ) => if j = i then 1 else 0

/-- the influence of each location on the quantile for `p`: the quantile for `p` when this location is 1 and all others are 0 -/
def weights (quants : List K) (p : K) : List K := (List.range quants.length).map fun (i : ℕ) => quadSpline (quants.zip (unitList quants.length i)) p

theorem unitList_succ (n i : ℕ) : (unitList (n + 1) (i + 1) : List K) = 0 :: unitList n i := by
  unfold unitList
  rw [List.range_succ_eq_map]
  simp [Function.comp_def]

theorem unitList_zero (n : ℕ) : (unitList (n + 1) 0 : List K) = 1 :: List.replicate n 0 := by
  unfold unitList
  rw [List.range_succ_eq_map]
  simp [Function.comp_def]

/-- a function of lists of length `n` that is linear is a weighted sum -/
theorem linear_sum : ∀ (n : ℕ) (f : List K → K),
    (∀ (k : K) (l l' : List K), l.length = n → l'.length = n → f (List.zipWith (fun a b => a + k * b) l l') = f l + k * f l') →
    ∀ l : List K, l.length = n → f l = (List.zipWith (· * ·) ((List.range n).map fun (i : ℕ) => f (unitList n i)) l).sum
  | 0, f, hf, l, hl => by
    rw [List.length_eq_zero_iff.1 hl]
    have := hf 1 [] [] rfl rfl
    simp at this
    simp [this]
  | n + 1, f, hf, [], hl => by simp at hl
  | n + 1, f, hf, a :: l, hl => by
    have hl' : l.length = n := by simpa using hl
    have hz : ∀ m : List K, m.length = n → ∀ k : K, List.zipWith (fun a b => a + k * b) m (List.replicate n 0) = m := by
      intro m hm k
      apply List.ext_getElem
      · simp [hm]
      · intro i h1 h2
        simp
    have e1 : f (a :: l) = f (0 :: l) + a * f (1 :: List.replicate n 0) := by
      have := hf a (0 :: l) (1 :: List.replicate n 0) (by simp [hl']) (by simp)
      rw [List.zipWith_cons_cons, hz l hl'] at this
      simpa using this
    have ih := linear_sum n (fun m => f (0 :: m)) (fun k m m' hm hm' => by
      have := hf k (0 :: m) (0 :: m') (by simp [hm]) (by simp [hm'])
      simpa using this) l hl'
    rw [e1, List.range_succ_eq_map, List.map_cons, List.map_map, List.zipWith_cons_cons, List.sum_cons, unitList_zero, ih]
    simp only [Function.comp_def, Nat.succ_eq_add_one, unitList_succ]
    ring

theorem spline_linear (xs l l' : List K) (k x : K) (h : l.length = xs.length) (h' : l'.length = xs.length) :
    quadSpline (xs.zip (List.zipWith (fun a b => a + k * b) l l')) x = quadSpline (xs.zip l) x + k * quadSpline (xs.zip l') x := by
  have := spline_lin k x (xs.zip (l.zip l'))
  have e : ∀ (xs l l' : List K), l.length = xs.length → l'.length = xs.length →
      comb k (xs.zip (l.zip l')) = xs.zip (List.zipWith (fun a b => a + k * b) l l') ∧ fstOf (xs.zip (l.zip l')) = xs.zip l ∧ sndOf (xs.zip (l.zip l')) = xs.zip l' := by
    intro xs
    induction xs with
    | nil => intro l l' _ _; simp [comb, fstOf, sndOf]
    | cons x xs ih =>
      intro l l' h h'
      match l, l' with
      | [], _ => simp at h
      | _, [] => simp at h'
      | a :: l, b :: l' =>
        obtain ⟨i1, i2, i3⟩ := ih l l' (by simpa using h) (by simpa using h')
        simp only [comb, fstOf, sndOf] at i1 i2 i3
        simp [comb, fstOf, sndOf, i1, i2, i3]
  obtain ⟨i1, i2, i3⟩ := e xs l l' h h'
  rw [i1, i2, i3] at this
  exact this

/-- **C139: linearity.** The quantile for `p` is a weighted sum of the locations; the weights depend on the probabilities and `p` only, and sum to one. -/
theorem C139_weights (lo hi : K) (quants locs : List K) (hq : quants.Pairwise (· < ·)) (hlen : quants.length = locs.length) (hn : 3 ≤ quants.length) (a b p : K)
    (ha : quants.head? = some a) (hb : quants.getLast? = some b) (hap : a ≤ p) (hpb : p ≤ b) :
    quantPpf quadSpline lo hi quants locs p = some (List.zipWith (· * ·) (weights quants p) locs).sum ∧ (weights quants p).length = quants.length ∧ (weights quants p).sum = 1 := by
  have key := linear_sum quants.length (fun l => quadSpline (quants.zip l) p) (fun k l l' h h' => spline_linear quants l l' k p h h')
  refine ⟨?_, by simp [weights], ?_⟩
  · rw [ppf_inside _ _ _ _ _ a b p ha hb hap hpb]
    exact congrArg some (key locs hlen.symm)
  · have h1 := key (List.replicate quants.length 1) (by simp)
    have e : quadSpline (quants.zip (List.replicate quants.length 1)) p = 1 := by
      have e1 : (quants.zip (List.replicate quants.length (1 : K))).map Prod.fst = quants := map_fst_zip' _ _ (by simp)
      rw [← C139_unique _ (by rw [e1]; exact hq) (by simpa using hn) _ (parabola_spline _ 1 0 0 ?_) a b (by rw [e1]; exact ha) (by rw [e1]; exact hb) p hap hpb]
      · ring
      · intro q hq'
        rw [List.eq_of_mem_replicate (List.of_mem_zip hq').2]
        ring
    rw [e] at h1
    rw [h1]
    unfold weights
    generalize hw : (List.range quants.length).map (fun (i : ℕ) => quadSpline (quants.zip (unitList quants.length i)) p) = w
    have hwl : w.length = quants.length := by rw [← hw]; simp
    rw [← hwl]
    clear hw hwl key h1 e
    induction w with
    | nil => rfl
    | cons u w ih => simp [List.replicate_succ, ih]

/-- **C133: quantiles.** If no location moves by more than `δ`, the quantile for `p` moves by at most `δ` times the sum of the sizes of the weights (which depend on the stored probabilities and `p`
only), and for every row of locations there is a change of this size. -/
theorem C133_quant_any (lo hi lo' hi' : K) (quants : List K) (hq : quants.Pairwise (· < ·)) (hn : 3 ≤ quants.length) (a b p δ : K)
    (ha : quants.head? = some a) (hb : quants.getLast? = some b) (hap : a ≤ p) (hpb : p ≤ b) (h0 : 0 ≤ δ) :
    (∀ locs locs' : List K, locs.length = quants.length → List.Forall₂ (fun l l' => |l' - l| ≤ δ) locs locs' →
      ∃ x x', quantPpf quadSpline lo hi quants locs p = some x ∧ quantPpf quadSpline lo' hi' quants locs' p = some x' ∧ |x' - x| ≤ δ * ((weights quants p).map fun w => |w|).sum) ∧
    ∀ locs : List K, locs.length = quants.length → ∃ locs', List.Forall₂ (fun l l' => |l' - l| ≤ δ) locs locs' ∧
      ∃ x x', quantPpf quadSpline lo hi quants locs p = some x ∧ quantPpf quadSpline lo' hi' quants locs' p = some x' ∧ |x' - x| = δ * ((weights quants p).map fun w => |w|).sum := by
  have hw := fun (lo hi : K) (locs : List K) (h : locs.length = quants.length) => (C139_weights lo hi quants locs hq h.symm hn a b p ha hb hap hpb).1
  have hwl : (weights quants p).length = quants.length := by simp [weights]
  constructor
  · intro locs locs' hl hd
    refine ⟨_, _, hw lo hi locs hl, hw lo' hi' locs' (by rw [← hd.length_eq, hl]), ?_⟩
    rw [← hwl] at hl
    generalize weights quants p = w at hl
    clear hw hwl ha hb
    induction hd generalizing w with
    | nil => rw [List.length_eq_zero_iff.1 hl.symm]; simp
    | @cons x y l l' hxy _ ih =>
      match w with
      | [] => simp at hl
      | u :: w =>
        have := ih w (by simpa using hl)
        simp only [List.zipWith_cons_cons, List.sum_cons, List.map_cons]
        have e : |u * (y - x)| ≤ δ * |u| := by rw [abs_mul, mul_comm]; exact mul_le_mul_of_nonneg_right hxy (abs_nonneg u)
        rw [show u * y + (List.zipWith (· * ·) w l').sum - (u * x + (List.zipWith (· * ·) w l).sum) =
          u * (y - x) + ((List.zipWith (· * ·) w l').sum - (List.zipWith (· * ·) w l).sum) by ring]
        calc _ ≤ |u * (y - x)| + |(List.zipWith (· * ·) w l').sum - (List.zipWith (· * ·) w l).sum| := abs_add_le _ _
          _ ≤ _ := by rw [mul_add]; exact add_le_add e this
  · intro locs hl
    have e : ∀ r : K, ∃ d, |d| ≤ δ ∧ r * d = δ * |r| := fun r => by
      rcases le_total 0 r with h | h
      · exact ⟨δ, (abs_of_nonneg h0).le, by rw [abs_of_nonneg h, mul_comm]⟩
      · exact ⟨-δ, by rw [abs_neg, abs_of_nonneg h0], by rw [abs_of_nonpos h]; ring⟩
    have key : ∀ (w locs : List K), locs.length = w.length → ∃ locs', List.Forall₂ (fun l l' => |l' - l| ≤ δ) locs locs' ∧
        (List.zipWith (· * ·) w locs').sum - (List.zipWith (· * ·) w locs).sum = δ * (w.map fun w => |w|).sum := by
      intro w
      induction w with
      | nil => intro locs h; rw [List.length_eq_zero_iff.1 h]; exact ⟨[], .nil, by simp⟩
      | cons u w ih =>
        intro locs h
        match locs with
        | [] => simp at h
        | x :: l =>
          obtain ⟨l', i1, i2⟩ := ih l (by simpa using h)
          obtain ⟨d, hd, hd'⟩ := e u
          refine ⟨(x + d) :: l', .cons (by simpa using hd) i1, ?_⟩
          simp only [List.zipWith_cons_cons, List.sum_cons, List.map_cons, mul_add]
          rw [hd']
          linarith
    obtain ⟨locs', h1, h2⟩ := key (weights quants p) locs (by rw [hwl, hl])
    refine ⟨locs', h1, _, _, hw lo hi locs hl, hw lo' hi' locs' (by rw [← h1.length_eq, hl]), ?_⟩
    rw [h2, abs_of_nonneg]
    refine mul_nonneg h0 (List.sum_nonneg ?_)
    intro y hy
    obtain ⟨z, -, rfl⟩ := List.mem_map.1 hy
    exact abs_nonneg z

end Verif.Props.QuadSpline
