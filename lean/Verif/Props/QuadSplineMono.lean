import Verif.Props.QuadSpline
import Verif.Props.QuantSpline
import Verif.Props.OrderMore
import Verif.Props.PitMeta
import Mathlib.Analysis.Calculus.Deriv.Pow

/-!
# C19, C139: when the CDF of a quantile PDF is one, for any number of quantiles; smoothness
-/

set_option linter.unusedSectionVars false
set_option autoImplicit false

namespace Verif.Props.QuadSpline

open Verif Verif.Np Verif.Model Verif.Spec Verif.Lemmas.QuadSpline

variable {K : Type} [Field K] [LinearOrder K] [IsStrictOrderedRing K]

/-- on one piece the increase is the mean slope times the distance -/
theorem piece_increase {s s' : K → K} {a b : K} (h : Piece s s' a b) {x y : K} (h1 : a ≤ x) (h2 : x ≤ y) (h3 : y ≤ b) : s y - s x = (y - x) * ((s' x + s' y) / 2) := by
  obtain ⟨c, h⟩ := h
  rw [(h x h1 (h2.trans h3)).1, (h y (h1.trans h2) h3).1, (h x h1 (h2.trans h3)).2, (h y (h1.trans h2) h3).2]
  ring

/-- on one piece the slope lies between the slopes at the ends -/
theorem piece_slope {s s' : K → K} {a b : K} (h : Piece s s' a b) (hab : a < b) (ha : 0 ≤ s' a) (hb : 0 ≤ s' b) {x : K} (h1 : a ≤ x) (h2 : x ≤ b) : 0 ≤ s' x := by
  obtain ⟨c, h⟩ := h
  have e1 := (h x h1 h2).2
  have e2 := (h b hab.le le_rfl).2
  have e : s' x * (b - a) = s' a * (b - x) + s' b * (x - a) := by rw [e1, e2]; ring
  have hba : 0 < b - a := sub_pos.2 hab
  have : 0 ≤ s' x * (b - a) := by rw [e]; exact add_nonneg (mul_nonneg ha (sub_nonneg.2 h2)) (mul_nonneg hb (sub_nonneg.2 h1))
  exact nonneg_of_mul_nonneg_left this hba

theorem mono_of_slopes (s s' : K → K) : ∀ (l : List K) (a : K), (a :: l).IsChain (Piece s s') → (a :: l).Pairwise (· < ·) → (∀ m ∈ a :: l, 0 ≤ s' m) →
    ∀ x y, a ≤ x → x ≤ y → (∀ b ∈ (a :: l).getLast?, y ≤ b) → s x ≤ s y
  | [], a, _, _, _, x, y, h1, h2, h3 => by
    have := h3 a (by simp)
    rw [le_antisymm (h2.trans this) h1, le_antisymm this (h1.trans h2)]
  | b :: l, a, hc, hp, hm, x, y, h1, h2, h3 => by
    rw [List.isChain_cons_cons] at hc
    have hab : a < b := (List.pairwise_cons.1 hp).1 b (by simp)
    have same : ∀ x y, a ≤ x → x ≤ y → y ≤ b → s x ≤ s y := by
      intro x y h1 h2 h3
      have e := piece_increase hc.1 h1 h2 h3
      have p1 := piece_slope hc.1 hab (hm a (by simp)) (hm b (by simp)) h1 (h2.trans h3)
      have p2 := piece_slope hc.1 hab (hm a (by simp)) (hm b (by simp)) (h1.trans h2) h3
      have : 0 ≤ (y - x) * ((s' x + s' y) / 2) := mul_nonneg (sub_nonneg.2 h2) (by linarith)
      linarith
    have ih := mono_of_slopes s s' l b hc.2 (List.pairwise_cons.1 hp).2 (fun m hm' => hm m (List.mem_cons_of_mem _ hm'))
    rcases le_total y b with hy | hy
    · exact same x y h1 h2 hy
    · rcases le_total b x with hx | hx
      · exact ih x y hx h2 (fun c hc' => h3 c (by simpa using hc'))
      · exact (same x b h1 hx le_rfl).trans (ih b y le_rfl hy (fun c hc' => h3 c (by simpa using hc')))

/-- a parabola that never decreases on a piece has no negative slope at its ends -/
theorem slopes_of_piece {s s' : K → K} {a b : K} (h : Piece s s' a b) (hab : a < b) (hm : ∀ x y, a ≤ x → x ≤ y → y ≤ b → s x ≤ s y) : 0 ≤ s' a ∧ 0 ≤ s' b := by
  have hP := h
  obtain ⟨c, h⟩ := h
  have lin : ∀ t, a ≤ t → t ≤ b → s' t = s' a + 2 * c * (t - a) := fun t h1 h2 => (h t h1 h2).2
  constructor
  · by_contra hn
    push Not at hn
    -- a point next to `a` at which the slope is still negative
    obtain ⟨ε, h0, h1, h2⟩ : ∃ ε, 0 < ε ∧ ε ≤ b - a ∧ 2 * c * ε ≤ -s' a / 2 := by
      have hd : 0 < 2 * |c| + 1 := by positivity
      refine ⟨min (b - a) (-s' a / (2 * (2 * |c| + 1))), lt_min (sub_pos.2 hab) (div_pos (by linarith) (by positivity)), min_le_left _ _, ?_⟩
      have hmn : 0 ≤ min (b - a) (-s' a / (2 * (2 * |c| + 1))) := (lt_min (sub_pos.2 hab) (div_pos (by linarith) (by positivity))).le
      calc 2 * c * min (b - a) (-s' a / (2 * (2 * |c| + 1))) ≤ (2 * |c| + 1) * min (b - a) (-s' a / (2 * (2 * |c| + 1))) :=
            mul_le_mul_of_nonneg_right (by linarith [le_abs_self c]) hmn
        _ ≤ (2 * |c| + 1) * (-s' a / (2 * (2 * |c| + 1))) := mul_le_mul_of_nonneg_left (min_le_right _ _) hd.le
        _ = -s' a / 2 := by field_simp
    have e := piece_increase hP (le_refl a) (show a ≤ a + ε by linarith) (by linarith)
    have g := hm a (a + ε) le_rfl (by linarith) (by linarith)
    rw [lin (a + ε) (by linarith) (by linarith), add_sub_cancel_left] at e
    have : ε * ((s' a + (s' a + 2 * c * ε)) / 2) < 0 := mul_neg_of_pos_of_neg h0 (by linarith)
    linarith
  · by_contra hn
    push Not at hn
    obtain ⟨ε, h0, h1, h2⟩ : ∃ ε, 0 < ε ∧ ε ≤ b - a ∧ -(2 * c * ε) ≤ -s' b / 2 := by
      have hd : 0 < 2 * |c| + 1 := by positivity
      refine ⟨min (b - a) (-s' b / (2 * (2 * |c| + 1))), lt_min (sub_pos.2 hab) (div_pos (by linarith) (by positivity)), min_le_left _ _, ?_⟩
      have hmn : 0 ≤ min (b - a) (-s' b / (2 * (2 * |c| + 1))) := (lt_min (sub_pos.2 hab) (div_pos (by linarith) (by positivity))).le
      calc -(2 * c * min (b - a) (-s' b / (2 * (2 * |c| + 1)))) = (2 * -c) * min (b - a) (-s' b / (2 * (2 * |c| + 1))) := by ring
        _ ≤ (2 * |c| + 1) * min (b - a) (-s' b / (2 * (2 * |c| + 1))) := mul_le_mul_of_nonneg_right (by linarith [neg_le_abs c]) hmn
        _ ≤ (2 * |c| + 1) * (-s' b / (2 * (2 * |c| + 1))) := mul_le_mul_of_nonneg_left (min_le_right _ _) hd.le
        _ = -s' b / 2 := by field_simp
    have e := piece_increase hP (show a ≤ b - ε by linarith) (show b - ε ≤ b by linarith) le_rfl
    have g := hm (b - ε) b (by linarith) (by linarith) le_rfl
    have l1 := lin (b - ε) (by linarith) (by linarith)
    have l2 := lin b hab.le le_rfl
    have l3 : s' (b - ε) = s' b - 2 * c * ε := by rw [l1, l2]; ring
    rw [l3, sub_sub_cancel] at e
    have : ε * ((s' b - 2 * c * ε + s' b) / 2) < 0 := mul_neg_of_pos_of_neg h0 (by linarith)
    linarith

theorem slopes_of_mono (s s' : K → K) : ∀ (l : List K) (a b : K), (a :: b :: l).IsChain (Piece s s') → (a :: b :: l).Pairwise (· < ·) →
    (∀ x y, a ≤ x → x ≤ y → (∀ c ∈ (a :: b :: l).getLast?, y ≤ c) → s x ≤ s y) → ∀ m ∈ a :: b :: l, 0 ≤ s' m
  | l, a, b, hc, hp, hm => by
    rw [List.isChain_cons_cons] at hc
    have hab : a < b := (List.pairwise_cons.1 hp).1 b (by simp)
    have hbl : ∀ c ∈ (a :: b :: l).getLast?, b ≤ c := by
      intro c hc'
      rw [List.getLast?_cons_cons] at hc'
      rcases List.mem_cons.1 (List.mem_of_getLast? hc') with h | h
      · exact h.ge
      · exact ((List.pairwise_cons.1 (List.pairwise_cons.1 hp).2).1 c h).le
    obtain ⟨h1, h2⟩ := slopes_of_piece hc.1 hab (fun x y g1 g2 g3 => hm x y g1 g2 (fun c hc' => g3.trans (hbl c hc')))
    intro m hm'
    rcases List.mem_cons.1 hm' with rfl | hm'
    · exact h1
    · match l with
      | [] =>
        rw [List.mem_singleton.1 hm']
        exact h2
      | d :: l =>
        exact slopes_of_mono s s' l b d hc.2 (List.pairwise_cons.1 hp).2 (fun x y g1 g2 g3 => hm x y (hab.le.trans g1) g2 (fun c hc' => g3 c (by simpa using hc'))) m hm'

/-- the break points increase, and the last one is the last abscissa -/
theorem tailBreaks_facts : ∀ (l : List K) (m x : K), (m :: x :: l).Pairwise (· < ·) →
    (m :: tailBreaks (x :: l)).Pairwise (· < ·) ∧ (m :: tailBreaks (x :: l)).getLast? = (x :: l).getLast? ∧ tailBreaks (x :: l) ≠ []
  | [], m, x, h => by simpa [tailBreaks] using h
  | [x'], m, x, h => by
    simp only [List.pairwise_cons, List.mem_cons, forall_eq_or_imp] at h
    simp only [tailBreaks, List.pairwise_cons, List.mem_cons, forall_eq_or_imp]
    simp
    exact h.1.2.1
  | x' :: x'' :: l, m, x, h => by
    have hx := h
    simp only [List.pairwise_cons, List.mem_cons, forall_eq_or_imp] at h
    have g : (x + x') / 2 < x' := by linarith [h.2.1.1]
    have g' : m < (x + x') / 2 := by linarith [h.1.1, h.2.1.1]
    obtain ⟨i1, i2, -⟩ := tailBreaks_facts (x'' :: l) ((x + x') / 2) x' (by
      simp only [List.pairwise_cons, List.mem_cons, forall_eq_or_imp]
      exact ⟨⟨g, g.trans h.2.2.1.1, fun a ha => g.trans (h.2.2.1.2 a ha)⟩, h.2.2⟩)
    refine ⟨?_, ?_, by simp [tailBreaks]⟩
    · simp only [tailBreaks]
      refine List.pairwise_cons.2 ⟨fun y hy => ?_, i1⟩
      rcases List.mem_cons.1 hy with rfl | hy
      · exact g'
      · exact g'.trans ((List.pairwise_cons.1 i1).1 y hy)
    · rw [tailBreaks, List.getLast?_cons_cons, i2]
      simp

/-- **C19: exactly when the CDF is one, any number of quantiles.** Let `s'` be the slopes of the CDF (a slope function with which the CDF is a parabola between neighbouring break points). For
stored quantiles from 0 to 1 the CDF never decreases on the whole line if and only if its slope is not negative at any break point (the two ends included); in that case it stays in [0,1].
Missing: it is false without this condition (`C19_not_a_cdf`), so a quantile CDF is not always a CDF. -/
theorem C19_monotone_iff_partial (quants locs : List K) (hl : locs.Pairwise (· < ·)) (hlen : quants.length = locs.length) (hn : 3 ≤ locs.length) (h0 : quants.head? = some 0) (h1 : quants.getLast? = some 1)
    (s' : K → K) (hs' : (breakPoints locs).IsChain fun a b => ∃ c, ∀ t, a ≤ t → t ≤ b →
      quadSpline (locs.zip quants) t = quadSpline (locs.zip quants) a + s' a * (t - a) + c * (t - a) ^ 2 ∧ s' t = s' a + 2 * c * (t - a)) :
    ((∀ x y F G, x ≤ y → quantCdf quadSpline quants locs x = some F → quantCdf quadSpline quants locs y = some G → F ≤ G) ↔ ∀ m ∈ breakPoints locs, 0 ≤ s' m) ∧
    ((∀ m ∈ breakPoints locs, 0 ≤ s' m) → ∀ x, ∃ F, quantCdf quadSpline quants locs x = some F ∧ 0 ≤ F ∧ F ≤ 1) := by
  match locs, hn with
  | l0 :: l1 :: t, _ =>
    rw [breakPoints_cons] at hs' ⊢
    obtain ⟨f1, f2, f3⟩ := tailBreaks_facts t l0 l1 hl
    obtain ⟨b0, bt, hbt⟩ := List.exists_cons_of_ne_nil f3
    obtain ⟨q0, qt, rfl⟩ : ∃ q0 qt, quants = q0 :: qt := List.exists_cons_of_ne_nil (by rintro rfl; simp at h0)
    simp only [List.head?_cons, Option.some.injEq] at h0
    subst h0
    obtain ⟨b, hb⟩ : ∃ b, (l0 :: l1 :: t).getLast? = some b := ⟨_, List.getLast?_eq_some_getLast (by simp)⟩
    have hb2 : (l0 :: tailBreaks (l1 :: t)).getLast? = some b := by rw [f2, ← hb, List.getLast?_cons_cons]
    have hab : l0 ≤ b := by
      rw [List.getLast?_cons_cons] at hb
      exact ((List.pairwise_cons.1 hl).1 b (List.mem_of_getLast? hb)).le
    have e1 := map_fst_zip' (l0 :: l1 :: t) (0 :: qt) hlen.symm
    set S := quadSpline ((l0 :: l1 :: t).zip (0 :: qt)) with hS
    have thr := through ((l0 :: l1 :: t).zip (0 :: qt)) (by rw [e1]; exact hl)
    have hS0 : S l0 = 0 := thr (l0, 0) (by simp)
    have hS1 : S b = 1 := by
      refine thr (b, 1) ?_
      rw [List.getLast?_eq_getElem?] at hb h1
      apply List.mem_of_getElem? (i := (l0 :: l1 :: t).length - 1)
      rw [List.getElem?_zip_eq_some]
      refine ⟨hb, ?_⟩
      rw [← hlen]
      exact h1
    have val : ∀ x, quantCdf quadSpline (0 :: qt) (l0 :: l1 :: t) x = some (if x < l0 then 0 else if b < x then 1 else S x) := by
      intro x
      have hb' := hb
      rw [List.getLast?_eq_some_getLast (by simp), Option.some.injEq] at hb'
      simp only [quantCdf, hb']
      split_ifs <;> rfl
    have key : (∀ m ∈ l0 :: tailBreaks (l1 :: t), 0 ≤ s' m) → ∀ x y, l0 ≤ x → x ≤ y → y ≤ b → S x ≤ S y := fun hm x y g1 g2 g3 =>
      mono_of_slopes S s' (tailBreaks (l1 :: t)) l0 hs' f1 hm x y g1 g2 (fun c hc => by rw [hb2] at hc; rw [← Option.some.inj hc]; exact g3)
    have bound : (∀ m ∈ l0 :: tailBreaks (l1 :: t), 0 ≤ s' m) → ∀ x, l0 ≤ x → x ≤ b → 0 ≤ S x ∧ S x ≤ 1 := fun hm x g1 g2 =>
      ⟨hS0 ▸ key hm l0 x le_rfl g1 g2, hS1 ▸ key hm x b g1 g2 le_rfl⟩
    refine ⟨⟨fun h => ?_, fun hm x y F G hxy hF hG => ?_⟩, fun hm x => ⟨_, val x, ?_⟩⟩
    · have hmono : ∀ x y, l0 ≤ x → x ≤ y → (∀ c ∈ (l0 :: tailBreaks (l1 :: t)).getLast?, y ≤ c) → S x ≤ S y := by
        intro x y g1 g2 g3
        have g4 := g3 b hb2
        have z := h x y _ _ g2 (val x) (val y)
        rw [if_neg (not_lt.2 g1), if_neg (not_lt.2 (g2.trans g4)), if_neg (not_lt.2 (g1.trans g2)), if_neg (not_lt.2 g4)] at z
        exact z
      rw [hbt] at hs' f1 hmono ⊢
      exact slopes_of_mono S s' bt l0 b0 hs' f1 hmono
    · rw [val] at hF hG
      rw [← Option.some.inj hF, ← Option.some.inj hG]
      split_ifs with c1 c2 c3 c4 c5 c6
      · exact le_rfl
      · exact zero_le_one
      · exact (bound hm y (not_lt.1 c2) (not_lt.1 c3)).1
      · linarith
      · exact le_rfl
      · linarith
      · linarith
      · exact (bound hm x (not_lt.1 c1) (not_lt.1 c4)).2
      · exact key hm x y (not_lt.1 c1) hxy (not_lt.1 ‹_›)
    · split_ifs with c1 c2
      · exact ⟨le_rfl, zero_le_one⟩
      · exact ⟨zero_le_one, le_rfl⟩
      · exact bound hm x (not_lt.1 c1) (not_lt.1 c2)

/-! ### Smoothness over the real numbers -/

theorem hasDerivAt_val (m v d c t : ℝ) : HasDerivAt (fun x => quadVal m v d c x) (quadSlope m d c t) t := by
  unfold quadVal quadSlope
  have h : HasDerivAt (fun x : ℝ => x - m) 1 t := (hasDerivAt_id t).sub_const m
  have := ((h.const_mul d).const_add v).add ((h.mul h).const_mul c)
  refine this.congr_deriv ?_
  ring

theorem continuous_slopeGo : ∀ (pts : List (ℝ × ℝ)) (m v d : ℝ), (m :: pts.map Prod.fst).Pairwise (· < ·) → Continuous (slopeGo m v d pts)
  | [], m, v, d, _ => show Continuous fun _ => d from continuous_const
  | [p], m, v, d, _ => by
    show Continuous fun x => quadSlope m d (quadCurv m v d p.1 p.2) x
    unfold quadSlope
    fun_prop
  | [p, p'], m, v, d, _ => by
    show Continuous fun x => quadSlope m d (quadCurv m v d p.1 p.2) x
    unfold quadSlope
    fun_prop
  | p :: p' :: p'' :: t, m, v, d, hs => by
    obtain ⟨h1, h2, h3⟩ := sorted_step hs
    have ih := continuous_slopeGo (p' :: p'' :: t) ((p.1 + p'.1) / 2) (quadVal m v d (quadCurv m v d p.1 p.2) ((p.1 + p'.1) / 2))
      (quadSlope m d (quadCurv m v d p.1 p.2) ((p.1 + p'.1) / 2)) h3
    show Continuous fun x => if x ≤ (p.1 + p'.1) / 2 then quadSlope m d (quadCurv m v d p.1 p.2) x else slopeGo ((p.1 + p'.1) / 2)
      (quadVal m v d (quadCurv m v d p.1 p.2) ((p.1 + p'.1) / 2)) (quadSlope m d (quadCurv m v d p.1 p.2) ((p.1 + p'.1) / 2)) (p' :: p'' :: t) x
    refine Continuous.if_le (by unfold quadSlope; fun_prop) ih continuous_id continuous_const ?_
    rintro x rfl
    exact (go_left _ _ _ p' (p'' :: t) h3).2.symm

theorem hasDerivAt_go : ∀ (pts : List (ℝ × ℝ)) (m v d : ℝ), (m :: pts.map Prod.fst).Pairwise (· < ·) → pts ≠ [] → ∀ t, HasDerivAt (quadGo m v d pts) (slopeGo m v d pts t) t
  | [], m, v, d, _, hne => absurd rfl hne
  | [p], m, v, d, _, _ => fun t => hasDerivAt_val _ _ _ _ t
  | [p, p'], m, v, d, _, _ => fun t => hasDerivAt_val _ _ _ _ t
  | p :: p' :: p'' :: l, m, v, d, hs, _ => by
    intro t
    obtain ⟨h1, h2, h3⟩ := sorted_step hs
    set m' := (p.1 + p'.1) / 2 with hm'
    have ih := hasDerivAt_go (p' :: p'' :: l) m' (quadVal m v d (quadCurv m v d p.1 p.2) m') (quadSlope m d (quadCurv m v d p.1 p.2) m') h3 (by simp)
    obtain ⟨g1, g2⟩ := go_left m' (quadVal m v d (quadCurv m v d p.1 p.2) m') (quadSlope m d (quadCurv m v d p.1 p.2) m') p' (p'' :: l) h3
    have left : ∀ x, x ≤ m' → quadGo m v d (p :: p' :: p'' :: l) x = quadVal m v d (quadCurv m v d p.1 p.2) x := fun x hx => by
      simp only [quadGo, ← hm', if_pos hx]
    have right : ∀ x, m' ≤ x → quadGo m v d (p :: p' :: p'' :: l) x =
        quadGo m' (quadVal m v d (quadCurv m v d p.1 p.2) m') (quadSlope m d (quadCurv m v d p.1 p.2) m') (p' :: p'' :: l) x := fun x hx => by
      rcases hx.lt_or_eq with hx | rfl
      · simp only [quadGo, ← hm', if_neg (not_le.2 hx)]
      · rw [g1]; exact left _ le_rfl
    rcases lt_trichotomy t m' with ht | ht | ht
    · have e : slopeGo m v d (p :: p' :: p'' :: l) t = quadSlope m d (quadCurv m v d p.1 p.2) t := by simp only [slopeGo, ← hm', if_pos ht.le]
      rw [e]
      refine (hasDerivAt_val m v d _ t).congr_of_eventuallyEq ?_
      filter_upwards [Iio_mem_nhds ht] with x hx
      exact left x hx.le
    · subst ht
      have e : slopeGo m v d (p :: p' :: p'' :: l) m' = quadSlope m d (quadCurv m v d p.1 p.2) m' := by simp only [slopeGo, ← hm', le_refl, if_true]
      rw [e]
      have d1 : HasDerivWithinAt (quadGo m v d (p :: p' :: p'' :: l)) (quadSlope m d (quadCurv m v d p.1 p.2) m') (Set.Iic m') m' :=
        (hasDerivAt_val m v d (quadCurv m v d p.1 p.2) m').hasDerivWithinAt.congr (fun x hx => left x hx) (left _ le_rfl)
      have i0 := ih m'
      rw [g2] at i0
      have d2 : HasDerivWithinAt (quadGo m v d (p :: p' :: p'' :: l)) (quadSlope m d (quadCurv m v d p.1 p.2) m') (Set.Ici m') m' :=
        i0.hasDerivWithinAt.congr (fun x hx => right x hx) (right _ le_rfl)
      have := d1.union d2
      rw [Set.Iic_union_Ici, hasDerivWithinAt_univ] at this
      exact this
    · have e : slopeGo m v d (p :: p' :: p'' :: l) t = slopeGo m' (quadVal m v d (quadCurv m v d p.1 p.2) m') (quadSlope m d (quadCurv m v d p.1 p.2) m') (p' :: p'' :: l) t := by
        simp only [slopeGo, ← hm', if_neg (not_le.2 ht)]
      rw [e]
      refine (ih t).congr_of_eventuallyEq ?_
      filter_upwards [Ioi_mem_nhds ht] with x hx
      exact right x hx.le

/-- **C139: the curve is continuously differentiable** and goes through its points. -/
theorem C139_smooth (pts : List (ℝ × ℝ)) (hs : (pts.map Prod.fst).Pairwise (· < ·)) (hn : 2 ≤ pts.length) : QuantSpline.Interpolant (quadSpline pts) pts := by
  match pts, hn with
  | p0 :: p1 :: t, _ =>
    have h := hasDerivAt_go (p1 :: t) p0.1 p0.2 (quadStart p0.1 p0.2 (p1 :: t)) hs (by simp)
    refine ⟨fun x => (h x).differentiableAt, ?_, through _ hs⟩
    have e : deriv (quadSpline (p0 :: p1 :: t)) = slopeGo p0.1 p0.2 (quadStart p0.1 p0.2 (p1 :: t)) (p1 :: t) := funext fun x => (h x).deriv
    rw [e]
    exact continuous_slopeGo _ _ _ _ hs

/-- **C139: continuity of the CDF.** For stored quantiles from 0 to 1 the CDF is a continuous function on the whole line. -/
theorem C139_continuous (quants locs : List ℝ) (hl : locs.Pairwise (· < ·)) (hlen : quants.length = locs.length) (hn : 2 ≤ locs.length) (h0 : quants.head? = some 0) (h1 : quants.getLast? = some 1) :
    ∃ F : ℝ → ℝ, (∀ x, quantCdf quadSpline quants locs x = some (F x)) ∧ Continuous F := by
  match locs, hn with
  | l0 :: l1 :: t, _ =>
    obtain ⟨q0, qt, rfl⟩ : ∃ q0 qt, quants = q0 :: qt := List.exists_cons_of_ne_nil (by rintro rfl; simp at h0)
    simp only [List.head?_cons, Option.some.injEq] at h0
    subst h0
    obtain ⟨b, hb⟩ : ∃ b, (l0 :: l1 :: t).getLast? = some b := ⟨_, List.getLast?_eq_some_getLast (by simp)⟩
    have e1 := map_fst_zip' (l0 :: l1 :: t) (0 :: qt) hlen.symm
    have hI := C139_smooth ((l0 :: l1 :: t).zip (0 :: qt)) (by rw [e1]; exact hl) (by simp at hlen; simp; omega)
    have hS1 : quadSpline ((l0 :: l1 :: t).zip (0 :: qt)) b = 1 := by
      refine hI.through (b, 1) ?_
      rw [List.getLast?_eq_getElem?] at hb h1
      apply List.mem_of_getElem? (i := (l0 :: l1 :: t).length - 1)
      rw [List.getElem?_zip_eq_some]
      refine ⟨hb, ?_⟩
      rw [← hlen]
      exact h1
    have hab : l0 < b := by
      rw [List.getLast?_cons_cons] at hb
      exact (List.pairwise_cons.1 hl).1 b (List.mem_of_getLast? hb)
    refine ⟨fun x => if x ≤ l0 then 0 else if b ≤ x then 1 else quadSpline ((l0 :: l1 :: t).zip (0 :: qt)) x, fun x => ?_, ?_⟩
    · have hb' := hb
      rw [List.getLast?_eq_some_getLast (by simp), Option.some.injEq] at hb'
      have hS0 : quadSpline ((l0 :: l1 :: t).zip (0 :: qt)) l0 = 0 := hI.through (l0, 0) (by simp)
      simp only [quantCdf, hb']
      rcases lt_trichotomy x l0 with h | h | h
      · rw [if_pos h, if_pos h.le]
      · rw [h, if_neg (lt_irrefl _), if_neg (not_lt.2 hab.le), if_pos le_rfl, hS0]
      · rw [if_neg h.not_gt, if_neg (not_le.2 h)]
        rcases lt_trichotomy x b with g | g | g
        · rw [if_neg g.not_gt, if_neg (not_le.2 g)]
        · rw [g, if_neg (lt_irrefl _), if_pos le_rfl, hS1]
        · rw [if_pos g, if_pos g.le]
    · refine Continuous.if_le continuous_const (Continuous.if_le continuous_const hI.diff.continuous continuous_const continuous_id ?_) continuous_id continuous_const ?_
      · rintro x rfl
        exact hS1.symm
      · rintro x rfl
        rw [if_neg (not_le.2 hab)]
        exact (hI.through (x, 0) (by simp)).symm

/-! ### The theorems about quantile PDFs that take an interpolant, with the interpolant of scipy -/

/-- **C19: the stored points**, with the quadratic spline: `C19_knots_partial` without a hypothesis on the interpolant. -/
theorem C19_knots_spline (quants locs : List K) (hl : locs.Pairwise (· < ·)) (hlen : quants.length = locs.length) (hne : locs ≠ []) :
    (∀ (i : ℕ) (l q : K), locs[i]? = some l → quants[i]? = some q → quantCdf quadSpline quants locs l = some q) ∧
    (∀ x, (∀ l ∈ locs, x < l) → quantCdf quadSpline quants locs x = some 0) ∧ ∀ x, (∀ l ∈ locs, l < x) → quantCdf quadSpline quants locs x = some 1 :=
  Quant.C19_knots_partial quadSpline quants locs (through _ (by rw [map_fst_zip' locs quants hlen.symm]; exact hl)) hlen hl hne

/-- the interpolant of scipy meets the hypothesis on interpolants in `C86_outlier`, `C104_quantiles`, `C134_quant_partial` and others -/
theorem through_all : ∀ kn : List (K × K), (kn.map Prod.fst).Pairwise (· < ·) → ∀ p ∈ kn, quadSpline kn p.1 = p.2 := through

/-- **C19: a quantile CDF that is not one**, with four quantiles: 0, 1/10, 9/10, 1 at 0, 1, 2, 3 give -1/15 at 1/2. -/
theorem C19_four_not_a_cdf : quantCdf quadSpline [0, 1/10, 9/10, 1] ([0, 1, 2, 3] : List ℚ) (1/2) = some (-1/15) := by
  decide +kernel

/-! ## Non-vacuity -/

example := C139_exists (K := ℚ) [(0, 0), (1, 1/10), (2, 9/10), (3, 1), (5, 2)] (by decide +kernel) (by decide)
/-- the five-point curve between two stored points -/
example : quadSpline [(0, 0), (1, 1/10), (2, 1/2), (3, 9/10), (4, 1)] (3/2 : ℚ) = 39/140 := by decide +kernel
example : breakPoints ([0, 1, 2, 3, 5] : List ℚ) = [0, 3/2, 5/2, 5] := by decide +kernel
example := C139_cdf_ppf (K := ℚ) [0, 1/4, 1/2, 1] [0, 1, 4, 9] (by decide +kernel) (by decide +kernel) rfl (by decide)
/-- squares: locations 0, 1, 4, 9 of the probabilities 0, 1/3, 2/3, 1 -/
example : ∀ p ∈ ([0, 1/3, 2/3, 1] : List ℚ).zip [0, 1, 4, 9], p.2 = 0 + 0 * p.1 + 9 * p.1 ^ 2 := by decide +kernel
example : quantPpf quadSpline 0 9 [0, 1/3, 2/3, 1] ([0, 1, 4, 9] : List ℚ) (1/2) = some (9/4) := by decide +kernel
example := C131_quantiles (K := ℚ) [0, 1/4, 1/2, 1] [0, 1, 4, 9] (by decide +kernel) (by decide +kernel) rfl (by decide)
example := C116_quantiles_spline (K := ℚ) 2 1 (by norm_num) [0, 1/4, 1/2, 1] [0, 1/4, 1/2, 1] [[0, 1, 4, 9]] [[0, 1, 4, 9]] false (by decide +kernel)
example := C133_quant_any (K := ℚ) 0 9 0 9 [0, 1/4, 1/2, 1] (by decide +kernel) (by decide) 0 1 (1/3) (1/10) rfl rfl (by norm_num) (by norm_num) (by norm_num)
/-- with evenly spaced probabilities the influence of the locations on one quantile -/
example : weights ([0, 1/3, 2/3, 1] : List ℚ) (1/6) = [17/48, 13/16, -3/16, 1/48] := by decide +kernel
/-- slopes at the break points 0, 3/2, 3 of the CDF of a uniform distribution: the condition of `C19_monotone_iff_partial` holds -/
example : ∀ x : ℚ, ∃ F, quantCdf quadSpline [0, 1/3, 2/3, 1] [0, 1, 2, 3] x = some F ∧ 0 ≤ F ∧ F ≤ 1 := by
  have h := C139_unique (K := ℚ) (([0, 1, 2, 3] : List ℚ).zip [0, 1/3, 2/3, 1]) (by decide +kernel) (by decide) _ (parabola_spline _ 0 (1/3) 0 (by decide +kernel)) 0 3 rfl rfl
  refine (C19_monotone_iff_partial (K := ℚ) [0, 1/3, 2/3, 1] [0, 1, 2, 3] (by decide +kernel) rfl (by decide) rfl rfl (fun _ => 1/3) ?_).2 (by intros; norm_num)
  have hb : breakPoints ([0, 1, 2, 3] : List ℚ) = [0, 3/2, 3] := by decide +kernel
  rw [hb]
  refine .cons_cons ⟨0, fun t h1 h2 => ?_⟩ (.cons_cons ⟨0, fun t h1 h2 => ?_⟩ (.singleton _))
  · rw [← h t h1 (by linarith), ← h 0 le_rfl (by norm_num)]; constructor <;> ring
  · rw [← h t (by linarith) h2, ← h (3/2) (by norm_num) (by norm_num)]; constructor <;> ring
example := C139_smooth [(0, 0), (1, 1/10), (2, 9/10), (3, 1)] (by norm_num) (by decide)
example := C139_continuous [0, 1/10, 9/10, 1] [0, 1, 2, 3] (by norm_num) rfl (by decide) rfl rfl
example := C19_knots_spline (K := ℚ) [0, 1/10, 9/10, 1] [0, 1, 2, 3] (by decide +kernel) rfl (by simp)

end Verif.Props.QuadSpline
