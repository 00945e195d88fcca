import Verif.Lemmas.CubicStable
import Verif.Props.QuantStable
import Verif.Props.Bins

/-!
# C133 for the densities of the other reconstructions of quantile PDFs

The derivative of the spline through the quantiles, the average of two splines, and the piecewise constant reconstruction change little when the locations change little,
except at the points where they jump, which are named.
-/

set_option linter.unusedSectionVars false
set_option autoImplicit false

namespace Verif.Props.QuantStable

open Verif Verif.Np Verif.Model Verif.Lemmas Verif.Lemmas.QuantStable Filter Topology

/-- sequences that refute continuity -/
theorem seq_of_not (P : List ℝ → ℝ → Prop) (locs : List ℝ) (x : ℝ) (hcon : ¬ ∃ δ > 0, ∀ locs' : List ℝ, Within δ locs locs' → ∀ x' : ℝ, |x' - x| ≤ δ → P locs' x') :
    ∃ (L : ℕ → List ℝ) (X : ℕ → ℝ), TL atTop L locs ∧ Tendsto X atTop (𝓝 x) ∧ ∀ n, ¬ P (L n) (X n) := by
  push Not at hcon
  have hr : ∀ n : ℕ, ∃ l' : List ℝ, Within (1 / ((n : ℝ) + 1)) locs l' ∧ ∃ x', |x' - x| ≤ 1 / ((n : ℝ) + 1) ∧ ¬ P l' x' := fun n => hcon (1 / ((n : ℝ) + 1)) (by positivity)
  choose L hL X hXx hX using hr
  refine ⟨L, X, TL.of_close rate locs L hL, ?_, hX⟩
  refine tendsto_iff_dist_tendsto_zero.2 (squeeze_zero (fun n => dist_nonneg) (fun n => ?_) rate)
  rw [Real.dist_eq]
  exact hXx n

/-- continuity from convergence along sequences -/
theorem close_of_tendsto (V : List ℝ → ℝ → Option ℝ) (locs : List ℝ) (x v ε : ℝ) (hε : 0 < ε) (hv : V locs x = some v)
    (h : ∀ (L : ℕ → List ℝ) (X : ℕ → ℝ), TL atTop L locs → Tendsto X atTop (𝓝 x) → ∃ w : ℕ → ℝ, (∀ᶠ n in atTop, V (L n) (X n) = some (w n)) ∧ Tendsto w atTop (𝓝 v)) :
    ∃ δ > 0, ∀ locs' : List ℝ, Within δ locs locs' → ∀ x' : ℝ, |x' - x| ≤ δ → ∃ f f', V locs x = some f ∧ V locs' x' = some f' ∧ |f' - f| ≤ ε := by
  by_contra hcon
  obtain ⟨L, X, hL, hX, hn⟩ := seq_of_not (fun locs' x' => ∃ f f', V locs x = some f ∧ V locs' x' = some f' ∧ |f' - f| ≤ ε) locs x hcon
  obtain ⟨w, hw, hwt⟩ := h L X hL hX
  have t3 := (hwt.sub (tendsto_const_nhds (x := v))).abs
  rw [sub_self, abs_zero] at t3
  obtain ⟨n, h1, h2⟩ := (hw.and (t3.eventually_lt_const hε)).exists
  exact hn n ⟨v, w n, hv, h1, h2.le⟩

/-- **C133: the density as derivative of a spline.** Strictly between the first and the last location the density changes little when the locations and the argument change
little. Missing: the first and the last location themselves, where it jumps (`C133_quant_spline_pdf_jumps`). -/
theorem C133_quant_spline_pdf_partial (quants locs : List ℝ) (hl : locs.Pairwise (· < ·)) (hlen : quants.length = locs.length) (hn : 4 ≤ locs.length) (x a b : ℝ)
    (ha : locs.head? = some a) (hb : locs.getLast? = some b) (hax : a < x) (hxb : x < b) (ε : ℝ) (hε : 0 < ε) :
    ∃ δ > 0, ∀ locs' : List ℝ, Within δ locs locs' → ∀ x' : ℝ, |x' - x| ≤ δ →
      ∃ f f', splineDerivPdf cubSpline quants locs x = some f ∧ splineDerivPdf cubSpline quants locs' x' = some f' ∧ |f' - f| ≤ ε := by
  have inside : ∀ (l : List ℝ) (u : ℝ), l.Pairwise (· < ·) → l.length = locs.length → ∀ a b, l.head? = some a → l.getLast? = some b → a < u → u < b →
      splineDerivPdf cubSpline quants l u = some (CubicStable.splineSlope (l.zip quants) u) := by
    intro l u hs hll a b ha hb h1 h2
    have e1 := QuadSpline.map_fst_zip' l quants (by omega)
    rw [QuantSpline.values cubSpline quants l (by rintro rfl; simp at ha) a b ha hb, if_neg (by push Not; exact ⟨h1.le, h2.le⟩),
      (CubicStable.hasDerivAt_spline (l.zip quants) (by rw [e1]; exact hs) (by rw [List.length_zip]; omega) u).deriv]
  refine close_of_tendsto (splineDerivPdf cubSpline quants) locs x _ ε hε (inside locs x hl rfl a b ha hb hax hxb) ?_
  intro L X hL hX
  have e1 := QuadSpline.map_fst_zip' locs quants hlen.symm
  refine ⟨fun n => CubicStable.splineSlope ((L n).zip quants) (X n), ?_,
    (CubicStable.spline_tendsto (locs.zip quants) (fun n => (L n).zip quants) X x (TL.zip _ _ _ (fun _ => quants) hL (TL.const quants)) (by rw [e1]; exact hl)
      (by rw [List.length_zip]; omega) hX).2⟩
  have hsort := CubicStable.eventually_sorted locs L hL hl
  have hlenL := hL.length
  cases hL with
  | nil => simp at ha
  | @cons f p g t hf hg =>
    have ha' : p = a := by simpa using ha
    have hb' : (p :: t).getLast (by simp) = b := by
      rw [List.getLast?_eq_some_getLast (by simp)] at hb
      simpa using hb
    have hlast := TL.getLast t p g f hf hg
    filter_upwards [hsort, hf.eventually_lt hX (by rw [ha']; exact hax), hX.eventually_lt hlast (by rw [hb']; exact hxb)] with n h1 h2 h3
    exact inside _ (X n) h1 (hlenL n) _ _ rfl (List.getLast?_eq_some_getLast (by simp)) h2 h3

/-- non-trivial case: at the argument 2, between two locations -/
example : ∃ δ > 0, ∀ locs' : List ℝ, Within δ [0, 1, 3, 4] locs' → ∀ x' : ℝ, |x' - 2| ≤ δ →
    ∃ f f', splineDerivPdf cubSpline [0, 1/4, 3/4, 1] [0, 1, 3, 4] 2 = some f ∧ splineDerivPdf cubSpline [0, 1/4, 3/4, 1] locs' x' = some f' ∧ |f' - f| ≤ 1/100 :=
  C133_quant_spline_pdf_partial [0, 1/4, 3/4, 1] [0, 1, 3, 4] (by norm_num) rfl (by simp) 2 0 4 rfl rfl (by norm_num) (by norm_num) (1/100) (by norm_num)

/-- **C133 fails at the first location for the spline derivative**: an arbitrarily small shift of the locations takes the density there from `1/3` to 0. -/
theorem C133_quant_spline_pdf_jumps (δ : ℝ) (hδ : 0 < δ) : ∃ locs', Within δ [0, 1, 2, 3] locs' ∧
    splineDerivPdf cubSpline [0, 1/3, 2/3, 1] [0, 1, 2, 3] (0 : ℝ) = some (1/3) ∧ splineDerivPdf cubSpline [0, 1/3, 2/3, 1] locs' (0 : ℝ) = some 0 := by
  refine ⟨[δ, 1, 2, 3], ?_, ?_, ?_⟩
  · refine .cons ?_ (.cons (by simpa using hδ.le) (.cons (by simpa using hδ.le) (.cons (by simpa using hδ.le) .nil)))
    rw [sub_zero, abs_of_pos hδ]
  · rw [QuantSpline.values cubSpline _ _ (by simp) 0 3 rfl rfl, if_neg (by norm_num)]
    rw [(CubicStable.hasDerivAt_spline _ (by norm_num) (by simp) 0).deriv]
    norm_num [CubicStable.splineSlope, cubStart, cubStartMiss, cubVal, cubSlope, firstSlope, firstBend, slope3, bend3]
  · exact if_pos hδ

/-! ### the average of two splines -/

theorem evens_map {α β : Type} (f : α → β) : ∀ l : List α, (evens l).map f = evens (l.map f)
  | [] => rfl
  | [_] => rfl
  | a :: b :: t => by simp [evens, evens_map f t]

theorem odds_map {α β : Type} (f : α → β) : ∀ l : List α, (odds l).map f = odds (l.map f)
  | [] => rfl
  | [_] => rfl
  | a :: b :: t => by simp [odds, odds_map f t]

theorem evens_sublist {α : Type} : ∀ l : List α, (evens l).Sublist l
  | [] => .slnil
  | [_] => List.Sublist.refl _
  | _ :: _ :: t => ((evens_sublist t).cons _).cons_cons _

theorem odds_sublist {α : Type} : ∀ l : List α, (odds l).Sublist l
  | [] => .slnil
  | [_] => List.nil_sublist _
  | _ :: _ :: t => ((odds_sublist t).cons_cons _).cons _

theorem evens_length {α : Type} : ∀ l : List α, (evens l).length = (l.length + 1) / 2
  | [] => by simp [evens]
  | [_] => by simp [evens]
  | _ :: _ :: t => by simp only [evens, List.length_cons, evens_length t]; omega

theorem odds_length {α : Type} : ∀ l : List α, (odds l).length = l.length / 2
  | [] => by simp [odds]
  | [_] => by simp [odds]
  | _ :: _ :: t => by simp only [odds, List.length_cons, odds_length t]; omega

section tl
variable {ι : Type} {F : Filter ι}

theorem evens_tl {α : Type} [TopologicalSpace α] : ∀ (l : List α) (a : ι → List α), TL F a l → TL F (fun i => evens (a i)) (evens l)
  | [], _, .nil => .nil
  | [_], _, .cons h .nil => .cons h .nil
  | _ :: _ :: t, _, .cons h (.cons _ ht) => .cons h (evens_tl t _ ht)

theorem odds_tl {α : Type} [TopologicalSpace α] : ∀ (l : List α) (a : ι → List α), TL F a l → TL F (fun i => odds (a i)) (odds l)
  | [], _, .nil => .nil
  | [_], _, .cons _ .nil => .nil
  | _ :: _ :: t, _, .cons _ (.cons h ht) => .cons h (odds_tl t _ ht)

theorem dualGo_tl : ∀ (l : List ℝ) (a : ι → List ℝ) (p : ι → ℝ) (p0 : ℝ), TL F a l → Tendsto p F (𝓝 p0) → TL F (fun i => dualGo (p i) (a i)) (dualGo p0 l)
  | [], _, _, _, .nil, _ => .nil
  | _ :: t, _, _, _, .cons h ht, hp => .cons (tendsto_const_nhds.max (h.sub hp)) (dualGo_tl t _ _ _ ht (tendsto_const_nhds.max (h.sub hp)))

theorem slopes_tl : ∀ (q l : List ℝ) (a : ι → List ℝ), l.Pairwise (· < ·) → TL F a l →
    TL F (fun i => List.zipWith (fun a b => 2 * a / b) (diff q) (diff (a i))) (List.zipWith (fun a b => 2 * a / b) (diff q) (diff l))
  | [], l, a, _, h => by simpa [diff] using TL.nil
  | [q], l, a, _, h => by simpa [diff] using TL.nil
  | q :: q' :: qs, [], _, _, .nil => by simpa [diff] using TL.nil
  | q :: q' :: qs, [x], _, _, .cons _ .nil => by simpa [diff] using TL.nil
  | q :: q' :: qs, x :: y :: t, _, hs, .cons (f := f) hx (.cons (f := g) (g := a) hy ht) => by
    have ih := slopes_tl (q' :: qs) (y :: t) _ hs.tail (.cons hy ht)
    have hne : y - x ≠ 0 := by
      simp at hs
      exact (sub_pos.2 hs.1.1).ne'
    simp only [diff, List.zipWith_cons_cons] at ih ⊢
    exact .cons (Tendsto.div tendsto_const_nhds (hy.sub hx) hne) ih

theorem dualNodes_tl (q l : List ℝ) (a : ι → List ℝ) (hs : l.Pairwise (· < ·)) (h : TL F a l) : TL F (fun i => dualNodes q (a i)) (dualNodes q l) :=
  .cons tendsto_const_nhds (dualGo_tl _ _ _ _ (slopes_tl q l a hs h) tendsto_const_nhds)

/-- a spline that is cut off depends continuously on its points, except at its ends -/
theorem fillZero_tendsto (kn : List (ℝ × ℝ)) (knL : ι → List (ℝ × ℝ)) (h : TL F knL kn) (hs : (kn.map Prod.fst).Pairwise (· < ·)) (hn : 4 ≤ kn.length) (x : ι → ℝ) (x0 : ℝ)
    (hx : Tendsto x F (𝓝 x0)) (ha : ∀ a, (kn.map Prod.fst).head? = some a → x0 ≠ a) (hb : ∀ b, (kn.map Prod.fst).getLast? = some b → x0 ≠ b) :
    ∃ (v : ℝ) (w : ι → ℝ), fillZero cubSpline kn x0 = some v ∧ (∀ i, fillZero cubSpline (knL i) (x i) = some (w i)) ∧ Tendsto w F (𝓝 v) := by
  have hsp := (CubicStable.spline_tendsto kn knL x x0 h hs hn hx).1
  cases h with
  | nil => simp at hn
  | @cons f p g t hf hg =>
    have ha' : x0 ≠ p.1 := ha _ (by simp)
    have hb' : x0 ≠ ((p :: t).getLast (by simp)).1 := hb _ (by
      rw [List.getLast?_map, List.getLast?_eq_some_getLast (by simp)]
      rfl)
    have hlast := TL.getLast t p g f hf hg
    refine ⟨_, _, rfl, fun i => rfl, ?_⟩
    rcases lt_or_gt_of_ne ha' with h1 | h1
    · rw [if_pos h1]
      refine tendsto_const_nhds.congr' ?_
      filter_upwards [hx.eventually_lt hf.fst_nhds h1] with i hi
      rw [if_pos hi]
    · rw [if_neg (not_lt.2 h1.le)]
      rcases lt_or_gt_of_ne hb' with h2 | h2
      · rw [if_neg (not_lt.2 h2.le)]
        refine hsp.congr' ?_
        filter_upwards [hf.fst_nhds.eventually_lt hx h1, hx.eventually_lt hlast.fst_nhds h2] with i hi hi'
        rw [if_neg (not_lt.2 hi.le), if_neg (not_lt.2 hi'.le)]
      · rw [if_pos h2]
        refine tendsto_const_nhds.congr' ?_
        filter_upwards [hlast.fst_nhds.eventually_lt hx h2] with i hi
        rw [if_pos hi]
        simp

end tl

theorem evens_head {α : Type} : ∀ (l : List α) (e : α), (evens l).head? = some e → e ∈ l.take 2
  | [], e, h => by simp [evens] at h
  | [a], e, h => by simp [evens] at h; simp [h]
  | a :: b :: t, e, h => by simp [evens] at h; simp [h]

theorem odds_head {α : Type} : ∀ (l : List α) (e : α), (odds l).head? = some e → e ∈ l.take 2
  | [], e, h => by simp [odds] at h
  | [a], e, h => by simp [odds] at h
  | a :: b :: t, e, h => by simp [odds] at h; simp [h]

theorem drop_two {α : Type} (a b : α) (t : List α) (e : α) (h : e ∈ t.drop (t.length - 2)) : e ∈ (a :: b :: t).drop ((a :: b :: t).length - 2) := by
  match t, h with
  | [c], h => simp at h; simp [h]
  | c :: d :: t, h => simpa using h

theorem evens_last {α : Type} : ∀ (l : List α) (e : α), (evens l).getLast? = some e → e ∈ l.drop (l.length - 2)
  | [], e, h => by simp [evens] at h
  | [a], e, h => by simp [evens] at h; simp [h]
  | [a, b], e, h => by simp [evens] at h; simp [h]
  | a :: b :: c :: t, e, h => by
    refine drop_two a b (c :: t) e (evens_last (c :: t) e ?_)
    have : evens (c :: t) ≠ [] := by cases t <;> simp [evens]
    rw [evens, List.getLast?_cons_of_ne_nil this] at h
    exact h

theorem odds_last {α : Type} : ∀ (l : List α) (e : α), (odds l).getLast? = some e → e ∈ l.drop (l.length - 2)
  | [], e, h => by simp [odds] at h
  | [a], e, h => by simp [odds] at h
  | [a, b], e, h => by simp [odds] at h; simp [h]
  | [a, b, c], e, h => by simp [odds] at h; simp [h]
  | a :: b :: c :: d :: t, e, h => by
    refine drop_two a b (c :: d :: t) e (odds_last (c :: d :: t) e ?_)
    have : odds (c :: d :: t) ≠ [] := by simp [odds]
    rw [odds, List.getLast?_cons_of_ne_nil this] at h
    exact h

theorem dualNodes_length (q l : List ℝ) (hlen : q.length = l.length) (hn : 1 ≤ l.length) : (dualNodes q l).length = l.length := by
  have h1 : ∀ (m : List ℝ) (p : ℝ), (dualGo p m).length = m.length := by
    intro m
    induction m with
    | nil => intro p; rfl
    | cons a t ih => intro p; simp [dualGo, ih]
  unfold dualNodes
  rw [List.length_cons, h1, List.length_zipWith, length_diff, length_diff]
  omega

/-- **C133: the density as average of two splines** (at least eight quantiles). At every argument that is none of the first two and the last two locations the density changes
little when the locations and the argument change little. Missing: these four arguments, at which one of the two splines begins or ends. -/
theorem C133_quant_dual_partial (quants locs : List ℝ) (hl : locs.Pairwise (· < ·)) (hlen : quants.length = locs.length) (hn : 8 ≤ locs.length) (x : ℝ)
    (hx : ∀ e ∈ locs.take 2 ++ locs.drop (locs.length - 2), x ≠ e) (ε : ℝ) (hε : 0 < ε) :
    ∃ δ > 0, ∀ locs' : List ℝ, Within δ locs locs' → ∀ x' : ℝ, |x' - x| ≤ δ →
      ∃ f f', dualPdf cubSpline quants locs x = some f ∧ dualPdf cubSpline quants locs' x' = some f' ∧ |f' - f| ≤ ε := by
  have hnl := dualNodes_length quants locs hlen (by omega)
  have e1 := QuadSpline.map_fst_zip' locs (dualNodes quants locs) hnl.symm
  have key : ∀ (L : ℕ → List ℝ) (X : ℕ → ℝ), TL atTop L locs → Tendsto X atTop (𝓝 x) →
      ∃ (v : ℝ) (w : ℕ → ℝ), dualPdf cubSpline quants locs x = some v ∧ (∀ n, dualPdf cubSpline quants (L n) (X n) = some (w n)) ∧ Tendsto w atTop (𝓝 v) := by
    intro L X hL hX
    have hk := TL.zip _ _ _ _ hL (dualNodes_tl quants locs L hl hL)
    have hsort : ∀ m : List (ℝ × ℝ), m.Sublist (locs.zip (dualNodes quants locs)) → (m.map Prod.fst).Pairwise (· < ·) := by
      intro m hm
      have := hm.map Prod.fst
      rw [e1] at this
      exact hl.sublist this
    obtain ⟨v1, w1, a1, a2, a3⟩ := fillZero_tendsto _ _ (evens_tl _ _ hk) (hsort _ (evens_sublist _)) (by rw [evens_length, List.length_zip]; omega) X x hX
      (fun a h => hx a (List.mem_append_left _ (evens_head _ _ (by rw [evens_map, e1] at h; exact h))))
      (fun a h => hx a (List.mem_append_right _ (evens_last _ _ (by rw [evens_map, e1] at h; exact h))))
    obtain ⟨v2, w2, b1, b2, b3⟩ := fillZero_tendsto _ _ (odds_tl _ _ hk) (hsort _ (odds_sublist _)) (by rw [odds_length, List.length_zip]; omega) X x hX
      (fun a h => hx a (List.mem_append_left _ (odds_head _ _ (by rw [odds_map, e1] at h; exact h))))
      (fun a h => hx a (List.mem_append_right _ (odds_last _ _ (by rw [odds_map, e1] at h; exact h))))
    refine ⟨(v1 + v2) / 2, fun n => (w1 n + w2 n) / 2, ?_, fun n => ?_, (a3.add b3).div_const 2⟩
    · simp [dualPdf, a1, b1]
    · simp [dualPdf, a2, b2]
  obtain ⟨v, w, hv, -, -⟩ := key (fun _ => locs) (fun _ => x) (TL.const locs) tendsto_const_nhds
  refine close_of_tendsto (dualPdf cubSpline quants) locs x v ε hε hv fun L X hL hX => ?_
  obtain ⟨v', w, hv', hw, ht⟩ := key L X hL hX
  rw [hv] at hv'
  cases hv'
  exact ⟨w, Eventually.of_forall hw, ht⟩

/-- non-trivial case: at the argument 3, itself a location -/
example : ∃ δ > 0, ∀ locs' : List ℝ, Within δ [0, 1, 2, 3, 4, 5, 6, 8] locs' → ∀ x' : ℝ, |x' - 3| ≤ δ →
    ∃ f f', dualPdf cubSpline [0, 1/8, 1/4, 3/8, 1/2, 5/8, 3/4, 1] [0, 1, 2, 3, 4, 5, 6, 8] 3 = some f ∧
      dualPdf cubSpline [0, 1/8, 1/4, 3/8, 1/2, 5/8, 3/4, 1] locs' x' = some f' ∧ |f' - f| ≤ 1/100 :=
  C133_quant_dual_partial [0, 1/8, 1/4, 3/8, 1/2, 5/8, 3/4, 1] [0, 1, 2, 3, 4, 5, 6, 8] (by norm_num) rfl (by simp) 3 (by norm_num) (1/100) (by norm_num)

/-! ### piecewise constant reconstruction, and the edges of histograms -/

section bins
variable {ι : Type} {F : Filter ι}

theorem TL.get {α : Type} [TopologicalSpace α] : ∀ (l : List α) (a : ι → List α) (i : ℕ) (v : α), TL F a l → l[i]? = some v →
    ∃ f : ι → α, (∀ k, (a k)[i]? = some (f k)) ∧ Tendsto f F (𝓝 v)
  | _ :: _, _, 0, v, .cons hf _, h => by
    simp at h
    subst h
    exact ⟨_, fun k => rfl, hf⟩
  | _ :: t, _, i + 1, v, .cons _ hg, h => by
    obtain ⟨f, h1, h2⟩ := TL.get t _ i v hg (by simpa using h)
    exact ⟨f, fun k => by simpa using h1 k, h2⟩

/-- a bin is found if both ways of looking for it agree -/
theorem lookup_both (edges : List ℝ) (hs : edges.Pairwise (· < ·)) (x b0 b1 a b : ℝ) (i : ℕ) (h0 : edges[0]? = some b0) (h1 : edges[1]? = some b1) (ha : edges[i]? = some a)
    (hb : edges[i + 1]? = some b) (hax : a < x) (hxb : x < b) (hf : allcloseScalar (binWidths edges) (b1 - b0) = true → ⌊(x - b0) / (b1 - b0)⌋ = (i : ℤ)) :
    getBinIndex edges x = .ok (i, true) := by
  have hlen : i + 1 < edges.length := (List.getElem?_eq_some_iff.1 hb).1
  match edges, h0, h1 with
  | c0 :: c1 :: t, h0, h1 =>
    simp at h0 h1
    subst h0 h1
    have hidx : (i : ℤ) = if allcloseScalar (binWidths (c0 :: c1 :: t)) (c1 - c0) = true then ⌊(x - c0) / (c1 - c0)⌋ else (searchsortedLeft (c0 :: c1 :: t) x : ℤ) - 1 := by
      split_ifs with h
      · exact (hf h).symm
      · rw [searchsortedLeft_eq hs ha hb hax hxb.le]
        push_cast
        ring
    rw [getBinIndex_cons c0 c1 t x _ hidx, if_pos ⟨by omega, by omega⟩]
    simp

theorem uniform_at {edges : List ℝ} (hu : Bins.Uniform edges) (b0 b1 : ℝ) (h0 : edges[0]? = some b0) (h1 : edges[1]? = some b1) : ∀ (i : ℕ) (a : ℝ), edges[i]? = some a →
    a = b0 + i * (b1 - b0) := by
  obtain ⟨w, hw⟩ := hu
  have hw0 := hw 0 b0 b1 h0 h1
  intro i
  induction i with
  | zero => intro a ha; rw [h0] at ha; cases ha; simp
  | succ i ih =>
    intro a ha
    have hlt := (List.getElem?_eq_some_iff.1 ha).1
    have := hw i _ a (List.getElem?_eq_getElem (by omega)) ha
    rw [ih _ (List.getElem?_eq_getElem (by omega))] at this
    push_cast
    linarith

/-- strictly inside a bin the lookup does not change under small changes of the edges, although these may change the way bins are looked up -/
theorem lookup_stable (edges : List ℝ) (E : ι → List ℝ) (X : ι → ℝ) (x : ℝ) (hE : TL F E edges) (hX : Tendsto X F (𝓝 x)) (hs : edges.Pairwise (· < ·))
    (hu : Bins.Uniform edges ∨ Bins.DetectablyNonUniform edges) (i : ℕ) (a b : ℝ) (ha : edges[i]? = some a) (hb : edges[i + 1]? = some b) (hax : a < x) (hxb : x < b) :
    ∀ᶠ k in F, getBinIndex (E k) (X k) = .ok (i, true) := by
  have hlen : i + 1 < edges.length := (List.getElem?_eq_some_iff.1 hb).1
  obtain ⟨c0, c1, h0, h1, h01⟩ : ∃ c0 c1, edges[0]? = some c0 ∧ edges[1]? = some c1 ∧ c0 < c1 :=
    ⟨_, _, List.getElem?_eq_getElem (by omega), List.getElem?_eq_getElem (by omega), List.pairwise_iff_getElem.1 hs 0 1 (by omega) (by omega) (by omega)⟩
  obtain ⟨f0, f0e, f0t⟩ := TL.get edges E 0 _ hE h0
  obtain ⟨f1, f1e, f1t⟩ := TL.get edges E 1 _ hE h1
  obtain ⟨fa, fae, fat⟩ := TL.get edges E i _ hE ha
  obtain ⟨fb, fbe, fbt⟩ := TL.get edges E (i + 1) _ hE hb
  have hsort := CubicStable.eventually_sorted edges E hE hs
  rcases hu with hu | hd
  · have ea := uniform_at hu _ _ h0 h1 i a ha
    have eb := uniform_at hu _ _ h0 h1 (i + 1) b hb
    have hw : 0 < c1 - c0 := sub_pos.2 h01
    have hq : Tendsto (fun k => (X k - f0 k) / (f1 k - f0 k)) F (𝓝 ((x - c0) / (c1 - c0))) :=
      (hX.sub f0t).div (f1t.sub f0t) hw.ne'
    have hq1 : (i : ℝ) < (x - c0) / (c1 - c0) := by
      rw [lt_div_iff₀ hw]
      linarith
    have hq2 : (x - c0) / (c1 - c0) < (i : ℝ) + 1 := by
      rw [div_lt_iff₀ hw]
      push_cast at eb
      linarith
    filter_upwards [hsort, fat.eventually_lt hX hax, hX.eventually_lt fbt hxb, hq.eventually_const_lt hq1, hq.eventually_lt_const hq2] with k k1 k2 k3 k4 k5
    refine lookup_both (E k) k1 (X k) _ _ _ _ i (f0e k) (f1e k) (fae k) (fbe k) k2 k3 fun _ => ?_
    rw [Int.floor_eq_iff]
    push_cast
    exact ⟨k4.le, k5⟩
  · obtain ⟨b0, b1, j, c, d, g0, g1, gc, gd, hgt⟩ := hd
    rw [h0] at g0
    cases g0
    rw [h1] at g1
    cases g1
    obtain ⟨fc, fce, fct⟩ := TL.get edges E j _ hE gc
    obtain ⟨fd, fde, fdt⟩ := TL.get edges E (j + 1) _ hE gd
    have t1 : Tendsto (fun k => 1 / 100000000 + 1 / 100000 * |f1 k - f0 k|) F (𝓝 (1 / 100000000 + 1 / 100000 * |c1 - c0|)) :=
      ((f1t.sub f0t).abs.const_mul _).const_add _
    have t2 : Tendsto (fun k => |(fd k - fc k) - (f1 k - f0 k)|) F (𝓝 (|(d - c) - (c1 - c0)|)) := ((fdt.sub fct).sub (f1t.sub f0t)).abs
    filter_upwards [hsort, fat.eventually_lt hX hax, hX.eventually_lt fbt hxb, t1.eventually_lt t2 hgt] with k k1 k2 k3 k4
    exact Bins.C05_nonuniform_right_closed (E k) k1 ⟨f0 k, f1 k, j, fc k, fd k, f0e k, f1e k, fce k, fde k, k4⟩ (X k) i _ _ (fae k) (fbe k) k2 k3.le

end bins

/-- **C133: the piecewise constant reconstruction.** Strictly inside a cell (between two neighbouring midpoints of the locations) the density changes little when the locations
and the argument change little, if the midpoints are evenly spaced or the code can tell that they are not - although a small change can make the code look up the cell in
the other way. Missing: the midpoints, where it jumps (`C133_quant_constant_jumps`), and spacings within the tolerance of `allclose` (C05). -/
theorem C133_quant_constant_partial (quants locs : List ℝ) (hl : locs.Pairwise (· < ·)) (hlen : quants.length = locs.length)
    (hu : Bins.Uniform (adjustedLocs locs) ∨ Bins.DetectablyNonUniform (adjustedLocs locs)) (x : ℝ) (i : ℕ) (l0 l1 l2 : ℝ) (e0 : locs[i]? = some l0) (e1 : locs[i + 1]? = some l1)
    (e2 : locs[i + 2]? = some l2) (hx1 : (l0 + l1) / 2 < x) (hx2 : x < (l1 + l2) / 2) (ε : ℝ) (hε : 0 < ε) :
    ∃ δ > 0, ∀ locs' : List ℝ, Within δ locs locs' → ∀ x' : ℝ, |x' - x| ≤ δ →
      ∃ f f', constantPdf quants locs x = .ok f ∧ constantPdf quants locs' x' = .ok f' ∧ |f' - f| ≤ ε := by
  have hlt : i + 2 < locs.length := (List.getElem?_eq_some_iff.1 e2).1
  have f0 : quants[i]? = some (quants[i]'(by omega)) := List.getElem?_eq_getElem _
  have f1 : quants[i + 1]? = some (quants[i + 1]'(by omega)) := List.getElem?_eq_getElem _
  have f2 : quants[i + 2]? = some (quants[i + 2]'(by omega)) := List.getElem?_eq_getElem _
  generalize quants[i]'(by omega) = q0 at f0
  generalize quants[i + 1]'(by omega) = q1 at f1
  generalize quants[i + 2]'(by omega) = q2 at f2
  have app : ∀ (l : List ℝ) (j : ℕ) (a b : ℝ), l[j]? = some a → (l ++ [b])[j]? = some a := by
    intro l j a b h
    rw [List.getElem?_append_left (List.getElem?_eq_some_iff.1 h).1]
    exact h
  -- the value once the cell is found
  have val : ∀ (l : List ℝ) (u m0 m1 m2 : ℝ), l[i]? = some m0 → l[i + 1]? = some m1 → l[i + 2]? = some m2 → getBinIndex (adjustedLocs l) u = .ok (i, true) →
      constantPdf quants l u = .ok ((q1 - q0) / (m1 - m0) + (u - (m0 + m1) / 2) * ((q2 - q1) / (m2 - m1) - (q1 - q0) / (m1 - m0))) := by
    intro l u m0 m1 m2 a0 a1 a2 hb
    have hb0 := Quant.getElem?_adjusted l i m0 m1 a0 a1
    have hd0 : (cdfDerivs quants l)[i]? = some ((q1 - q0) / (m1 - m0)) := by
      unfold cdfDerivs
      rw [List.getElem?_zipWith_eq_some]
      exact ⟨_, _, getElem?_diff quants i q0 q1 f0 f1, getElem?_diff l i m0 m1 a0 a1, rfl⟩
    have hd1 : (cdfDerivs quants l)[i + 1]? = some ((q2 - q1) / (m2 - m1)) := by
      unfold cdfDerivs
      rw [List.getElem?_zipWith_eq_some]
      exact ⟨_, _, getElem?_diff quants (i + 1) q1 q2 f1 f2, getElem?_diff l (i + 1) m1 m2 a1 a2, rfl⟩
    unfold constantPdf evalHistDeriv
    simp only
    rw [hb]
    simp only
    rw [hb0, app _ _ _ 0 hd0, app _ _ _ 0 (getElem?_diff _ i _ _ (app _ _ _ 0 hd0) (app _ _ _ 0 hd1))]
    simp
  have hadj := (Quant.strict_adjusted locs hl).1
  have hb0 := Quant.getElem?_adjusted locs i l0 l1 e0 e1
  have hb1 := Quant.getElem?_adjusted locs (i + 1) l1 l2 e1 e2
  have h01 : l0 < l1 := by
    obtain ⟨g1, rfl⟩ := List.getElem?_eq_some_iff.1 e0
    obtain ⟨g2, rfl⟩ := List.getElem?_eq_some_iff.1 e1
    exact List.pairwise_iff_getElem.1 hl i (i + 1) g1 g2 (by omega)
  have h12 : l1 < l2 := by
    obtain ⟨g1, rfl⟩ := List.getElem?_eq_some_iff.1 e1
    obtain ⟨g2, rfl⟩ := List.getElem?_eq_some_iff.1 e2
    exact List.pairwise_iff_getElem.1 hl (i + 1) (i + 2) g1 g2 (by omega)
  by_contra hcon
  obtain ⟨L, X, hL, hX, hn⟩ := seq_of_not (fun locs' x' => ∃ f f', constantPdf quants locs x = .ok f ∧ constantPdf quants locs' x' = .ok f' ∧ |f' - f| ≤ ε) locs x hcon
  obtain ⟨g0, g0e, g0t⟩ := TL.get locs L i _ hL e0
  obtain ⟨g1, g1e, g1t⟩ := TL.get locs L (i + 1) _ hL e1
  obtain ⟨g2, g2e, g2t⟩ := TL.get locs L (i + 2) _ hL e2
  have hself : getBinIndex (adjustedLocs locs) x = .ok (i, true) :=
    (Bins.C05_bin_lookup_partial (adjustedLocs locs) (by have := (List.getElem?_eq_some_iff.1 hb1).1; omega) hadj hu x).1 i ⟨_, _, hb0, hb1, hx1, hx2⟩
  have hlook := lookup_stable (adjustedLocs locs) (fun n => adjustedLocs (L n)) X x (adj_tendsto locs L hL) hX hadj hu i _ _ hb0 hb1 hx1 hx2
  have hv : Tendsto (fun n => (q1 - q0) / (g1 n - g0 n) + (X n - (g0 n + g1 n) / 2) * ((q2 - q1) / (g2 n - g1 n) - (q1 - q0) / (g1 n - g0 n))) atTop
      (𝓝 ((q1 - q0) / (l1 - l0) + (x - (l0 + l1) / 2) * ((q2 - q1) / (l2 - l1) - (q1 - q0) / (l1 - l0)))) := by
    have d1 := (tendsto_const_nhds (x := q1 - q0)).div (g1t.sub g0t) (sub_pos.2 h01).ne'
    have d2 := (tendsto_const_nhds (x := q2 - q1)).div (g2t.sub g1t) (sub_pos.2 h12).ne'
    exact d1.add ((hX.sub ((g0t.add g1t).div_const 2)).mul (d2.sub d1))
  have t3 := (hv.sub_const ((q1 - q0) / (l1 - l0) + (x - (l0 + l1) / 2) * ((q2 - q1) / (l2 - l1) - (q1 - q0) / (l1 - l0)))).abs
  rw [sub_self, abs_zero] at t3
  obtain ⟨n, k1, k2⟩ := (hlook.and (t3.eventually_lt_const hε)).exists
  exact hn n ⟨_, _, val locs x l0 l1 l2 e0 e1 e2 hself, val (L n) (X n) _ _ _ (g0e n) (g1e n) (g2e n) k1, k2.le⟩

/-- non-trivial case: midpoints 1/2, 2, 7/2 at equal distances, so the code uses the lookup for equal bins; after a change of the locations it does not -/
example : ∃ δ > 0, ∀ locs' : List ℝ, Within δ [0, 1, 3, 4] locs' → ∀ x' : ℝ, |x' - 1| ≤ δ →
    ∃ f f', constantPdf [0, 1/4, 3/4, 1] [0, 1, 3, 4] 1 = .ok f ∧ constantPdf [0, 1/4, 3/4, 1] locs' x' = .ok f' ∧ |f' - f| ≤ 1/100 := by
  refine C133_quant_constant_partial [0, 1/4, 3/4, 1] [0, 1, 3, 4] (by norm_num) rfl (Or.inl ⟨3/2, ?_⟩) 1 0 0 1 3 rfl rfl rfl (by norm_num) (by norm_num) (1/100) (by norm_num)
  intro i a b ha hb
  match i, ha, hb with
  | 0, ha, hb => norm_num [adjustedLocs] at ha hb; subst ha hb; norm_num
  | 1, ha, hb => norm_num [adjustedLocs] at ha hb; subst ha hb; norm_num
  | 2, ha, hb => cases hb
  | n + 3, ha, hb => cases hb

/-- **C133 fails at the midpoints for the piecewise constant reconstruction**: an arbitrarily small shift of a location takes the density at the first midpoint from `1/2` to 0. -/
theorem C133_quant_constant_jumps (δ : ℝ) (hδ : 0 < δ) : ∃ locs', Within δ [0, 1, 2] locs' ∧
    constantPdf [0, 1/2, 1] [0, 1, 2] (1/2 : ℝ) = .ok (1/2) ∧ constantPdf [0, 1/2, 1] locs' (1/2 : ℝ) = .ok 0 := by
  have hm : 0 < min δ (1/2 : ℝ) := lt_min hδ (by norm_num)
  have hm' : min δ (1/2 : ℝ) ≤ 1/2 := min_le_right _ _
  have two : ∀ a b : ℝ, Bins.Uniform [a, b] := by
    intro a b
    refine ⟨b - a, fun i u v hu hv => ?_⟩
    match i, hu, hv with
    | 0, hu, hv => simp at hu hv; subst hu hv; rfl
  refine ⟨[min δ (1/2), 1, 2], ?_, ?_, ?_⟩
  · refine .cons ?_ (.cons (by simpa using hδ.le) (.cons (by simpa using hδ.le) .nil))
    rw [sub_zero, abs_of_pos hm]
    exact min_le_left _ _
  · have hb : getBinIndex (adjustedLocs [0, 1, 2]) (1/2 : ℝ) = .ok (0, true) :=
      Bins.C05_uniform_left_closed _ (by norm_num [adjustedLocs]) (two _ _) _ 0 (1 - (1 - 0) / 2) (2 - (2 - 1) / 2) rfl rfl (by norm_num) (by norm_num)
    unfold constantPdf evalHistDeriv
    simp only
    rw [hb]
    norm_num [adjustedLocs, cdfDerivs, diff]
  · refine (Quant.C20_constant_partial [0, 1/2, 1] [min δ (1/2), 1, 2] (by norm_num) ?_ rfl (by simp) (Or.inl (two _ _)) (1/2)).2 (Or.inl ?_)
    · simp only [List.pairwise_cons, List.mem_cons, List.not_mem_nil, or_false, forall_eq_or_imp, forall_eq]
      refine ⟨⟨by linarith, by linarith⟩, by norm_num, by simp, .nil⟩
    · intro e he
      simp only [adjustedLocs, List.mem_cons, List.not_mem_nil, or_false] at he
      rcases he with rfl | rfl
      · linarith
      · norm_num

/-- **C133 fails where one of the two averaged splines begins**: eight evenly spaced quantiles of a uniform distribution; an arbitrarily small shift of all locations takes the
density at the second location from `1/7` to 0. -/
theorem C133_quant_dual_jumps (δ : ℝ) (hδ : 0 < δ) : ∃ locs', Within δ [0, 1, 2, 3, 4, 5, 6, 7] locs' ∧
    dualPdf cubSpline [0, 1/7, 2/7, 3/7, 4/7, 5/7, 6/7, 1] [0, 1, 2, 3, 4, 5, 6, 7] (1 : ℝ) = some (1/7) ∧
    dualPdf cubSpline [0, 1/7, 2/7, 3/7, 4/7, 5/7, 6/7, 1] locs' (1 : ℝ) = some 0 := by
  have nodes : ∀ s : ℝ, dualNodes [0, 1/7, 2/7, 3/7, 4/7, 5/7, 6/7, 1] [0 + s, 1 + s, 2 + s, 3 + s, 4 + s, 5 + s, 6 + s, 7 + s] = [0, 2/7, 0, 2/7, 0, 2/7, 0, 2/7] := by
    intro s
    norm_num [dualNodes, diff, dualGo]
  have value : ∀ s : ℝ, s ≤ 1/2 → -1/2 ≤ s → dualPdf cubSpline [0, 1/7, 2/7, 3/7, 4/7, 5/7, 6/7, 1] [0 + s, 1 + s, 2 + s, 3 + s, 4 + s, 5 + s, 6 + s, 7 + s] 1 =
      some (if 1 < 1 + s then 0 else 1/7) := by
    intro s h1 h2
    have y1 : fillZero cubSpline (evens ([0 + s, 1 + s, 2 + s, 3 + s, 4 + s, 5 + s, 6 + s, 7 + s].zip [0, 2/7, 0, 2/7, 0, 2/7, 0, 2/7])) (1 : ℝ) = some 0 := by
      simp only [List.zip_cons_cons, List.zip_nil_right, evens, fillZero, Option.some.injEq]
      rw [Props.CubicSpline.const _ 0 (by simp) (by simp)]
      simp
    have y2 : fillZero cubSpline (odds ([0 + s, 1 + s, 2 + s, 3 + s, 4 + s, 5 + s, 6 + s, 7 + s].zip [0, 2/7, 0, 2/7, 0, 2/7, 0, 2/7])) (1 : ℝ) = some (if 1 < 1 + s then 0 else 2/7) := by
      simp only [List.zip_cons_cons, List.zip_nil_right, odds, fillZero, Option.some.injEq]
      rw [Props.CubicSpline.const _ (2/7) (by simp) (by simp)]
      by_cases h : 1 < 1 + s
      · simp [h]
      · rw [if_neg h, if_neg h, if_neg]
        simp only [List.getLast_cons_cons, List.getLast_singleton]
        linarith
    unfold dualPdf
    rw [nodes s]
    simp only [y1, y2, Option.bind_eq_bind, Option.bind_some]
    congr 1
    split_ifs <;> norm_num
  have hm : 0 < min δ (1/2 : ℝ) := lt_min hδ (by norm_num)
  have hm' : min δ (1/2 : ℝ) ≤ 1/2 := min_le_right _ _
  have hmδ : min δ (1/2 : ℝ) ≤ δ := min_le_left _ _
  refine ⟨[0 + min δ (1/2), 1 + min δ (1/2), 2 + min δ (1/2), 3 + min δ (1/2), 4 + min δ (1/2), 5 + min δ (1/2), 6 + min δ (1/2), 7 + min δ (1/2)], ?_, ?_, ?_⟩
  · have key : ∀ a : ℝ, |a + min δ (1/2) - a| ≤ δ := by
      intro a
      rw [add_sub_cancel_left, abs_of_pos hm]
      exact hmδ
    exact .cons (key _) (.cons (key _) (.cons (key _) (.cons (key _) (.cons (key _) (.cons (key _) (.cons (key _) (.cons (key _) .nil)))))))
  · have := value 0 (by norm_num) (by norm_num)
    simpa using this
  · rw [value _ hm' (by linarith), if_pos (by linarith)]

end Verif.Props.QuantStable
