import Verif.Lemmas.QuantStable
import Verif.Props.CubicSplineReal

/-!
Cubic splines and their derivatives depend continuously on the points: helper lemmas for C133.
-/

set_option linter.unusedSectionVars false
set_option autoImplicit false

namespace Verif.Lemmas.CubicStable

open Verif Verif.Np Verif.Model Verif.Lemmas.CubicSpline Verif.Lemmas.QuantStable Filter Topology

variable {ι : Type} {F : Filter ι}

section pieces
variable {m v d e f x y : ι → ℝ} {m0 v0 d0 e0 f0 x0 y0 : ℝ}

theorem third_tendsto (hm : Tendsto m F (𝓝 m0)) (hv : Tendsto v F (𝓝 v0)) (hd : Tendsto d F (𝓝 d0)) (he : Tendsto e F (𝓝 e0)) (hx : Tendsto x F (𝓝 x0))
    (hy : Tendsto y F (𝓝 y0)) (h : m0 < x0) : Tendsto (fun i => cubThird (m i) (v i) (d i) (e i) (x i) (y i)) F (𝓝 (cubThird m0 v0 d0 e0 x0 y0)) := by
  unfold cubThird
  have hne : (x0 - m0) * (x0 - m0) * (x0 - m0) ≠ 0 := by
    have : 0 < x0 - m0 := sub_pos.2 h
    positivity
  have hxm := hx.sub hm
  exact (((hy.sub hv).sub (hd.mul hxm)).sub (he.mul (hxm.mul hxm))).div ((hxm.mul hxm).mul hxm) hne

theorem val_tendsto (hm : Tendsto m F (𝓝 m0)) (hv : Tendsto v F (𝓝 v0)) (hd : Tendsto d F (𝓝 d0)) (he : Tendsto e F (𝓝 e0)) (hf : Tendsto f F (𝓝 f0))
    (hx : Tendsto x F (𝓝 x0)) : Tendsto (fun i => cubVal (m i) (v i) (d i) (e i) (f i) (x i)) F (𝓝 (cubVal m0 v0 d0 e0 f0 x0)) := by
  unfold cubVal
  have hxm := hx.sub hm
  exact ((hv.add (hd.mul hxm)).add (he.mul (hxm.mul hxm))).add (hf.mul ((hxm.mul hxm).mul hxm))

theorem slope_tendsto (hm : Tendsto m F (𝓝 m0)) (hd : Tendsto d F (𝓝 d0)) (he : Tendsto e F (𝓝 e0)) (hf : Tendsto f F (𝓝 f0))
    (hx : Tendsto x F (𝓝 x0)) : Tendsto (fun i => cubSlope (m i) (d i) (e i) (f i) (x i)) F (𝓝 (cubSlope m0 d0 e0 f0 x0)) := by
  unfold cubSlope
  have hxm := hx.sub hm
  exact (hd.add ((he.const_mul 2).mul hxm)).add ((hf.const_mul 3).mul (hxm.mul hxm))

theorem bend_tendsto (hm : Tendsto m F (𝓝 m0)) (he : Tendsto e F (𝓝 e0)) (hf : Tendsto f F (𝓝 f0))
    (hx : Tendsto x F (𝓝 x0)) : Tendsto (fun i => cubBend (m i) (e i) (f i) (x i)) F (𝓝 (cubBend m0 e0 f0 x0)) := by
  unfold cubBend
  exact he.add ((hf.const_mul 3).mul (hx.sub hm))

end pieces

theorem miss_tendsto : ∀ (l : List (ℝ × ℝ)) (a : ι → List (ℝ × ℝ)) (m v d e : ι → ℝ) (m0 v0 d0 e0 : ℝ), TL F a l → (m0 :: l.map Prod.fst).Pairwise (· < ·) →
    Tendsto m F (𝓝 m0) → Tendsto v F (𝓝 v0) → Tendsto d F (𝓝 d0) → Tendsto e F (𝓝 e0) →
    Tendsto (fun i => cubMiss (m i) (v i) (d i) (e i) (a i)) F (𝓝 (cubMiss m0 v0 d0 e0 l))
  | [], _, m, v, d, e, m0, v0, d0, e0, .nil, _, hm, hv, hd, he => by simpa [cubMiss] using tendsto_const_nhds
  | [p], _, m, v, d, e, m0, v0, d0, e0, .cons hp .nil, _, hm, hv, hd, he => by simpa [cubMiss] using tendsto_const_nhds
  | [p, p'], _, m, v, d, e, m0, v0, d0, e0, .cons hp (.cons hp' .nil), hs, hm, hv, hd, he => by
    simp only [cubMiss]
    have h1 : m0 < p.1 := by simp at hs; exact hs.1.1
    exact (val_tendsto hm hv hd he (third_tendsto hm hv hd he hp.fst_nhds hp.snd_nhds h1) hp'.fst_nhds).sub hp'.snd_nhds
  | p :: p' :: p'' :: t, _, m, v, d, e, m0, v0, d0, e0, .cons hp (.cons hp' (.cons hp'' ht)), hs, hm, hv, hd, he => by
    simp only [cubMiss]
    have h1 : m0 < p.1 := (List.pairwise_cons.1 hs).1 _ (by simp)
    have hc := third_tendsto hm hv hd he hp.fst_nhds hp.snd_nhds h1
    exact miss_tendsto (p' :: p'' :: t) _ _ _ _ _ _ _ _ _ (.cons hp' (.cons hp'' ht)) (List.pairwise_cons.1 hs).2 hp.fst_nhds hp.snd_nhds
      (slope_tendsto hm hd he hc hp.fst_nhds) (bend_tendsto hm he hc hp.fst_nhds)

theorem go_tendsto : ∀ (l : List (ℝ × ℝ)) (a : ι → List (ℝ × ℝ)) (m v d e x : ι → ℝ) (m0 v0 d0 e0 x0 : ℝ), TL F a l → (m0 :: l.map Prod.fst).Pairwise (· < ·) →
    Tendsto m F (𝓝 m0) → Tendsto v F (𝓝 v0) → Tendsto d F (𝓝 d0) → Tendsto e F (𝓝 e0) → Tendsto x F (𝓝 x0) →
    Tendsto (fun i => cubGo (m i) (v i) (d i) (e i) (a i) (x i)) F (𝓝 (cubGo m0 v0 d0 e0 l x0)) ∧
    Tendsto (fun i => slopeGo (m i) (v i) (d i) (e i) (a i) (x i)) F (𝓝 (slopeGo m0 v0 d0 e0 l x0))
  | [], _, m, v, d, e, x, m0, v0, d0, e0, x0, .nil, _, hm, hv, hd, he, hx => by simpa [cubGo, slopeGo] using ⟨hv, hd⟩
  | [p], _, m, v, d, e, x, m0, v0, d0, e0, x0, .cons hp .nil, hs, hm, hv, hd, he, hx => by
    simp only [cubGo, slopeGo]
    have h1 : m0 < p.1 := by simp at hs; exact hs
    have hc := third_tendsto hm hv hd he hp.fst_nhds hp.snd_nhds h1
    exact ⟨val_tendsto hm hv hd he hc hx, slope_tendsto hm hd he hc hx⟩
  | [p, p'], _, m, v, d, e, x, m0, v0, d0, e0, x0, .cons hp (.cons hp' .nil), hs, hm, hv, hd, he, hx => by
    simp only [cubGo, slopeGo]
    have h1 : m0 < p.1 := by simp at hs; exact hs.1.1
    have hc := third_tendsto hm hv hd he hp.fst_nhds hp.snd_nhds h1
    exact ⟨val_tendsto hm hv hd he hc hx, slope_tendsto hm hd he hc hx⟩
  | p :: p' :: p'' :: t, _, m, v, d, e, x, m0, v0, d0, e0, x0, .cons hp (.cons hp' (.cons hp'' ht)), hs, hm, hv, hd, he, hx => by
    simp only [cubGo, slopeGo]
    have h1 : m0 < p.1 := (List.pairwise_cons.1 hs).1 _ (by simp)
    have h3 := (List.pairwise_cons.1 hs).2
    have hc := third_tendsto hm hv hd he hp.fst_nhds hp.snd_nhds h1
    have hsl := slope_tendsto hm hd he hc hp.fst_nhds
    have hbd := bend_tendsto hm he hc hp.fst_nhds
    obtain ⟨g1, g2⟩ := go_tendsto (p' :: p'' :: t) _ _ _ _ _ _ _ _ _ _ _ (.cons hp' (.cons hp'' ht)) h3 hp.fst_nhds hp.snd_nhds hsl hbd hx
    obtain ⟨k1, k2, -⟩ := go_left p.1 p.2 (cubSlope m0 d0 e0 (cubThird m0 v0 d0 e0 p.1 p.2) p.1) (cubBend m0 e0 (cubThird m0 v0 d0 e0 p.1 p.2) p.1) p' (p'' :: t) h3
    refine ⟨ite_tendsto hx hp.fst_nhds (val_tendsto hm hv hd he hc hx) g1 ?_, ite_tendsto hx hp.fst_nhds (slope_tendsto hm hd he hc hx) g2 ?_⟩
    · intro h
      rw [h, k1, third_through h1]
    · intro h
      rw [h, k2]

section first
variable {p0 p1 p2 : ι → ℝ × ℝ} {q0 q1 q2 : ℝ × ℝ} {α : ι → ℝ} {α0 : ℝ}

theorem bend3_tendsto (h0 : Tendsto p0 F (𝓝 q0)) (h1 : Tendsto p1 F (𝓝 q1)) (h2 : Tendsto p2 F (𝓝 q2)) (h01 : q0.1 < q1.1) (h12 : q1.1 < q2.1) :
    Tendsto (fun i => bend3 (p0 i) (p1 i) (p2 i)) F (𝓝 (bend3 q0 q1 q2)) := by
  unfold bend3
  exact (((h2.snd_nhds.sub h1.snd_nhds).div (h2.fst_nhds.sub h1.fst_nhds) (sub_pos.2 h12).ne').sub
    ((h1.snd_nhds.sub h0.snd_nhds).div (h1.fst_nhds.sub h0.fst_nhds) (sub_pos.2 h01).ne')).div (h2.fst_nhds.sub h0.fst_nhds) (sub_pos.2 (h01.trans h12)).ne'

theorem first_tendsto (h0 : Tendsto p0 F (𝓝 q0)) (h1 : Tendsto p1 F (𝓝 q1)) (h2 : Tendsto p2 F (𝓝 q2)) (h01 : q0.1 < q1.1) (h12 : q1.1 < q2.1)
    (hα : Tendsto α F (𝓝 α0)) :
    Tendsto (fun i => firstSlope (p0 i) (p1 i) (p2 i) (α i)) F (𝓝 (firstSlope q0 q1 q2 α0)) ∧
    Tendsto (fun i => firstBend (p0 i) (p1 i) (p2 i) (α i)) F (𝓝 (firstBend q0 q1 q2 α0)) := by
  have hb := bend3_tendsto h0 h1 h2 h01 h12
  have h20 := h2.fst_nhds.sub h0.fst_nhds
  have h21 := h2.fst_nhds.sub h1.fst_nhds
  unfold firstSlope firstBend slope3
  exact ⟨(((h2.snd_nhds.sub h1.snd_nhds).div h21 (sub_pos.2 h12).ne').add (hb.mul h21)).add (hα.mul (h20.mul h21)), hb.add (hα.mul (h20.add h21))⟩

theorem startMiss_tendsto (h0 : Tendsto p0 F (𝓝 q0)) (h1 : Tendsto p1 F (𝓝 q1)) (h2 : Tendsto p2 F (𝓝 q2)) (h01 : q0.1 < q1.1) (h12 : q1.1 < q2.1)
    (hα : Tendsto α F (𝓝 α0)) : ∀ (l : List (ℝ × ℝ)) (a : ι → List (ℝ × ℝ)), TL F a l → (q2.1 :: l.map Prod.fst).Pairwise (· < ·) →
    Tendsto (fun i => cubStartMiss (p0 i) (p1 i) (p2 i) (α i) (a i)) F (𝓝 (cubStartMiss q0 q1 q2 α0 l))
  | [], _, .nil, _ => by simpa [cubStartMiss] using tendsto_const_nhds
  | [p3], _, .cons h3 .nil, _ => by
    obtain ⟨hs, hb⟩ := first_tendsto h0 h1 h2 h01 h12 hα
    simp only [cubStartMiss]
    exact (val_tendsto h2.fst_nhds h2.snd_nhds hs hb hα h3.fst_nhds).sub h3.snd_nhds
  | p3 :: p4 :: t, _, .cons h3 (.cons h4 ht), hp => by
    obtain ⟨hs, hb⟩ := first_tendsto h0 h1 h2 h01 h12 hα
    simp only [cubStartMiss]
    exact miss_tendsto (p3 :: p4 :: t) _ _ _ _ _ _ _ _ _ (.cons h3 (.cons h4 ht)) hp h2.fst_nhds h2.snd_nhds hs hb

theorem start_tendsto (h0 : Tendsto p0 F (𝓝 q0)) (h1 : Tendsto p1 F (𝓝 q1)) (h2 : Tendsto p2 F (𝓝 q2)) (l : List (ℝ × ℝ)) (a : ι → List (ℝ × ℝ)) (ha : TL F a l)
    (hne : l ≠ []) (hs : (q0.1 :: q1.1 :: q2.1 :: l.map Prod.fst).Pairwise (· < ·)) :
    Tendsto (fun i => cubStart (p0 i) (p1 i) (p2 i) (a i)) F (𝓝 (cubStart q0 q1 q2 l)) := by
  have h01 : q0.1 < q1.1 := (List.pairwise_cons.1 hs).1 _ (by simp)
  have h12 : q1.1 < q2.1 := (List.pairwise_cons.1 (List.pairwise_cons.1 hs).2).1 _ (by simp)
  have hs2 := (List.pairwise_cons.1 (List.pairwise_cons.1 hs).2).2
  have m0 := startMiss_tendsto h0 h1 h2 h01 h12 (tendsto_const_nhds (x := (0 : ℝ))) l a ha hs2
  have m1 := startMiss_tendsto h0 h1 h2 h01 h12 (tendsto_const_nhds (x := (1 : ℝ))) l a ha hs2
  unfold cubStart
  refine m0.div (m0.sub m1) ?_
  rw [startMiss_diff, neg_ne_zero]
  exact startMiss_ne q0 q1 q2 l hne hs

end first

/-- the slope of the spline -/
noncomputable def splineSlope : List (ℝ × ℝ) → ℝ → ℝ
  | p0 :: p1 :: p2 :: p3 :: p4 :: t, x =>
    let α := cubStart p0 p1 p2 (p3 :: p4 :: t)
    if x ≤ p2.1 then cubSlope p2.1 (firstSlope p0 p1 p2 α) (firstBend p0 p1 p2 α) α x
    else slopeGo p2.1 p2.2 (firstSlope p0 p1 p2 α) (firstBend p0 p1 p2 α) (p3 :: p4 :: t) x
  | [p0, p1, p2, p3], x =>
    let α := cubStart p0 p1 p2 [p3]
    cubSlope p2.1 (firstSlope p0 p1 p2 α) (firstBend p0 p1 p2 α) α x
  | _, _ => 0

theorem hasDerivAt_spline (pts : List (ℝ × ℝ)) (hs : (pts.map Prod.fst).Pairwise (· < ·)) (hn : 4 ≤ pts.length) (u : ℝ) :
    HasDerivAt (cubSpline pts) (splineSlope pts u) u := by
  match pts, hn with
  | [p0, p1, p2, p3], _ => exact Props.CubicSpline.hasDerivAt_val _ _ _ _ _ u
  | p0 :: p1 :: p2 :: p3 :: p4 :: t, _ =>
    obtain ⟨h01, h12, hs2⟩ := Props.CubicSpline.sorted3 hs
    obtain ⟨i1, -, -⟩ := Props.CubicSpline.smooth_go (p3 :: p4 :: t) p2.1 p2.2 (firstSlope p0 p1 p2 (cubStart p0 p1 p2 (p3 :: p4 :: t)))
      (firstBend p0 p1 p2 (cubStart p0 p1 p2 (p3 :: p4 :: t))) hs2 (by simp)
    obtain ⟨k1, k2, -⟩ := go_left p2.1 p2.2 (firstSlope p0 p1 p2 (cubStart p0 p1 p2 (p3 :: p4 :: t))) (firstBend p0 p1 p2 (cubStart p0 p1 p2 (p3 :: p4 :: t))) p3 (p4 :: t) hs2
    exact Props.CubicSpline.glue (m := p2.1) (Props.CubicSpline.hasDerivAt_val p2.1 p2.2 (firstSlope p0 p1 p2 (cubStart p0 p1 p2 (p3 :: p4 :: t)))
      (firstBend p0 p1 p2 (cubStart p0 p1 p2 (p3 :: p4 :: t))) (cubStart p0 p1 p2 (p3 :: p4 :: t))) i1 (by rw [k1]; simp [cubVal]) (by rw [k2]; simp [cubSlope]) u

/-- the spline and its slope depend continuously on the points and the argument -/
theorem spline_tendsto (l : List (ℝ × ℝ)) (a : ι → List (ℝ × ℝ)) (x : ι → ℝ) (x0 : ℝ) (h : TL F a l) (hs : (l.map Prod.fst).Pairwise (· < ·)) (hn : 4 ≤ l.length)
    (hx : Tendsto x F (𝓝 x0)) : Tendsto (fun i => cubSpline (a i) (x i)) F (𝓝 (cubSpline l x0)) ∧ Tendsto (fun i => splineSlope (a i) (x i)) F (𝓝 (splineSlope l x0)) := by
  match l, h, hn with
  | [p0, p1, p2, p3], .cons h0 (.cons h1 (.cons h2 (.cons h3 .nil))), _ =>
    obtain ⟨h01, h12, hs2⟩ := Props.CubicSpline.sorted3 hs
    have hα := start_tendsto h0 h1 h2 [p3] _ (.cons h3 .nil) (by simp) hs
    obtain ⟨k1, k2⟩ := first_tendsto h0 h1 h2 h01 h12 hα
    simp only [cubSpline, cubFrom, splineSlope]
    exact ⟨val_tendsto h2.fst_nhds h2.snd_nhds k1 k2 hα hx, slope_tendsto h2.fst_nhds k1 k2 hα hx⟩
  | p0 :: p1 :: p2 :: p3 :: p4 :: t, .cons h0 (.cons h1 (.cons h2 (.cons h3 (.cons h4 ht)))), _ =>
    obtain ⟨h01, h12, hs2⟩ := Props.CubicSpline.sorted3 hs
    have hα := start_tendsto h0 h1 h2 (p3 :: p4 :: t) _ (.cons h3 (.cons h4 ht)) (by simp) hs
    obtain ⟨k1, k2⟩ := first_tendsto h0 h1 h2 h01 h12 hα
    obtain ⟨g1, g2⟩ := go_tendsto (p3 :: p4 :: t) _ _ _ _ _ _ _ _ _ _ _ (.cons h3 (.cons h4 ht)) hs2 h2.fst_nhds h2.snd_nhds k1 k2 hx
    obtain ⟨l1, l2, -⟩ := go_left p2.1 p2.2 (firstSlope p0 p1 p2 (cubStart p0 p1 p2 (p3 :: p4 :: t))) (firstBend p0 p1 p2 (cubStart p0 p1 p2 (p3 :: p4 :: t))) p3 (p4 :: t) hs2
    simp only [cubSpline, cubFrom, splineSlope]
    refine ⟨ite_tendsto hx h2.fst_nhds (val_tendsto h2.fst_nhds h2.snd_nhds k1 k2 hα hx) g1 ?_, ite_tendsto hx h2.fst_nhds (slope_tendsto h2.fst_nhds k1 k2 hα hx) g2 ?_⟩
    · intro h
      rw [h, l1]
      simp [cubVal]
    · intro h
      rw [h, l2]
      simp [cubSlope]

/-- lists near an increasing list are increasing -/
theorem eventually_sorted : ∀ (l : List ℝ) (a : ι → List ℝ), TL F a l → l.Pairwise (· < ·) → ∀ᶠ i in F, (a i).Pairwise (· < ·)
  | [], _, .nil, _ => by simp
  | [x], _, .cons _ .nil, _ => by simp
  | x :: y :: t, _, .cons (f := f) hx (.cons (f := g) (g := b) hy ht), hs => by
    have ih := eventually_sorted (y :: t) _ (.cons hy ht) (List.pairwise_cons.1 hs).2
    have hxy : x < y := (List.pairwise_cons.1 hs).1 _ (by simp)
    filter_upwards [ih, hx.eventually_lt hy hxy] with i h1 h2
    refine List.pairwise_cons.2 ⟨?_, h1⟩
    intro z hz
    rcases List.mem_cons.1 hz with rfl | hz
    · exact h2
    · exact h2.trans ((List.pairwise_cons.1 h1).1 z hz)

end Verif.Lemmas.CubicStable
