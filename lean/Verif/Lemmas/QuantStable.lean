import Verif.Props.QuadSpline
import Verif.Lemmas.Interp
import Verif.Model.Quant
import Mathlib.Topology.Algebra.Order.Field
import Mathlib.Topology.Algebra.GroupWithZero
import Mathlib.Topology.Order.Basic
import Mathlib.Analysis.SpecificLimits.Basic
import Mathlib.Topology.MetricSpace.Bounded

/-!
Quadratic splines and piecewise linear curves depend continuously on their points: helper lemmas for C133.
-/

set_option linter.unusedSectionVars false
set_option autoImplicit false

namespace Verif.Lemmas.QuantStable

open Verif Verif.Np Verif.Model Verif.Lemmas.QuadSpline Filter Topology

/-- lists of a fixed length whose entries converge -/
inductive TL {ι α : Type} [TopologicalSpace α] (F : Filter ι) : (ι → List α) → List α → Prop
  | nil : TL F (fun _ => []) []
  | cons {f : ι → α} {a : α} {g : ι → List α} {l : List α} (hf : Tendsto f F (𝓝 a)) (hg : TL F g l) : TL F (fun i => f i :: g i) (a :: l)

variable {ι : Type} {F : Filter ι}

theorem TL.comp {κ α : Type} [TopologicalSpace α] {G : Filter κ} {φ : κ → ι} (hφ : Tendsto φ G F) {a : ι → List α} {l : List α} (h : TL F a l) :
    TL G (fun k => a (φ k)) l := by
  induction h with
  | nil => exact .nil
  | cons hf _ ih => exact .cons (hf.comp hφ) ih

theorem TL.const {α : Type} [TopologicalSpace α] : ∀ l : List α, TL F (fun _ => l) l
  | [] => .nil
  | _ :: t => .cons tendsto_const_nhds (TL.const t)

theorem TL.length {α : Type} [TopologicalSpace α] {a : ι → List α} {l : List α} (h : TL F a l) (i : ι) : (a i).length = l.length := by
  induction h with
  | nil => rfl
  | cons _ _ ih => simp [ih]

theorem TL.getLast {α : Type} [TopologicalSpace α] : ∀ (l : List α) (x : α) (a : ι → List α) (f : ι → α), Tendsto f F (𝓝 x) → TL F a l →
    Tendsto (fun i => (f i :: a i).getLast (by simp)) F (𝓝 ((x :: l).getLast (by simp)))
  | [], x, a, f, hf, h => by cases h; simpa using hf
  | y :: l, x, a, f, hf, h => by
    cases h with
    | @cons g _ b _ hg hb =>
      have := TL.getLast l y b g hg hb
      simpa [List.getLast_cons] using this

theorem TL.zip {α β : Type} [TopologicalSpace α] [TopologicalSpace β] : ∀ (l : List α) (k : List β) (a : ι → List α) (b : ι → List β), TL F a l → TL F b k →
    TL F (fun i => (a i).zip (b i)) (l.zip k)
  | [], k, a, b, h, _ => by cases h; simpa using TL.nil
  | x :: l, [], a, b, h, h' => by cases h'; simpa using TL.nil
  | x :: l, y :: k, a, b, h, h' => by
    cases h with
    | cons hf hg =>
      cases h' with
      | cons hf' hg' => exact .cons (hf.prodMk_nhds hf') (TL.zip l k _ _ hg hg')

/-- lists closer and closer to a list converge to it -/
theorem TL.of_close {r : ℕ → ℝ} (hr : Tendsto r atTop (𝓝 0)) : ∀ (l : List ℝ) (a : ℕ → List ℝ), (∀ n, List.Forall₂ (fun x y => |y - x| ≤ r n) l (a n)) →
    TL atTop a l
  | [], a, h => by
    have : a = fun _ => [] := funext fun n => List.forall₂_nil_left_iff.1 (h n)
    rw [this]; exact .nil
  | x :: l, a, h => by
    have e : a = fun n => (a n).headD 0 :: (a n).tail := funext fun n => by
      have := h n
      revert this
      generalize a n = b
      intro this
      cases this
      rfl
    have h1 : ∀ n, |(a n).headD 0 - x| ≤ r n ∧ List.Forall₂ (fun x y => |y - x| ≤ r n) l (a n).tail := fun n => by
      have := h n
      revert this
      generalize a n = b
      intro this
      cases this with
      | cons h1 h2 => exact ⟨h1, h2⟩
    rw [e]
    refine .cons ?_ (TL.of_close hr l _ fun n => (h1 n).2)
    refine tendsto_iff_dist_tendsto_zero.2 ?_
    refine squeeze_zero (fun n => dist_nonneg) (fun n => ?_) hr
    rw [Real.dist_eq]
    exact (h1 n).1

section spline
variable {m v d x : ι → ℝ} {m0 v0 d0 x0 : ℝ}

theorem curv_tendsto {p : ι → ℝ × ℝ} {p0 : ℝ × ℝ} (hm : Tendsto m F (𝓝 m0)) (hv : Tendsto v F (𝓝 v0)) (hd : Tendsto d F (𝓝 d0)) (hp : Tendsto p F (𝓝 p0))
    (h : m0 < p0.1) : Tendsto (fun i => quadCurv (m i) (v i) (d i) (p i).1 (p i).2) F (𝓝 (quadCurv m0 v0 d0 p0.1 p0.2)) := by
  have h1 := hp.fst_nhds
  have h2 := hp.snd_nhds
  unfold quadCurv
  have hne : (p0.1 - m0) * (p0.1 - m0) ≠ 0 := by
    have : 0 < p0.1 - m0 := sub_pos.2 h
    positivity
  exact ((h2.sub hv).sub (hd.mul (h1.sub hm))).div ((h1.sub hm).mul (h1.sub hm)) hne

theorem val_tendsto {c : ι → ℝ} {c0 : ℝ} (hm : Tendsto m F (𝓝 m0)) (hv : Tendsto v F (𝓝 v0)) (hd : Tendsto d F (𝓝 d0)) (hc : Tendsto c F (𝓝 c0))
    (hx : Tendsto x F (𝓝 x0)) : Tendsto (fun i => quadVal (m i) (v i) (d i) (c i) (x i)) F (𝓝 (quadVal m0 v0 d0 c0 x0)) := by
  unfold quadVal
  exact (hv.add (hd.mul (hx.sub hm))).add (hc.mul ((hx.sub hm).mul (hx.sub hm)))

theorem slope_tendsto {c : ι → ℝ} {c0 : ℝ} (hm : Tendsto m F (𝓝 m0)) (hd : Tendsto d F (𝓝 d0)) (hc : Tendsto c F (𝓝 c0))
    (hx : Tendsto x F (𝓝 x0)) : Tendsto (fun i => quadSlope (m i) (d i) (c i) (x i)) F (𝓝 (quadSlope m0 d0 c0 x0)) := by
  unfold quadSlope
  exact hd.add ((hc.const_mul 2).mul (hx.sub hm))

theorem mid_tendsto {p p' : ι → ℝ × ℝ} {p0 p0' : ℝ × ℝ} (hp : Tendsto p F (𝓝 p0)) (hp' : Tendsto p' F (𝓝 p0')) :
    Tendsto (fun i => ((p i).1 + (p' i).1) / 2) F (𝓝 ((p0.1 + p0'.1) / 2)) := (hp.fst_nhds.add hp'.fst_nhds).div_const 2

theorem miss_tendsto : ∀ (l : List (ℝ × ℝ)) (a : ι → List (ℝ × ℝ)) (m v d : ι → ℝ) (m0 v0 d0 : ℝ), TL F a l → (m0 :: l.map Prod.fst).Pairwise (· < ·) →
    Tendsto m F (𝓝 m0) → Tendsto v F (𝓝 v0) → Tendsto d F (𝓝 d0) →
    Tendsto (fun i => quadMiss (m i) (v i) (d i) (a i)) F (𝓝 (quadMiss m0 v0 d0 l))
  | [], _, m, v, d, m0, v0, d0, .nil, _, hm, hv, hd => by simpa [quadMiss] using tendsto_const_nhds
  | [p], _, m, v, d, m0, v0, d0, .cons hp .nil, _, hm, hv, hd => by simpa [quadMiss] using tendsto_const_nhds
  | [p, p'], _, m, v, d, m0, v0, d0, .cons hp (.cons hp' .nil), hs, hm, hv, hd => by
    simp only [quadMiss]
    have h1 : m0 < p.1 := by simp at hs; exact hs.1.1
    exact (val_tendsto hm hv hd (curv_tendsto hm hv hd hp h1) hp'.fst_nhds).sub hp'.snd_nhds
  | p :: p' :: p'' :: t, _, m, v, d, m0, v0, d0, .cons hp (.cons hp' (.cons hp'' ht)), hs, hm, hv, hd => by
    simp only [quadMiss]
    obtain ⟨h1, _, h3⟩ := sorted_step hs
    have hc := curv_tendsto hm hv hd hp h1
    have hm' := mid_tendsto hp hp'
    exact miss_tendsto (p' :: p'' :: t) _ _ _ _ _ _ _ (.cons hp' (.cons hp'' ht)) h3 hm' (val_tendsto hm hv hd hc hm') (slope_tendsto hm hd hc hm')

/-- a choice between two functions that converge where the other one is not chosen, and to the same limit where both can be -/
theorem ite_tendsto {u w f g : ι → ℝ} {u0 w0 f0 g0 : ℝ} (hu : Tendsto u F (𝓝 u0)) (hw : Tendsto w F (𝓝 w0)) (hf : Tendsto f F (𝓝 f0)) (hg : Tendsto g F (𝓝 g0))
    (he : u0 = w0 → f0 = g0) : Tendsto (fun i => if u i ≤ w i then f i else g i) F (𝓝 (if u0 ≤ w0 then f0 else g0)) := by
  rcases lt_trichotomy u0 w0 with h | h | h
  · rw [if_pos h.le]
    refine hf.congr' ?_
    filter_upwards [hu.eventually_lt hw h] with i hi
    rw [if_pos hi.le]
  · rw [if_pos h.le]
    rw [← he h] at hg
    exact hf.if' hg
  · rw [if_neg (not_le.2 h)]
    refine hg.congr' ?_
    filter_upwards [hw.eventually_lt hu h] with i hi
    rw [if_neg (not_le.2 hi)]

theorem go_tendsto : ∀ (l : List (ℝ × ℝ)) (a : ι → List (ℝ × ℝ)) (m v d x : ι → ℝ) (m0 v0 d0 x0 : ℝ), TL F a l → (m0 :: l.map Prod.fst).Pairwise (· < ·) →
    Tendsto m F (𝓝 m0) → Tendsto v F (𝓝 v0) → Tendsto d F (𝓝 d0) → Tendsto x F (𝓝 x0) →
    Tendsto (fun i => quadGo (m i) (v i) (d i) (a i) (x i)) F (𝓝 (quadGo m0 v0 d0 l x0))
  | [], _, m, v, d, x, m0, v0, d0, x0, .nil, _, hm, hv, hd, hx => by simpa [quadGo] using hv
  | [p], _, m, v, d, x, m0, v0, d0, x0, .cons hp .nil, hs, hm, hv, hd, hx => by
    simp only [quadGo]
    have h1 : m0 < p.1 := by simp at hs; exact hs
    exact val_tendsto hm hv hd (curv_tendsto hm hv hd hp h1) hx
  | [p, p'], _, m, v, d, x, m0, v0, d0, x0, .cons hp (.cons hp' .nil), hs, hm, hv, hd, hx => by
    simp only [quadGo]
    have h1 : m0 < p.1 := by simp at hs; exact hs.1.1
    exact val_tendsto hm hv hd (curv_tendsto hm hv hd hp h1) hx
  | p :: p' :: p'' :: t, _, m, v, d, x, m0, v0, d0, x0, .cons hp (.cons hp' (.cons hp'' ht)), hs, hm, hv, hd, hx => by
    simp only [quadGo]
    obtain ⟨h1, _, h3⟩ := sorted_step hs
    have hc := curv_tendsto hm hv hd hp h1
    have hm' := mid_tendsto hp hp'
    refine ite_tendsto hx hm' (val_tendsto hm hv hd hc hx)
      (go_tendsto (p' :: p'' :: t) _ _ _ _ _ _ _ _ _ (.cons hp' (.cons hp'' ht)) h3 hm' (val_tendsto hm hv hd hc hm') (slope_tendsto hm hd hc hm') hx) ?_
    intro he
    rw [he, (go_left _ _ _ p' (p'' :: t) h3).1]

theorem spline_tendsto (l : List (ℝ × ℝ)) (a : ι → List (ℝ × ℝ)) (x : ι → ℝ) (x0 : ℝ) (h : TL F a l) (hs : (l.map Prod.fst).Pairwise (· < ·)) (hn : 3 ≤ l.length)
    (hx : Tendsto x F (𝓝 x0)) : Tendsto (fun i => quadSpline (a i) (x i)) F (𝓝 (quadSpline l x0)) := by
  cases h with
  | nil => simp at hn
  | @cons f p g t hf hg =>
    simp only [quadSpline]
    rw [List.map_cons] at hs
    have h0 := miss_tendsto t g _ _ _ _ _ _ hg hs hf.fst_nhds hf.snd_nhds (tendsto_const_nhds (x := (0 : ℝ)))
    have h1 := miss_tendsto t g _ _ _ _ _ _ hg hs hf.fst_nhds hf.snd_nhds (tendsto_const_nhds (x := (1 : ℝ)))
    have hne : quadMiss p.1 p.2 0 t - quadMiss p.1 p.2 1 t ≠ 0 := by
      rw [miss_diff, neg_ne_zero]
      exact miss_ne t p.1 0 1 (by simpa using hn) hs le_rfl one_pos
    exact go_tendsto t g _ _ _ _ _ _ _ _ hg hs hf.fst_nhds hf.snd_nhds (h0.div (h0.sub h1) hne) hx

end spline

/-- the CDF of one row as a number -/
noncomputable def cdfVal (quants : List ℝ) (l0 : ℝ) (t : List ℝ) (x : ℝ) : ℝ :=
  if l0 ≤ x then (if x ≤ (l0 :: t).getLast (by simp) then quadSpline ((l0 :: t).zip quants) x else 1) else 0

theorem quantCdf_val (quants : List ℝ) (l0 : ℝ) (t : List ℝ) (x : ℝ) : quantCdf quadSpline quants (l0 :: t) x = some (cdfVal quants l0 t x) := by
  unfold quantCdf cdfVal
  by_cases h1 : x < l0
  · simp [h1, not_le.2 h1]
  · by_cases h2 : (l0 :: t).getLast (by simp) < x
    · simp only [if_neg h1, if_pos h2, if_pos (not_lt.1 h1), if_neg (not_le.2 h2)]
    · simp only [if_neg h1, if_neg h2, if_pos (not_lt.1 h1), if_pos (not_lt.1 h2)]

theorem cdf_tendsto (quants : List ℝ) (l0 : ℝ) (t : List ℝ) (b : ι → ℝ) (a : ι → List ℝ) (x : ι → ℝ) (x0 : ℝ) (hb : Tendsto b F (𝓝 l0)) (ha : TL F a t)
    (hx : Tendsto x F (𝓝 x0)) (hs : (l0 :: t).Pairwise (· < ·)) (hlen : quants.length = (l0 :: t).length) (hn : 3 ≤ quants.length)
    (h0 : quants.head? = some 0) (h1 : quants.getLast? = some 1) :
    Tendsto (fun i => cdfVal quants (b i) (a i) (x i)) F (𝓝 (cdfVal quants l0 t x0)) := by
  have hfst : (((l0 :: t).zip quants).map Prod.fst) = l0 :: t := List.map_fst_zip hlen.ge
  have hthr := Verif.Props.QuadSpline.through ((l0 :: t).zip quants) (by rw [hfst]; exact hs)
  have hl : Tendsto (fun i => (b i :: a i).getLast (by simp)) F (𝓝 ((l0 :: t).getLast (by simp))) := TL.getLast t l0 a b hb ha
  have hsp := spline_tendsto ((l0 :: t).zip quants) (fun i => (b i :: a i).zip quants) x x0 (TL.zip (l0 :: t) quants _ (fun _ => quants) (.cons hb ha) (TL.const quants))
    (by rw [hfst]; exact hs) (by rw [List.length_zip]; omega) hx
  have hle : l0 ≤ (l0 :: t).getLast (by simp) := by
    rcases List.mem_cons.1 (List.getLast_mem (l := l0 :: t) (by simp)) with h | h
    · exact h.ge
    · exact ((List.pairwise_cons.1 hs).1 _ h).le
  unfold cdfVal
  refine ite_tendsto hb hx (ite_tendsto hx hl hsp tendsto_const_nhds ?_) tendsto_const_nhds ?_
  · intro he
    have hm : ((l0 :: t).getLast (by simp), (1 : ℝ)) ∈ (l0 :: t).zip quants := by
      have hp : 0 < quants.length := by omega
      have := List.getLast_mem (l := (l0 :: t).zip quants) (by
        intro h; have := congrArg List.length h; rw [List.length_zip, ← hlen, List.length_nil] at this; omega)
      rw [List.getLast_eq_getElem] at this
      rw [List.getElem_zip] at this
      rw [List.getLast?_eq_getElem?] at h1
      have e : ((l0 :: t).zip quants).length - 1 = quants.length - 1 := by rw [List.length_zip]; omega
      have e' : ((l0 :: t).zip quants).length - 1 = (l0 :: t).length - 1 := by rw [List.length_zip]; omega
      have g1 : quants[((l0 :: t).zip quants).length - 1]'(by omega) = 1 := by
        obtain ⟨_, g⟩ := List.getElem?_eq_some_iff.1 h1
        rw [← g]
        congr 1
      have g2 : (l0 :: t)[((l0 :: t).zip quants).length - 1]'(by rw [e']; simp) = (l0 :: t).getLast (by simp) := by
        rw [List.getLast_eq_getElem]
        congr 1
      rw [g1, g2] at this
      exact this
    rw [he]
    exact hthr _ hm
  · intro he
    subst he
    rw [if_pos hle]
    have hm : (l0, (0 : ℝ)) ∈ (l0 :: t).zip quants := by
      match quants, h0 with
      | q :: qs, h0 =>
        simp at h0
        subst h0
        simp
    exact hthr _ hm

/-! ### piecewise linear curves -/

theorem strictX_pair {x0 y0 x1 y1 : ℝ} {t : List (ℝ × ℝ)} (h : StrictX ((x0, y0) :: (x1, y1) :: t)) : x0 < x1 ∧ StrictX ((x1, y1) :: t) := by
  exact ⟨h.head, h.tail⟩

theorem interpGo_tendsto : ∀ (l : List (ℝ × ℝ)) (a : ι → List (ℝ × ℝ)) (p : ι → ℝ × ℝ) (p0 : ℝ × ℝ) (x : ι → ℝ) (x0 : ℝ), TL F a l → StrictX (p0 :: l) →
    Tendsto p F (𝓝 p0) → Tendsto x F (𝓝 x0) → Tendsto (fun i => npInterpGo (p i).1 (p i).2 (a i) (x i)) F (𝓝 (npInterpGo p0.1 p0.2 l x0))
  | [], _, p, p0, x, x0, .nil, _, hp, hx => by simpa [npInterpGo] using hp.snd_nhds
  | q0 :: l, _, p, p0, x, x0, .cons (f := q) (g := a) hq ha, hs, hp, hx => by
    obtain ⟨h1, h2⟩ := strictX_pair hs
    have e : ∀ (p q : ℝ × ℝ) (t : List (ℝ × ℝ)) (x : ℝ), npInterpGo p.1 p.2 (q :: t) x = if q.1 ≤ x then npInterpGo q.1 q.2 t x else line p.1 p.2 q.1 q.2 x := by
      intro p q t x
      exact npInterpGo_cons _ _ _ _ _ _
    simp only [e]
    have hne : q0.1 - p0.1 ≠ 0 := (sub_pos.2 h1).ne'
    have hl : Tendsto (fun i => line (p i).1 (p i).2 (q i).1 (q i).2 (x i)) F (𝓝 (line p0.1 p0.2 q0.1 q0.2 x0)) := by
      unfold line
      exact (((hq.snd_nhds.sub hp.snd_nhds).div (hq.fst_nhds.sub hp.fst_nhds) hne).mul (hx.sub hp.fst_nhds)).add hp.snd_nhds
    refine ite_tendsto hq.fst_nhds hx (interpGo_tendsto l a q q0 x x0 ha h2 hq hx) hl ?_
    intro he
    rw [← he, npInterpGo_head h2]
    unfold line
    field_simp
    ring

theorem adj_tendsto : ∀ (l : List ℝ) (a : ι → List ℝ), TL F a l → TL F (fun i => adjustedLocs (a i)) (adjustedLocs l)
  | [], _, .nil => .nil
  | [_], _, .cons _ .nil => .nil
  | _ :: y :: t, _, .cons hx (.cons hy ht) => .cons (hy.sub ((hy.sub hx).div_const 2)) (adj_tendsto (y :: t) _ (.cons hy ht))

theorem derivs_tendsto : ∀ (q l : List ℝ) (a : ι → List ℝ), l.Pairwise (· < ·) → TL F a l → TL F (fun i => cdfDerivs q (a i)) (cdfDerivs q l)
  | [], l, a, _, h => by simpa [cdfDerivs, diff] using TL.nil
  | [q], l, a, _, h => by simpa [cdfDerivs, diff] using TL.nil
  | q :: q' :: qs, [], _, _, .nil => by simpa [cdfDerivs, diff] using TL.nil
  | q :: q' :: qs, [x], _, _, .cons _ .nil => by simpa [cdfDerivs, diff] using TL.nil
  | q :: q' :: qs, x :: y :: t, _, hs, .cons (f := f) hx (.cons (f := g) (g := a) hy ht) => by
    have ih := derivs_tendsto (q' :: qs) (y :: t) _ hs.tail (.cons hy ht)
    have hne : y - x ≠ 0 := by
      simp at hs
      exact (sub_pos.2 hs.1.1).ne'
    simp only [cdfDerivs, diff, List.zipWith_cons_cons] at ih ⊢
    exact .cons (Tendsto.div tendsto_const_nhds (hy.sub hx) hne) ih

theorem interp_mid (lo hi : ℝ) (p : ℝ × ℝ) (t : List (ℝ × ℝ)) (x : ℝ) (h : p.1 ≤ x) (h' : x ≤ ((p :: t).getLast (by simp)).1) :
    interp lo hi (p :: t) x = some (npInterpGo p.1 p.2 t x) := by
  obtain ⟨x0, y0⟩ := p
  unfold interp
  simp only [if_neg (not_lt.2 h), if_neg (not_lt.2 h')]

/-- strictly inside the knots a piecewise linear curve depends continuously on the knots and on the argument -/
theorem interp_tendsto (lo hi : ℝ) (kn : List (ℝ × ℝ)) (knL : ι → List (ℝ × ℝ)) (h : TL F knL kn) (hs : StrictX kn) (x : ι → ℝ) (x0 a b : ℝ) (hx : Tendsto x F (𝓝 x0))
    (ha : (kn.map Prod.fst).head? = some a) (hb : (kn.map Prod.fst).getLast? = some b) (hax : a < x0) (hxb : x0 < b) :
    ∃ (v : ℝ) (w : ι → ℝ), interp lo hi kn x0 = some v ∧ (∀ᶠ i in F, interp lo hi (knL i) (x i) = some (w i)) ∧ Tendsto w F (𝓝 v) := by
  cases h with
  | nil => simp at ha
  | @cons f p g t hf hg =>
    have ha' : p.1 = a := by simpa using ha
    have hb' : ((p :: t).getLast (by simp)).1 = b := by
      rw [List.getLast?_map, List.getLast?_eq_getLast_of_ne_nil (by simp)] at hb
      simpa using hb
    have hlast := TL.getLast t p g f hf hg
    refine ⟨_, fun i => npInterpGo (f i).1 (f i).2 (g i) (x i), interp_mid _ _ _ _ _ (by rw [ha']; exact hax.le) (by rw [hb']; exact hxb.le), ?_,
      interpGo_tendsto t g f p x x0 hg hs hf hx⟩
    filter_upwards [hf.fst_nhds.eventually_lt hx (by rw [ha']; exact hax), hx.eventually_lt hlast.fst_nhds (by rw [hb']; exact hxb)] with i h1 h2
    exact interp_mid _ _ _ _ _ h1.le h2.le

end Verif.Lemmas.QuantStable
