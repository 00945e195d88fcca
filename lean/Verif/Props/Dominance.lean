import Verif.Props.Stability
import Verif.Props.MetricGrid

/-!
# C134: ordered PDFs have ordered quantiles and means

One PDF lies to the left of another if its CDF is nowhere smaller. The PPFs of the classes interpolate the inverse of a table of the CDF; with the first theorem, the PPF is the
largest point at which the CDF does not exceed the probability.
-/

set_option linter.unusedSectionVars false
set_option autoImplicit false

namespace Verif.Props.Dominance

open Verif Verif.Np Verif.Model Verif.Lemmas Verif.Lemmas.InterpPdf Verif.Lemmas.Hist Verif.Spec Verif.Props.Bins Verif.Props.Hist Verif.Props.InterpPdf Verif.Props.Mirror
open Verif.Props.MixReal Verif.Props.Stability

variable {K : Type} [Field K] [LinearOrder K] [IsStrictOrderedRing K]

/-! ## Interpolation and inverse interpolation -/

theorem galois_go {x0 y0 q y : K} {t : List (K × K)} (hx : StrictX ((x0, y0) :: t)) (hy : MonoY ((x0, y0) :: t)) (hq : y0 ≤ q) (h0 : x0 ≤ y) (h1 : y ≤ (((x0, y0) :: t).getLast (by simp)).1) :
    npInterpGo x0 y0 t y ≤ q ↔ y ≤ npInterpGo y0 x0 (swapKnots t) q := by
  induction t generalizing x0 y0 with
  | nil =>
    simp only [List.getLast_singleton] at h1
    simp [npInterpGo, swapKnots, hq, h1]
  | cons p t ih =>
    obtain ⟨x1, y1⟩ := p
    rw [List.getLast_cons (by simp)] at h1
    rw [swapKnots_cons, npInterpGo_cons, npInterpGo_cons]
    by_cases hq1 : y1 ≤ q
    · rw [if_pos hq1]
      by_cases hy1 : x1 ≤ y
      · rw [if_pos hy1]
        exact ih hx.tail hy.tail hq1 hy1 h1
      · rw [if_neg hy1]
        have hlt := not_le.1 hy1
        have e1 : line x0 y0 x1 y1 y ≤ y1 := line_le h0 hlt.le hx.head hy.head
        have e2 := swap_mem hx.tail.mono hq1
        exact ⟨fun _ => hlt.le.trans e2, fun _ => e1.trans hq1⟩
    · rw [if_neg hq1]
      have hlt := not_le.1 hq1
      have hyy : y0 < y1 := lt_of_le_of_lt hq hlt
      have hl := line_lt hq hlt hx.head
      by_cases hy1 : x1 ≤ y
      · rw [if_pos hy1]
        have e1 := le_npInterpGo hy.tail hy1
        exact ⟨fun h => absurd (e1.trans h) (not_le.2 hlt), fun h => absurd (hy1.trans h) (not_le.2 hl)⟩
      · rw [if_neg hy1]
        have hxx := hx.head
        have hd : 0 < x1 - x0 := sub_pos.2 hxx
        have hd' : 0 < y1 - y0 := sub_pos.2 hyy
        unfold line
        rw [div_mul_eq_mul_div, div_mul_eq_mul_div, ← le_sub_iff_add_le, div_le_iff₀ hd, ← sub_le_iff_le_add, le_div_iff₀ hd']
        constructor <;> intro h <;> nlinarith

/-- interpolating a table of a non-decreasing function backwards: outside of the table the fill values, inside the largest point where the interpolated function does not exceed
`q` -/
theorem galois {a b u w : K} {xs c : List K} (lo hi f0 f1 q : K) (hx : xs.Pairwise (· < ·)) (hc : c.Pairwise (· ≤ ·)) (hl : xs.length = c.length) (ha : xs.head? = some a) (hb : xs.getLast? = some b)
    (hu : c.head? = some u) (hw : c.getLast? = some w) :
    ∃ x, interp lo hi (c.zip xs) q = some x ∧ (q < u → x = lo) ∧ (w < q → x = hi) ∧
      (u ≤ q → q ≤ w → a ≤ x ∧ x ≤ b ∧ ∀ y F, a ≤ y → y ≤ b → interp f0 f1 (xs.zip c) y = some F → (F ≤ q ↔ y ≤ x)) := by
  have huw : u ≤ w := by
    match c, hu with
    | u' :: c, hu =>
      obtain rfl : u' = u := by simpa using hu
      have : w ∈ u' :: c := List.mem_of_getLast? hw
      rcases List.mem_cons.1 this with h | h
      · exact h.ge
      · exact (List.pairwise_cons.1 hc).1 w h
  match xs, c, hl with
  | [], [], _ => simp at ha
  | a' :: xs, u' :: c, hl =>
    obtain rfl : a' = a := by simpa using ha
    obtain rfl : u' = u := by simpa using hu
    have hS : StrictX ((a', u') :: xs.zip c) := strictX_zip (ys := u' :: c) hx
    have hM : MonoY ((a', u') :: xs.zip c) := by
      have h : StrictX ((a', u') :: xs.zip c) → True := fun _ => trivial
      unfold MonoY
      rw [List.isChain_iff_pairwise]
      have e : ((a', u') :: xs.zip c).map Prod.snd = u' :: c := by
        have : ((a' :: xs).zip (u' :: c)).map Prod.snd = u' :: c := List.map_snd_zip (by omega)
        exact this
      have := e ▸ hc
      rw [List.pairwise_map] at this
      exact this
    have hlast : (((a', u') :: xs.zip c).getLast (by simp)) = (b, w) := by
      have := getLast_zip (a' :: xs) (u' :: c) hl (by simp) (by simp) (by simp)
      rw [List.getLast?_eq_some_getLast (by simp)] at hb hw
      rw [Option.some.inj hb, Option.some.inj hw] at this
      exact this
    have hlast' : (((u', a') :: c.zip xs).getLast (by simp)) = (w, b) := by
      have := getLast_zip (u' :: c) (a' :: xs) hl.symm (by simp) (by simp) (by simp)
      rw [List.getLast?_eq_some_getLast (by simp)] at hb hw
      rw [Option.some.inj hb, Option.some.inj hw] at this
      exact this
    simp only [List.zip_cons_cons, interp, hlast, hlast']
    by_cases h1 : q < u'
    · rw [if_pos h1]
      exact ⟨lo, rfl, fun _ => rfl, fun h => absurd (h1.trans_le huw) (not_lt.2 h.le), fun h => absurd h (not_le.2 h1)⟩
    by_cases h2 : w < q
    · rw [if_neg h1, if_pos h2]
      exact ⟨hi, rfl, fun h => absurd h h1, fun _ => rfl, fun _ h => absurd h (not_le.2 h2)⟩
    rw [if_neg h1, if_neg h2]
    refine ⟨_, rfl, fun h => absurd h h1, fun h => absurd h h2, fun hq0 hq1 => ?_⟩
    have hsw : c.zip xs = swapKnots (xs.zip c) := (zip_swap xs c).symm
    have hMs : MonoY ((u', a') :: swapKnots (xs.zip c)) := by
      have : MonoY (swapKnots ((a', u') :: xs.zip c)) := by
        unfold MonoY swapKnots; rw [List.isChain_map]; exact hS.mono
      exact this
    rw [hsw]
    refine ⟨swap_mem hS.mono hq0, ?_, fun y F hy0 hy1 hF => ?_⟩
    · have := npInterpGo_le hMs hq0
      simp only [← hsw, hlast'] at this
      rw [← hsw]
      exact this
    · rw [if_neg (not_lt.2 hy0), if_neg (not_lt.2 hy1)] at hF
      rw [← Option.some.inj hF]
      exact galois_go hS hM hq0 hy0 (by rw [hlast]; exact hy1)

/-- the interpolant at the ends of the table -/
theorem ends {a b u w : K} {xs c : List K} (f0 f1 : K) (hx : xs.Pairwise (· < ·)) (hl : xs.length = c.length) (ha : xs.head? = some a) (hb : xs.getLast? = some b)
    (hu : c.head? = some u) (hw : c.getLast? = some w) : interp f0 f1 (xs.zip c) a = some u ∧ interp f0 f1 (xs.zip c) b = some w := by
  have hS : StrictX (xs.zip c) := strictX_zip hx
  have hne : xs ≠ [] := by rintro rfl; simp at ha
  have hn : 0 < xs.length := List.length_pos_iff.2 hne
  have h1 : (a, u) ∈ xs.zip c := List.mem_of_getElem? (i := 0) (List.getElem?_zip_eq_some.2 ⟨by rw [← List.head?_eq_getElem?]; exact ha, by rw [← List.head?_eq_getElem?]; exact hu⟩)
  have h2 : (b, w) ∈ xs.zip c := List.mem_of_getElem? (i := xs.length - 1)
    (List.getElem?_zip_eq_some.2 ⟨by rw [← List.getLast?_eq_getElem?]; exact hb, by rw [hl, ← List.getLast?_eq_getElem?]; exact hw⟩)
  exact ⟨interp_knot (p := (a, u)) hS h1, interp_knot (p := (b, w)) hS h2⟩

theorem head_le_last {a b : K} {xs : List K} (hx : xs.Pairwise (· < ·)) (ha : xs.head? = some a) (hb : xs.getLast? = some b) : a ≤ b := by
  match xs, ha with
  | a' :: xs, ha =>
    obtain rfl : a' = a := by simpa using ha
    rcases List.mem_cons.1 (List.mem_of_getLast? hb) with h | h
    · exact h.ge
    · exact ((List.pairwise_cons.1 hx).1 b h).le

theorem interp_some {lo hi x : K} {l : List (K × K)} (h : l ≠ []) : ∃ v, interp lo hi l x = some v := by
  match l, h with
  | (x0, y0) :: t, _ =>
    unfold interp
    dsimp only
    split_ifs
    exacts [⟨_, rfl⟩, ⟨_, rfl⟩, ⟨_, rfl⟩]

/-- two tables on the same grid, the interpolated function of one nowhere below that of the other -/
theorem order_same {a b : K} {xs c c' : List K} {lo hi f0 f1 : K} (q : K) (hx : xs.Pairwise (· < ·)) (hc : c.Pairwise (· ≤ ·)) (hc' : c'.Pairwise (· ≤ ·)) (hl : xs.length = c.length)
    (hl' : xs.length = c'.length) (ha : xs.head? = some a) (hb : xs.getLast? = some b) (hlo : lo ≤ a) (hhi : b ≤ hi)
    (hcc : ∀ y F F', interp f0 f1 (xs.zip c) y = some F → interp f0 f1 (xs.zip c') y = some F' → F' ≤ F) :
    ∃ x x', interp lo hi (c.zip xs) q = some x ∧ interp lo hi (c'.zip xs) q = some x' ∧ x ≤ x' := by
  have hne : xs ≠ [] := by rintro rfl; simp at ha
  have hn : 0 < xs.length := List.length_pos_iff.2 hne
  have hcn : c ≠ [] := List.length_pos_iff.1 (hl ▸ hn)
  have hcn' : c' ≠ [] := List.length_pos_iff.1 (hl' ▸ hn)
  have hab := head_le_last hx ha hb
  obtain ⟨u, hu⟩ : ∃ u, c.head? = some u := ⟨_, List.head?_eq_some_head hcn⟩
  obtain ⟨u', hu'⟩ : ∃ u, c'.head? = some u := ⟨_, List.head?_eq_some_head hcn'⟩
  obtain ⟨w, hw⟩ : ∃ u, c.getLast? = some u := ⟨_, List.getLast?_eq_some_getLast hcn⟩
  obtain ⟨w', hw'⟩ : ∃ u, c'.getLast? = some u := ⟨_, List.getLast?_eq_some_getLast hcn'⟩
  obtain ⟨k1, k2⟩ := ends f0 f1 hx hl ha hb hu hw
  obtain ⟨k1', k2'⟩ := ends f0 f1 hx hl' ha hb hu' hw'
  have huu : u' ≤ u := hcc _ _ _ k1 k1'
  have hww : w' ≤ w := hcc _ _ _ k2 k2'
  obtain ⟨x, e, e1, e2, e3⟩ := galois lo hi f0 f1 q hx hc hl ha hb hu hw
  obtain ⟨x', e', e1', e2', e3'⟩ := galois lo hi f0 f1 q hx hc' hl' ha hb hu' hw'
  refine ⟨x, x', e, e', ?_⟩
  have hx'lo : lo ≤ x' := by
    by_cases h1 : q < u'
    · exact (e1' h1).ge
    by_cases h2 : w' < q
    · rw [e2' h2]; exact hlo.trans (hab.trans hhi)
    · exact hlo.trans (e3' (not_lt.1 h1) (not_lt.1 h2)).1
  by_cases h1 : q < u
  · rw [e1 h1]; exact hx'lo
  by_cases h2 : w < q
  · rw [e2 h2, e2' (hww.trans_lt h2)]
  by_cases h2' : w' < q
  · rw [e2' h2']; exact (e3 (not_lt.1 h1) (not_lt.1 h2)).2.1.trans hhi
  obtain ⟨g1, g2, g3⟩ := e3 (not_lt.1 h1) (not_lt.1 h2)
  obtain ⟨g1', g2', g3'⟩ := e3' (huu.trans (not_lt.1 h1)) (not_lt.1 h2')
  obtain ⟨F, hF⟩ := interp_some (lo := f0) (hi := f1) (x := x) (l := xs.zip c) (by simp [hne, hcn])
  obtain ⟨F', hF'⟩ := interp_some (lo := f0) (hi := f1) (x := x) (l := xs.zip c') (by simp [hne, hcn'])
  exact (g3' x F' g1 g2 hF').1 ((hcc _ _ _ hF hF').trans ((g3 x F g1 g2 hF).2 le_rfl))

theorem go_order {x0 y0 y0' x : K} {xs c c' : List K} (hS : StrictX ((x0, y0) :: xs.zip c)) (hl : xs.length = c.length) (hl' : xs.length = c'.length) (h0 : y0' ≤ y0) (hx : x0 ≤ x)
    (hcc : List.Forall₂ (fun v v' => v' ≤ v) c c') : npInterpGo x0 y0' (xs.zip c') x ≤ npInterpGo x0 y0 (xs.zip c) x := by
  induction hcc generalizing x0 y0 y0' xs with
  | nil => simp [npInterpGo, h0]
  | @cons v v' c c' hv hcc ih =>
    match xs, hl, hl' with
    | x1 :: xs, hl, hl' =>
      simp only [List.zip_cons_cons]
      rw [npInterpGo_cons, npInterpGo_cons]
      by_cases h1 : x1 ≤ x
      · rw [if_pos h1, if_pos h1]
        exact ih hS.tail (by simpa using hl) (by simpa using hl') hv h1
      · rw [if_neg h1, if_neg h1]
        have hxx : x0 < x1 := hS.head
        have hd : 0 < x1 - x0 := sub_pos.2 hxx
        have e : ∀ p r : K, line x0 p x1 r x = p * ((x1 - x) / (x1 - x0)) + r * ((x - x0) / (x1 - x0)) := fun p r => by
          unfold line; field_simp; ring
        rw [e, e]
        have k1 : 0 ≤ (x1 - x) / (x1 - x0) := div_nonneg (by linarith [not_le.1 h1]) hd.le
        have k2 : 0 ≤ (x - x0) / (x1 - x0) := div_nonneg (by linarith) hd.le
        exact add_le_add (mul_le_mul_of_nonneg_right h0 k1) (mul_le_mul_of_nonneg_right hv k2)

/-- tables ordered at the points of the grid are ordered everywhere -/
theorem pointwise {xs c c' : List K} {f0 f1 : K} (hx : xs.Pairwise (· < ·)) (hl : xs.length = c.length) (hcc : List.Forall₂ (fun v v' => v' ≤ v) c c') (y F F' : K)
    (hF : interp f0 f1 (xs.zip c) y = some F) (hF' : interp f0 f1 (xs.zip c') y = some F') : F' ≤ F := by
  have hl' : xs.length = c'.length := hl.trans hcc.length_eq
  match xs, c, c', hl, hl', hcc with
  | [], [], [], _, _, _ => simp [interp] at hF
  | x0 :: xs, v :: c, v' :: c', hl, hl', .cons hv hcc =>
    have e1 := getLast_zip (x0 :: xs) (v :: c) hl (by simp) (by simp) (by simp)
    have e2 := getLast_zip (x0 :: xs) (v' :: c') hl' (by simp) (by simp) (by simp)
    simp only [List.zip_cons_cons] at e1 e2 hF hF'
    simp only [interp, e1] at hF
    simp only [interp, e2] at hF'
    by_cases h1 : y < x0
    · rw [if_pos h1] at hF hF'
      cases hF; cases hF'; exact le_rfl
    rw [if_neg h1] at hF hF'
    split_ifs at hF hF'
    · cases hF; cases hF'; exact le_rfl
    · rw [← Option.some.inj hF, ← Option.some.inj hF']
      exact go_order (strictX_zip (ys := v :: c) hx) (by simpa using hl) (by simpa using hl') hv (not_lt.1 h1) hcc

/-- a table is non-decreasing if the function interpolated in it is -/
theorem table_mono {f0 f1 : K} {xs c : List K} (hx : xs.Pairwise (· < ·)) (hl : xs.length = c.length)
    (h : ∀ x y p q, x ≤ y → interp f0 f1 (xs.zip c) x = some p → interp f0 f1 (xs.zip c) y = some q → p ≤ q) : c.Pairwise (· ≤ ·) := by
  rw [List.pairwise_iff_getElem]
  intro i j hi hj hij
  have hS : StrictX (xs.zip c) := strictX_zip hx
  have hk : ∀ (k : ℕ) (hk : k < c.length), interp f0 f1 (xs.zip c) (xs[k]'(by omega)) = some c[k] := fun k hk =>
    interp_knot (p := (xs[k]'(by omega), c[k])) hS (List.mem_of_getElem? (i := k) (List.getElem?_zip_eq_some.2 ⟨by simp, by simp⟩))
  exact h _ _ _ _ ((List.pairwise_iff_getElem.1 hx) i j (by omega) (by omega) hij).le (hk i hi) (hk j hj)

/-! ## Histograms -/

theorem length_histCumul (edges p : List K) (hg : Grid edges p.length) : edges.length = (histCumul edges p).length := by
  match edges, hg with
  | [], hg => exact absurd hg.size (by simp)
  | a :: e, hg =>
    have hl : p.length = e.length := by have := hg.size; simpa using this.symm
    have := length_cumsumFrom (0 : K) (Np.mul p (diff (a :: e)))
    unfold histCumul cumsum binWidths
    simp only [List.length_cons, this]
    simp [Np.mul, hl, Verif.Np.length_diff]

/-- **C134: the quantile of a histogram** for probability `q` is the largest point of its range at which the CDF does not exceed `q`; also with empty bins -/
theorem C134_hist_quantile (edges p : List K) (hg : Grid edges p.length) (h1 : totalMass edges p = 1) (hp : ∀ v ∈ p, 0 ≤ v) (a b : K) (ha : edges.head? = some a) (hb : edges.getLast? = some b)
    (q : K) (h0 : 0 ≤ q) (hq : q ≤ 1) :
    ∃ x, histPpf edges p q = some x ∧ a ≤ x ∧ x ≤ b ∧ ∀ y F, a ≤ y → y ≤ b → histCdf edges p y = some F → (F ≤ q ↔ y ≤ x) := by
  have hl := length_histCumul edges p hg
  obtain ⟨s1, s2, s3⟩ := C08_cdf_shape edges p hg h1 hp
  have hc : (histCumul edges p).Pairwise (· ≤ ·) := table_mono (f0 := 0) (f1 := 1) hg.strict hl fun x y u v hxy hu hv => by
    obtain ⟨u', v', e1, e2, -, h, -⟩ := s3 x y hxy
    unfold histCdf at e1 e2
    rw [hu] at e1; rw [hv] at e2
    cases e1; cases e2; exact h
  have hne : edges ≠ [] := by rintro rfl; simp at ha
  have hcn : histCumul edges p ≠ [] := by simp [histCumul]
  obtain ⟨u, hu⟩ : ∃ u, (histCumul edges p).head? = some u := ⟨_, List.head?_eq_some_head hcn⟩
  obtain ⟨w, hw⟩ : ∃ u, (histCumul edges p).getLast? = some u := ⟨_, List.getLast?_eq_some_getLast hcn⟩
  obtain ⟨k1, k2⟩ := ends 0 1 hg.strict hl ha hb hu hw
  have hu0 : u = 0 := by
    have := s1 a fun e he => by
      match edges, ha with
      | a' :: t, ha =>
        obtain rfl : a' = a := by simpa using ha
        rcases List.mem_cons.1 he with h | h
        · exact h.ge
        · exact ((List.pairwise_cons.1 hg.strict).1 e h).le
    unfold histCdf at this
    rw [k1] at this
    exact Option.some.inj this
  have hw1 : w = 1 := by
    have := s2 b fun e he => by
      obtain ⟨l, rfl⟩ : ∃ l, edges = l ++ [b] := ⟨_, (List.getLast?_eq_some_iff.1 hb).choose_spec⟩
      rcases List.mem_append.1 he with h | h
      · exact ((List.pairwise_append.1 hg.strict).2.2 e h b (by simp)).le
      · simp at h; exact h.le
    unfold histCdf at this
    rw [k2] at this
    exact Option.some.inj this
  subst hu0 hw1
  obtain ⟨x, e, -, -, e3⟩ := galois a b 0 1 q hg.strict hc hl ha hb hu hw
  refine ⟨x, ?_, e3 h0 hq⟩
  match edges, ha, hb, e with
  | a' :: t, ha, hb, e =>
    obtain rfl : a' = a := by simpa using ha
    rw [List.getLast?_eq_some_getLast (by simp)] at hb
    unfold histPpf
    simp only
    rw [Option.some.inj hb]
    exact e

/-- the CDF of `p` is nowhere below that of `p'`: its mass lies further to the left -/
def Left (F F' : K → Option K) : Prop := ∀ y u u', F y = some u → F' y = some u' → u' ≤ u

/-- **C134: histograms are ordered exactly if all of their quantiles are**, for any two histograms, on the same or on different edges -/
theorem C134_hist (edges p edges' p' : List K) (hg : Grid edges p.length) (h1 : totalMass edges p = 1) (hp : ∀ v ∈ p, 0 ≤ v) (hg' : Grid edges' p'.length) (h1' : totalMass edges' p' = 1)
    (hp' : ∀ v ∈ p', 0 ≤ v) :
    Left (histCdf edges p) (histCdf edges' p') ↔
      ∀ q x x', 0 ≤ q → q < 1 → histPpf edges p q = some x → histPpf edges' p' q = some x' → x ≤ x' := by
  have hne : edges ≠ [] := by rintro rfl; exact absurd hg.size (by simp)
  have hne' : edges' ≠ [] := by rintro rfl; exact absurd hg'.size (by simp)
  obtain ⟨a, ha⟩ : ∃ u, edges.head? = some u := ⟨_, List.head?_eq_some_head hne⟩
  obtain ⟨b, hb⟩ : ∃ u, edges.getLast? = some u := ⟨_, List.getLast?_eq_some_getLast hne⟩
  obtain ⟨a', ha'⟩ : ∃ u, edges'.head? = some u := ⟨_, List.head?_eq_some_head hne'⟩
  obtain ⟨b', hb'⟩ : ∃ u, edges'.getLast? = some u := ⟨_, List.getLast?_eq_some_getLast hne'⟩
  have mem_a : ∀ {l : List K} {a b : K}, l.Pairwise (· < ·) → l.head? = some a → ∀ e ∈ l, a ≤ e := fun {l a b} hs h e he => by
    match l, h with
    | a' :: t, h =>
      obtain rfl : a' = a := by simpa using h
      rcases List.mem_cons.1 he with h | h
      · exact h.ge
      · exact ((List.pairwise_cons.1 hs).1 e h).le
  have mem_b : ∀ {l : List K} {a b : K}, l.Pairwise (· < ·) → l.getLast? = some b → ∀ e ∈ l, e ≤ b := fun {l a b} hs h e he => by
    obtain ⟨l, rfl⟩ : ∃ l', l = l' ++ [b] := ⟨_, (List.getLast?_eq_some_iff.1 h).choose_spec⟩
    rcases List.mem_append.1 he with h | h
    · exact ((List.pairwise_append.1 hs).2.2 e h b (by simp)).le
    · simp at h; exact h.le
  obtain ⟨s1, s2, s3⟩ := C08_cdf_shape edges p hg h1 hp
  obtain ⟨s1', s2', s3'⟩ := C08_cdf_shape edges' p' hg' h1' hp'
  constructor
  · intro h q x x' h0 hq hx hx'
    obtain ⟨x2, e, g1, g2, g3⟩ := C134_hist_quantile edges p hg h1 hp a b ha hb q h0 hq.le
    obtain ⟨x2', e', g1', g2', g3'⟩ := C134_hist_quantile edges' p' hg' h1' hp' a' b' ha' hb' q h0 hq.le
    rw [hx] at e; rw [hx'] at e'
    cases e; cases e'
    obtain ⟨F, -, hF, -⟩ := s3 x x le_rfl
    obtain ⟨F', -, hF', -⟩ := s3' x x le_rfl
    have hFq : F ≤ q := (g3 x F g1 g2 hF).2 le_rfl
    have hle := h x F F' hF hF'
    by_cases k1 : x ≤ a'
    · exact k1.trans g1'
    by_cases k2 : x ≤ b'
    · exact (g3' x F' (not_le.1 k1).le k2 hF').1 (hle.trans hFq)
    · have := s2' x fun e he => (mem_b (a := a) hg'.strict hb' e he).trans (not_le.1 k2).le
      rw [hF'] at this
      have := Option.some.inj this
      linarith
  · intro h y F F' hF hF'
    obtain ⟨F2, -, e, -, f0, -, -⟩ := s3 y y le_rfl
    rw [hF] at e; cases e
    obtain ⟨-, F2', -, e', -, -, f1'⟩ := s3' y y le_rfl
    rw [hF'] at e'; cases e'
    by_cases hF1 : 1 ≤ F
    · exact f1'.trans hF1
    have hyb : y ≤ b := by
      by_contra hn
      have := s2 y fun e he => (mem_b (a := a) hg.strict hb e he).trans (not_le.1 hn).le
      rw [hF] at this
      exact hF1 (Option.some.inj this).ge
    by_cases k1 : y ≤ a'
    · have := s1' y fun e he => k1.trans (mem_a (b := a) hg'.strict ha' e he)
      rw [hF'] at this
      rw [Option.some.inj this]; exact f0
    obtain ⟨x, e, g1, g2, g3⟩ := C134_hist_quantile edges p hg h1 hp a b ha hb F f0 (not_le.1 hF1).le
    obtain ⟨x', e', g1', g2', g3'⟩ := C134_hist_quantile edges' p' hg' h1' hp' a' b' ha' hb' F f0 (not_le.1 hF1).le
    have hxx := h F x x' f0 (not_le.1 hF1) e e'
    have hyx : y ≤ x := by
      by_cases k2 : a ≤ y
      · exact (g3 y F k2 hyb hF).1 le_rfl
      · exact (not_le.1 k2).le.trans g1
    exact (g3' y F' (not_le.1 k1).le ((hyx.trans hxx).trans g2') hF').2 (hyx.trans hxx)

theorem meanOf_order (e : List K) : ∀ (a d : K) (p p' : List K), (a :: e).Pairwise (· < ·) → p.length = e.length → p'.length = e.length → 0 ≤ d →
    totalMass (a :: e) p' = d + totalMass (a :: e) p → (∀ x ∈ a :: e, massUpTo (a :: e) p' x ≤ d + massUpTo (a :: e) p x) →
    meanOf (a :: e) p + d * a ≤ meanOf (a :: e) p' := by
  induction e with
  | nil =>
    intro a d p p' _ hl hl' hd ht _
    simp only [List.length_nil, List.length_eq_zero_iff] at hl hl'
    subst hl hl'
    simp [totalMass] at ht
    simp [meanOf, ← ht]
  | cons b e ih =>
    intro a d p p' hs hl hl' hd ht h
    match p, p', hl, hl' with
    | v :: p, v' :: p', hl, hl' =>
      have hs' := List.pairwise_cons.1 hs
      have hab : a < b := hs'.1 b (by simp)
      have hm : ∀ (v : K) (p : List K), ∀ x ∈ b :: e, massUpTo (a :: b :: e) (v :: p) x = v * (b - a) + massUpTo (b :: e) p x := fun v p x hx => by
        have hbx : b ≤ x := by
          rcases List.mem_cons.1 hx with h | h
          · exact h.ge
          · exact ((List.pairwise_cons.1 hs'.2).1 x h).le
        simp only [massUpTo]
        rw [min_eq_right hbx, max_eq_right (sub_nonneg.2 hab.le)]
      have hd1 : 0 ≤ d + (v - v') * (b - a) := by
        have := h b (by simp)
        rw [hm v p b (by simp), hm v' p' b (by simp), massUpTo_left e b p b hs'.2 le_rfl, massUpTo_left e b p' b hs'.2 le_rfl] at this
        nlinarith
      have := ih b (d + (v - v') * (b - a)) p p' hs'.2 (by simpa using hl) (by simpa using hl') hd1 (by simp only [totalMass] at ht; linarith) fun x hx => by
        have := h x (List.mem_cons_of_mem _ hx)
        rw [hm v p x hx, hm v' p' x hx] at this
        linarith
      simp only [meanOf]
      nlinarith

/-- **C134: the reported means of ordered histograms** on common edges of equal width are ordered; the exact means are for any edges -/
theorem C134_hist_mean (edges p p' : List K) (hg : Grid edges p.length) (h1 : totalMass edges p = 1) (hl' : p'.length = p.length) (h1' : totalMass edges p' = 1)
    (h : Left (histCdf edges p) (histCdf edges p')) :
    meanOf edges p ≤ meanOf edges p' ∧
      (Uniform edges → ∃ m m', histMoment edges p 1 = .ok m ∧ histMoment edges p' 1 = .ok m' ∧ m ≤ m') := by
  have hg' : Grid edges p'.length := by rw [hl']; exact hg
  have key : meanOf edges p ≤ meanOf edges p' := by
    match edges, hg, hg', h1, h1', h with
    | [], hg, _, _, _, _ => exact absurd hg.size (by simp)
    | a :: e, hg, hg', h1, h1', h =>
      have hl : p.length = e.length := by have := hg.size; simpa using this.symm
      have := meanOf_order e a 0 p p' hg.strict hl (by rw [hl', hl]) le_rfl (by rw [h1, h1']; ring) fun x _ => by
        have := h x _ _ (C08_cdf_is_mass _ p hg h1 x) (C08_cdf_is_mass _ p' hg' h1' x)
        simpa using this
      simpa using this
  refine ⟨key, fun hu => ⟨_, _, (C11_moments_partial edges p hg hu h1).2, (C11_moments_partial edges p' hg' hu h1').2, key⟩⟩

/-! ## Interpolated PDFs -/

/-- **C134: interpolated PDFs on one grid** (of one ensemble): if the CDF of one is nowhere below that of the other, none of its quantiles is larger.
Missing: the reported means (false, `C134_interp_mean_wrong`). -/
theorem C134_interp_partial (xs ys c ys' c' : List K) (h : Constructed xs ys c) (h' : Constructed xs ys' c') (hy : ∀ v ∈ ys, 0 ≤ v) (hy' : ∀ v ∈ ys', 0 ≤ v)
    (ho : Left (interpCdf xs c) (interpCdf xs c')) (q : K) : ∃ x x', interpPpf xs c q = some x ∧ interpPpf xs c' q = some x' ∧ x ≤ x' := by
  have hm : ∀ {ys c : List K}, Constructed xs ys c → (∀ v ∈ ys, 0 ≤ v) → xs.length = c.length ∧ c.Pairwise (· ≤ ·) := fun {ys c} h hy => by
    obtain ⟨-, -, s3⟩ := C13_cdf_shape xs ys c h hy
    obtain ⟨a, b, t, u, v, r, rfl, rfl, hl, hs, -, rfl⟩ := constructed_facts h
    have hlen : (a :: b :: t).length = ((1 / 2 * u * (b - a)) :: cumsum (trapezoids (a :: b :: t) (u :: v :: r))).length := by
      have := length_cumsumFrom (0 : K) (trapezoids (a :: b :: t) (u :: v :: r))
      unfold cumsum
      simp only [List.length_cons, this]
      rw [length_trapezoids _ _ (by simp [hl])]
      simp
    refine ⟨hlen, table_mono (f0 := 0) (f1 := 1) hs hlen fun x y u v hxy hu hv => ?_⟩
    obtain ⟨u', v', e1, e2, -, h, -⟩ := s3 x y hxy
    unfold interpCdf at e1 e2
    rw [hu] at e1; rw [hv] at e2
    cases e1; cases e2; exact h
  obtain ⟨hl, hc⟩ := hm h hy
  obtain ⟨hl', hc'⟩ := hm h' hy'
  obtain ⟨a, b, t, u, v, r, rfl, -, -, hs, -, -⟩ := constructed_facts h
  exact order_same (a := a) (f0 := 0) (f1 := 1) q hs hc hc' hl hl' rfl (List.getLast?_eq_some_getLast (by simp)) le_rfl le_rfl ho

/-- **C134 fails for the reported means of interpolated PDFs** (C15: the mean is a sum over the grid, not the integral): the uniform density on `[0,2]` and the triangle above it, three
points each; the CDF of the first is nowhere below that of the second, its reported mean is larger -/
theorem C134_interp_mean_wrong : ∃ xs ys c ys' c' : List ℚ, Constructed xs ys c ∧ Constructed xs ys' c' ∧ (∀ v ∈ ys, 0 ≤ v) ∧ (∀ v ∈ ys', 0 ≤ v) ∧ Left (interpCdf xs c) (interpCdf xs c') ∧
    interpMoment xs ys 1 = .ok (3/2) ∧ interpMoment xs ys' 1 = .ok 1 := by
  have hx : ([0, 1, 2] : List ℚ).Pairwise (· < ·) := by decide +kernel
  refine ⟨[0, 1, 2], [1/2, 1/2, 1/2], [1/4, 1/2, 1], [0, 1, 0], [0, 1/2, 1], ⟨[1/2, 1/2, 1/2], ⟨hx, rfl, by decide⟩, by decide +kernel⟩,
    ⟨[0, 1, 0], ⟨hx, rfl, by decide⟩, by decide +kernel⟩, by decide +kernel, by decide +kernel, ?_, by decide +kernel, by decide +kernel⟩
  exact fun y F F' hF hF' => pointwise (xs := [0, 1, 2]) (c := [1/4, 1/2, 1]) (c' := [0, 1/2, 1]) hx rfl (by decide +kernel) y F F' hF hF'

/-- **C134: PDFs with their own grids**, also in different ensembles: ordered exactly if all quantiles are -/
theorem C134_irregular (lo hi lo' hi' : K) (xs row ys xs' row' ys' : List K) (hg : XGrid xs row.length) (hn : irrNormRow xs row = some ys) (hrow : ∀ v ∈ row, 0 ≤ v)
    (hg' : XGrid xs' row'.length) (hn' : irrNormRow xs' row' = some ys') (hrow' : ∀ v ∈ row', 0 ≤ v) :
    Left (irrCdf xs ys) (irrCdf xs' ys') ↔
      ∀ q x x', 0 ≤ q → q < 1 → irrPpf lo hi xs ys q = some x → irrPpf lo' hi' xs' ys' q = some x' → x ≤ x' := by
  obtain ⟨u, p, -, g, h1, hp, hcdf, hc, -⟩ := irr_constructed hg hn hrow
  obtain ⟨u', p', -, g', h1', hp', hcdf', hc', -⟩ := irr_constructed hg' hn' hrow'
  have := C134_hist xs p xs' p' g h1 hp g' h1' hp'
  have e : irrCdf xs ys = histCdf xs p := funext hcdf
  have e' : irrCdf xs' ys' = histCdf xs' p' := funext hcdf'
  rw [e, e', this]
  refine forall_congr' fun q => forall_congr' fun x => forall_congr' fun x' => ?_
  constructor
  · intro h h0 hq hx hx'
    rw [irrPpf_eq lo hi g h1 hp hc q h0 hq.le] at hx
    rw [irrPpf_eq lo' hi' g' h1' hp' hc' q h0 hq.le] at hx'
    exact h h0 hq hx hx'
  · intro h h0 hq hx hx'
    rw [← irrPpf_eq lo hi g h1 hp hc q h0 hq.le] at hx
    rw [← irrPpf_eq lo' hi' g' h1' hp' hc' q h0 hq.le] at hx'
    exact h h0 hq hx hx'

/-! ## Gaussian mixtures -/

/-- **C134: two mixtures of one ensemble**: if the CDF of one is nowhere below that of the other, none of its quantiles is larger -/
theorem C134_mixture (rows : List GMix) (r r' : GMix) (hr : r ∈ rows) (h : MixOK r.w r.μs r.σs) (h' : MixOK r'.w r'.μs r'.σs)
    (ho : ∀ x, gmixCdf r'.w r'.μs r'.σs x ≤ gmixCdf r.w r.μs r.σs x) (q : ℝ) : ∃ x x', gmixPpfIn rows r q = some x ∧ gmixPpfIn rows r' q = some x' ∧ x ≤ x' := by
  have hlh : gmixLo rows < gmixHi rows := by
    obtain ⟨p, hp⟩ : ∃ p, p ∈ r.μs.zip r.σs := by
      have hw : r.w ≠ [] := fun hn => by have := h.one; rw [hn] at this; simp at this
      match hm : r.μs, hs : r.σs, h.means, h.stds with
      | [], _, e, _ => exact absurd (List.length_eq_zero_iff.1 e.symm) hw
      | _ :: _, [], _, e => exact absurd (List.length_eq_zero_iff.1 e.symm) hw
      | m :: _, s :: _, _, _ => exact ⟨(m, s), by simp⟩
    have := h.pos p.2 (List.of_mem_zip hp).2
    linarith [gmixLo_le hr hp, le_gmixHi hr hp]
  have hlin := linspace_pairwise (gmixLo rows) (gmixHi rows) 201 (by norm_num) hlh
  have hc : ∀ {r : GMix}, MixOK r.w r.μs r.σs → ((gmixGrid (gmixLo rows) (gmixHi rows)).map (gmixCdf r.w r.μs r.σs)).Pairwise (· ≤ ·) := fun {r} h => by
    rw [List.pairwise_map]
    exact hlin.imp fun hab => ((C90_density _ _ _ h).2.2.2.2 _ _ hab).le
  refine order_same (f0 := 0) (f1 := 1) (a := gmixLo rows) (b := gmixHi rows) q hlin (hc h) (hc h') (by simp [gmixGrid]) (by simp [gmixGrid]) ?_ ?_ le_rfl le_rfl ?_
  · exact Verif.Props.Metrics.head_linspace _ _ _ (by norm_num)
  · exact Verif.Props.Metrics.last_linspace _ _ _ (by norm_num)
  · refine pointwise hlin (by simp [gmixGrid]) ?_
    unfold gmixGrid
    rw [List.forall₂_map_right_iff, List.forall₂_map_left_iff, List.forall₂_same]
    exact fun x _ => ho x

/-- **C134: means decide for components of equal widths**: raising the means of a mixture (weights and widths as they are) raises all its quantiles -/
theorem C134_mixture_means (rows : List GMix) (w σs μs μs' : List ℝ) (hr : ⟨w, μs, σs⟩ ∈ rows) (h : MixOK w μs σs) (hm : List.Forall₂ (· ≤ ·) μs μs') (q : ℝ) :
    ∃ x x', gmixPpfIn rows ⟨w, μs, σs⟩ q = some x ∧ gmixPpfIn rows ⟨w, μs', σs⟩ q = some x' ∧ x ≤ x' := by
  have h' : MixOK w μs' σs := ⟨hm.length_eq.symm.trans h.means, h.stds, h.nonneg, h.one, h.pos⟩
  refine C134_mixture rows _ _ hr h h' (fun x => ?_) q
  show gmixCdf w μs' σs x ≤ gmixCdf w μs σs x
  have hs := h.pos
  have hw := h.nonneg
  have l1 := h.means
  have l2 := h.stds
  clear h h' hr
  unfold gmixCdf
  induction hm generalizing w σs with
  | nil => simp [mixEval]
  | @cons m m' μs μs' hmm hm ih =>
    match w, σs, l1, l2 with
    | v :: w, s :: σs, l1, l2 =>
      have := ih w σs (fun a ha => hs a (by simp [ha])) (fun a ha => hw a (by simp [ha])) (by simpa using l1) (by simpa using l2)
      have h1 : normCdf m' s x ≤ normCdf m s x := by
        unfold normCdf
        exact MeasureTheory.measureReal_mono (Set.Iic_subset_Iic.2 (div_le_div_of_nonneg_right (by linarith) (hs s (by simp)).le))
      have h2 := mul_le_mul_of_nonneg_left h1 (hw v (by simp))
      have e : ∀ m μs, mixEval (v :: w) (List.zipWith normCdf (m :: μs) (s :: σs)) x = v * normCdf m s x + mixEval w (List.zipWith normCdf μs σs) x := fun m μs => by
        simp [mixEval, npSum_eq]
      rw [e, e]
      exact add_le_add h2 this

/-! ## Non-vacuity -/

/-- a histogram with an empty bin: the CDF is `1/2` between 1 and 2, the quantile for `1/2` is 2 -/
example : histPpf (K := ℚ) [0, 1, 2, 3] [1/2, 0, 1/2] (1/2) = some 2 ∧ histCdf (K := ℚ) [0, 1, 2, 3] [1/2, 0, 1/2] 2 = some (1/2) ∧ Grid ([0, 1, 2, 3] : List ℚ) 3 ∧
    totalMass ([0, 1, 2, 3] : List ℚ) [1/2, 0, 1/2] = 1 := by
  refine ⟨by decide +kernel, by decide +kernel, ⟨by decide +kernel, rfl, by decide⟩, by decide +kernel⟩

/-- two histograms of the same mass, the second further to the right -/
example : Left (histCdf ([0, 1, 2] : List ℚ) [3/4, 1/4]) (histCdf [0, 1, 2] [1/2, 1/2]) ∧ histPpf ([0, 1, 2] : List ℚ) [3/4, 1/4] (1/2) = some (2/3) ∧
    histPpf ([0, 1, 2] : List ℚ) [1/2, 1/2] (1/2) = some 1 ∧ histMoment ([0, 1, 2] : List ℚ) [3/4, 1/4] 1 = .ok (3/4) ∧ histMoment ([0, 1, 2] : List ℚ) [1/2, 1/2] 1 = .ok 1 := by
  refine ⟨fun y F F' hF hF' => ?_, by decide +kernel, by decide +kernel, by decide +kernel, by decide +kernel⟩
  exact pointwise (by decide +kernel) (by decide +kernel) (by decide +kernel) y F F' hF hF'

/-- at probability one the equivalence does not hold: the second histogram ends with an empty bin below the end of the first -/
example : Left (histCdf ([0, 1, 2] : List ℚ) [1, 0]) (histCdf [0, 1] [1]) ∧ histPpf ([0, 1, 2] : List ℚ) [1, 0] 1 = some 2 ∧ histPpf ([0, 1] : List ℚ) [1] 1 = some 1 := by
  refine ⟨fun y F F' hF hF' => ?_, by decide +kernel, by decide +kernel⟩
  have h1 := C08_cdf_is_mass ([0, 1, 2] : List ℚ) [1, 0] ⟨by decide +kernel, rfl, by decide⟩ (by decide +kernel) y
  have h2 := C08_cdf_is_mass ([0, 1] : List ℚ) [1] ⟨by decide +kernel, rfl, by decide⟩ (by decide +kernel) y
  rw [hF] at h1; rw [hF'] at h2
  rw [Option.some.inj h1, Option.some.inj h2]
  simp [massUpTo]

/-- mixtures: the hypotheses are met by two components and the same pair moved to the right by one -/
example : MixOK [1/4, 3/4] [0, 1] [1, 2] ∧ List.Forall₂ (· ≤ ·) ([0, 1] : List ℝ) [1, 2] :=
  ⟨⟨rfl, rfl, by norm_num, by norm_num, by norm_num⟩, by norm_num⟩

end Verif.Props.Dominance
