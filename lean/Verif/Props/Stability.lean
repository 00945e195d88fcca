import Verif.Props.Mirror
import Verif.Props.Robust
import Verif.Props.GoodnessOfFit

/-!
# C133: small changes of the data have small effects
-/

set_option linter.unusedSectionVars false
set_option autoImplicit false

namespace Verif.Props.Stability

open Verif Verif.Np Verif.Model Verif.Lemmas Verif.Lemmas.InterpPdf Verif.Lemmas.Hist Verif.Spec Verif.Props.Bins Verif.Props.Hist Verif.Props.InterpPdf Verif.Props.Mirror
open Verif.Props.Robust Verif.Props.Metrics Verif.Props.MixReal Verif.Lemmas.Gauss

variable {K : Type} [Field K] [LinearOrder K] [IsStrictOrderedRing K]

/-- the same numbers up to a relative change of at most `ε` -/
def Near (ε : K) (row row' : List K) : Prop := List.Forall₂ (fun v v' => |v' - v| ≤ ε * v) row row'

/-- a part of a whole when both change -/
theorem part_near {A B A' B' ε : K} (hA : 0 ≤ A) (hB : 0 ≤ B) (hT : 0 < A + B) (h0 : 0 ≤ ε) (h1 : ε < 1) (hA' : |A' - A| ≤ ε * A) (hB' : |B' - B| ≤ ε * B) :
    0 < A' + B' ∧ |A' / (A' + B') - A / (A + B)| ≤ ε / (2 * (1 - ε)) := by
  rw [abs_le] at hA' hB'
  have hT' : (1 - ε) * (A + B) ≤ A' + B' := by nlinarith
  have hpos : 0 < (1 - ε) * (A + B) := mul_pos (by linarith) hT
  have hT'pos : 0 < A' + B' := lt_of_lt_of_le hpos hT'
  refine ⟨hT'pos, ?_⟩
  have e : A' / (A' + B') - A / (A + B) = (A' * B - A * B') / ((A' + B') * (A + B)) := by
    field_simp
    ring
  rw [e, abs_div, abs_of_pos (mul_pos hT'pos hT), div_le_div_iff₀ (mul_pos hT'pos hT) (by linarith)]
  have hAB : 0 ≤ A * B := mul_nonneg hA hB
  have hnum : |A' * B - A * B'| ≤ 2 * ε * (A * B) := by
    rw [abs_le]
    constructor
    · have h1 := mul_le_mul_of_nonneg_right hA'.1 hB
      have h2 := mul_le_mul_of_nonneg_left hB'.2 hA
      nlinarith
    · have h1 := mul_le_mul_of_nonneg_right hA'.2 hB
      have h2 := mul_le_mul_of_nonneg_left hB'.1 hA
      nlinarith
  have hsq : 4 * (A * B) ≤ (A + B) * (A + B) := by nlinarith [mul_self_nonneg (A - B)]
  have h3 : ε * ((1 - ε) * (A + B) * (A + B)) ≤ ε * ((A' + B') * (A + B)) := by
    apply mul_le_mul_of_nonneg_left _ h0
    exact mul_le_mul_of_nonneg_right hT' hT.le
  calc |A' * B - A * B'| * (2 * (1 - ε)) ≤ 2 * ε * (A * B) * (2 * (1 - ε)) := mul_le_mul_of_nonneg_right hnum (by linarith)
    _ = ε * (1 - ε) * (4 * (A * B)) := by ring
    _ ≤ ε * (1 - ε) * ((A + B) * (A + B)) := mul_le_mul_of_nonneg_left hsq (mul_nonneg h0 (by linarith))
    _ = ε * ((1 - ε) * (A + B) * (A + B)) := by ring
    _ ≤ _ := h3

/-- a value divided by the whole when both change -/
theorem ratio_near {v v' T T' ε : K} (hv : 0 ≤ v) (hT : 0 < T) (h0 : 0 ≤ ε) (h1 : ε < 1) (hv' : |v' - v| ≤ ε * v) (hT' : |T' - T| ≤ ε * T) :
    |v' / T' - v / T| ≤ 2 * ε / (1 - ε) * (v / T) := by
  rw [abs_le] at hv' hT'
  have hpos : 0 < (1 - ε) * T := mul_pos (by linarith) hT
  have hT'pos : 0 < T' := by nlinarith
  have e : v' / T' - v / T = (v' * T - v * T') / (T' * T) := by field_simp
  have e2 : 2 * ε / (1 - ε) * (v / T) = 2 * ε * v / ((1 - ε) * T) := by rw [div_mul_div_comm]
  rw [e, e2, abs_div, abs_of_pos (mul_pos hT'pos hT), div_le_div_iff₀ (mul_pos hT'pos hT) hpos]
  have hnum : |v' * T - v * T'| ≤ 2 * ε * (v * T) := by
    rw [abs_le]
    constructor
    · have h1 := mul_le_mul_of_nonneg_right hv'.1 hT.le
      have h2 := mul_le_mul_of_nonneg_left hT'.2 hv
      nlinarith
    · have h1 := mul_le_mul_of_nonneg_right hv'.2 hT.le
      have h2 := mul_le_mul_of_nonneg_left hT'.1 hv
      nlinarith
  calc |v' * T - v * T'| * ((1 - ε) * T) ≤ 2 * ε * (v * T) * ((1 - ε) * T) := mul_le_mul_of_nonneg_right hnum hpos.le
    _ = 2 * ε * v * ((1 - ε) * T * T) := by ring
    _ ≤ 2 * ε * v * (T' * T) := by
        apply mul_le_mul_of_nonneg_left _ (by positivity)
        exact mul_le_mul_of_nonneg_right (by linarith) hT.le

theorem add_near {a a' b b' ε : K} (h1 : |a' - a| ≤ ε * a) (h2 : |b' - b| ≤ ε * b) : |(a' + b') - (a + b)| ≤ ε * (a + b) := by
  rw [abs_le] at h1 h2 ⊢
  constructor <;> linarith

theorem mul_near {a a' c ε : K} (hc : 0 ≤ c) (h1 : |a' - a| ≤ ε * a) : |a' * c - a * c| ≤ ε * (a * c) := by
  rw [← sub_mul, abs_mul, abs_of_nonneg hc, ← mul_assoc]
  exact mul_le_mul_of_nonneg_right h1 hc

/-! ## histograms -/

theorem mass_near {ε : K} {row row' : List K} (hn : Near ε row row') : ∀ (e : List K) (x : K), e.Pairwise (· < ·) → (∀ v ∈ row, 0 ≤ v) →
    |massUpTo e row' x - massUpTo e row x| ≤ ε * massUpTo e row x ∧
    |(totalMass e row' - massUpTo e row' x) - (totalMass e row - massUpTo e row x)| ≤ ε * (totalMass e row - massUpTo e row x) ∧
    0 ≤ massUpTo e row x ∧ 0 ≤ totalMass e row - massUpTo e row x := by
  induction hn with
  | nil => intro e x _ _; cases e with | nil => simp [massUpTo, totalMass] | cons a e => cases e <;> simp [massUpTo, totalMass]
  | @cons v v' r r' hv hn ih =>
    intro e x hs hp
    match e, hs with
    | [], _ => simp [massUpTo, totalMass]
    | [a], _ => simp [massUpTo, totalMass]
    | a :: b :: e, hs =>
      obtain ⟨i1, i2, i3, i4⟩ := ih (b :: e) x (List.pairwise_cons.1 hs).2 fun w hw => hp w (List.mem_cons_of_mem _ hw)
      have hab : a < b := (List.pairwise_cons.1 hs).1 b (by simp)
      have hv0 : 0 ≤ v := hp v (by simp)
      have c1 : 0 ≤ max 0 (min x b - a) := le_max_left _ _
      have c2 : 0 ≤ (b - a) - max 0 (min x b - a) := sub_nonneg.2 (max_le (by linarith) (by linarith [min_le_right x b]))
      simp only [massUpTo, totalMass]
      refine ⟨add_near (mul_near c1 hv) i1, ?_, add_nonneg (mul_nonneg hv0 c1) i3, ?_⟩
      · have := add_near (mul_near c2 hv) i2
        have e1 : ∀ w m t : K, w * (b - a) + t - (w * max 0 (min x b - a) + m) = w * ((b - a) - max 0 (min x b - a)) + (t - m) := fun w m t => by ring
        rw [e1, e1]
        exact this
      · have := add_nonneg (mul_nonneg hv0 c2) i4
        have e1 : ∀ w m t : K, w * (b - a) + t - (w * max 0 (min x b - a) + m) = w * ((b - a) - max 0 (min x b - a)) + (t - m) := fun w m t => by ring
        rw [e1]
        exact this

theorem massUpTo_div (e r : List K) (s x : K) : massUpTo e (r.map (· / s)) x = massUpTo e r x / s := by
  induction r generalizing e with
  | nil => cases e with | nil => simp [massUpTo] | cons a e => cases e <;> simp [massUpTo]
  | cons v r ih =>
    match e with
    | [] => simp [massUpTo]
    | [a] => simp [massUpTo]
    | a :: b :: e => simp only [List.map_cons, massUpTo, ih]; ring

theorem near_length {ε : K} {row row' : List K} (hn : Near ε row row') : row.length = row'.length := List.Forall₂.length_eq hn

/-- **C133: histograms.** If every content changes by at most `ε` of itself, every stored content changes by at most `2ε/(1-ε)` of itself, the CDF everywhere by at most
`ε/(2(1-ε))`, and a quantile of the changed histogram has the stated probability under the original one up to the same amount. -/
theorem C133_hist {edges row row' p : List K} {ε : K} (hg : Grid edges row.length) (hp : histNormRow edges row = some p) (hpos : ∀ v ∈ row, 0 ≤ v) (hn : Near ε row row') (h0 : 0 ≤ ε)
    (h1 : ε < 1) :
    ∃ p', histNormRow edges row' = some p' ∧ List.Forall₂ (fun v v' => |v' - v| ≤ 2 * ε / (1 - ε) * v) p p' ∧
      (∀ x, ∃ F F', histCdf edges p x = some F ∧ histCdf edges p' x = some F' ∧ |F' - F| ≤ ε / (2 * (1 - ε))) ∧
      ∀ q, 0 ≤ q → q ≤ 1 → ∃ x F, histPpf edges p' q = some x ∧ histCdf edges p x = some F ∧ |F - q| ≤ ε / (2 * (1 - ε)) := by
  have hm : totalMass edges row ≠ 0 := fun h0 => by
    rw [(C07_row_normalised edges row).1 h0] at hp
    cases hp
  have hT : 0 < totalMass edges row := lt_of_le_of_ne (totalMass_nonneg hg.strict hpos) hm.symm
  obtain ⟨p1, hp1, hp11, hp1e, -⟩ := (C07_row_normalised edges row).2 hm
  rw [hp] at hp1
  cases hp1
  have hpart := fun x => mass_near hn edges x hg.strict hpos
  have hq : ∀ x, 0 < totalMass edges row' ∧ |massUpTo edges row' x / totalMass edges row' - massUpTo edges row x / totalMass edges row| ≤ ε / (2 * (1 - ε)) := by
    intro x
    obtain ⟨a1, a2, a3, a4⟩ := hpart x
    have := part_near a3 a4 (by linarith) h0 h1 a1 a2
    simpa using this
  have hT' := (hq 0).1
  obtain ⟨p', hp', hp'1, hp'e, hp'n⟩ := (C07_row_normalised edges row').2 hT'.ne'
  have hlen' : row'.length = row.length := (near_length hn).symm
  have hgp : Grid edges p.length := by rw [hp1e, List.length_map]; exact hg
  have hgp' : Grid edges p'.length := by rw [hp'e, List.length_map, hlen']; exact hg
  have hTn : |totalMass edges row' - totalMass edges row| ≤ ε * totalMass edges row := by
    obtain ⟨a1, a2, -, -⟩ := hpart 0
    have := add_near a1 a2
    simpa using this
  have hcdf : ∀ x, ∃ F F', histCdf edges p x = some F ∧ histCdf edges p' x = some F' ∧ |F' - F| ≤ ε / (2 * (1 - ε)) := by
    intro x
    refine ⟨_, _, C08_cdf_is_mass edges p hgp hp11 x, C08_cdf_is_mass edges p' hgp' hp'1 x, ?_⟩
    rw [hp1e, hp'e, massUpTo_div, massUpTo_div]
    exact (hq x).2
  have hpos' : ∀ v ∈ row', 0 ≤ v := by
    clear * - hn hpos h1
    induction hn with
    | nil => simp
    | @cons v v' r r' hv hn ih =>
      intro w hw
      rcases List.mem_cons.1 hw with rfl | hw
      · have hv0 := hpos v (by simp)
        rw [abs_le] at hv
        nlinarith [hv.1]
      · exact ih (fun u hu => hpos u (List.mem_cons_of_mem _ hu)) w hw
  refine ⟨p', hp', ?_, hcdf, fun q hq0 hq1 => ?_⟩
  · rw [hp1e, hp'e, List.forall₂_map_left_iff, List.forall₂_map_right_iff]
    clear * - hn hpos h0 h1 hT hTn
    generalize totalMass edges row' = T' at *
    generalize totalMass edges row = T at *
    induction hn with
    | nil => exact List.Forall₂.nil
    | @cons v v' r r' hv hn ih => exact List.Forall₂.cons (ratio_near (hpos v (by simp)) hT h0 h1 hv hTn) (ih fun u hu => hpos u (List.mem_cons_of_mem _ hu))
  · obtain ⟨x, hx, hx2, -, -⟩ := C09_cdf_ppf edges p' hgp' hp'1 (hp'n hg.strict hpos') q hq0 hq1
    obtain ⟨F, F', hF, hF', hd⟩ := hcdf x
    rw [hx2] at hF'
    cases hF'
    exact ⟨x, F, hx, hF, by rw [abs_sub_comm]; exact hd⟩

/-! ## interpolated PDFs -/

theorem area_near {ε : K} {row row' : List K} (hn : Near ε row row') : ∀ (xs : List K), xs.Pairwise (· < ·) → (∀ v ∈ row, 0 ≤ v) →
    |area xs row' - area xs row| ≤ ε * area xs row ∧ 0 ≤ area xs row := by
  induction hn with
  | nil => intro xs _ _; cases xs with | nil => simp [area] | cons a e => cases e <;> simp [area]
  | @cons u u' r r' hu hn ih =>
    intro xs hs hp
    match xs, hs with
    | [], _ => simp [area]
    | [a], _ => simp [area]
    | a :: b :: xs, hs =>
      have ih' := ih (b :: xs) (List.pairwise_cons.1 hs).2 fun w hw => hp w (List.mem_cons_of_mem _ hw)
      have hab : a < b := (List.pairwise_cons.1 hs).1 b (by simp)
      cases hn with
      | nil => simp [area]
      | @cons v v' r r' hv hn =>
        simp only [area] at ih' ⊢
        have hu0 := hp u (by simp)
        have hv0 := hp v (by simp)
        have e : ∀ s t : K, (b - a) * (s + t) / 2 = (s + t) * ((b - a) / 2) := fun s t => by ring
        have hc : 0 ≤ (b - a) / 2 := by linarith
        rw [e, e]
        exact ⟨add_near (mul_near hc (add_near hu hv)) ih'.1, add_nonneg (mul_nonneg (add_nonneg hu0 hv0) hc) ih'.2⟩

theorem near_take {ε : K} {row row' : List K} (hn : Near ε row row') (i : ℕ) : Near ε (row.take i) (row'.take i) := List.forall₂_take i hn

theorem near_drop {ε : K} {row row' : List K} (hn : Near ε row row') (i : ℕ) : Near ε (row.drop i) (row'.drop i) := List.forall₂_drop i hn

/-- knots at the same positions with close values -/
def Close (α β : K) (l l' : List (K × K)) : Prop := List.Forall₂ (fun p p' => p'.1 = p.1 ∧ |p'.2 - p.2| ≤ α * p.2 + β) l l'

theorem close_get {α β : K} {l l' : List (K × K)} (h : Close α β l l') {i : ℕ} {p : K × K} (hp : l[i]? = some p) :
    ∃ y, l'[i]? = some (p.1, y) ∧ |y - p.2| ≤ α * p.2 + β := by
  induction h generalizing i with
  | nil => simp at hp
  | @cons a b l l' hab h ih =>
    cases i with
    | zero =>
      simp only [List.getElem?_cons_zero, Option.some.injEq] at hp ⊢
      subst hp
      exact ⟨b.2, by rw [← hab.1], hab.2⟩
    | succ i => simpa using ih (by simpa using hp)

theorem close_strictX {α β : K} {l l' : List (K × K)} (h : Close α β l l') (hs : StrictX l) : StrictX l' := by
  induction h with
  | nil => exact hs
  | @cons a b l l' hab h ih =>
    have ih' := ih hs.tail
    cases h with
    | nil => exact List.isChain_singleton _
    | @cons c d l l' hcd h =>
      refine List.isChain_cons_cons.2 ⟨?_, ih'⟩
      rw [hab.1, hcd.1]
      exact hs.head

/-- interpolation between close knots -/
theorem interp_close {α β : K} {l l' : List (K × K)} (h : Close α β l l') (hs : StrictX l) (hne : l ≠ []) (lo hi : K) (hlo : 0 ≤ α * lo + β) (hhi : 0 ≤ α * hi + β) (x : K) :
    ∃ v v', interp lo hi l x = some v ∧ interp lo hi l' x = some v' ∧ |v' - v| ≤ α * v + β := by
  have hs' := close_strictX h hs
  have hne' : l' ≠ [] := by
    intro hn
    subst hn
    cases h
    exact hne rfl
  have hfst : ∀ p' ∈ l', ∃ p ∈ l, p'.1 = p.1 := by
    intro p' hp'
    obtain ⟨i, hi⟩ := List.getElem?_of_mem hp'
    have hlt := (List.getElem?_eq_some_iff.1 hi).1
    have hl : l.length = l'.length := List.Forall₂.length_eq h
    obtain ⟨y, hy, -⟩ := close_get h (List.getElem?_eq_getElem (show i < l.length by omega))
    rw [hi] at hy
    cases hy
    exact ⟨_, List.getElem_mem _, rfl⟩
  rcases locate hs x with h1 | h1 | ⟨p, hp, rfl⟩ | ⟨i, p, q, hp, hq, h1, h2⟩
  · refine ⟨lo, lo, interp_lo hne h1, interp_lo hne' fun p' hp' => ?_, by simpa using hlo⟩
    obtain ⟨p, hp, e⟩ := hfst p' hp'
    rw [e]
    exact h1 p hp
  · refine ⟨hi, hi, interp_hi hne h1, interp_hi hne' fun p' hp' => ?_, by simpa using hhi⟩
    obtain ⟨p, hp, e⟩ := hfst p' hp'
    rw [e]
    exact h1 p hp
  · obtain ⟨i, hi⟩ := List.getElem?_of_mem hp
    obtain ⟨y, hy, hd⟩ := close_get h hi
    exact ⟨p.2, y, interp_knot hs hp, interp_knot (p := (p.1, y)) hs' (List.mem_of_getElem? hy), hd⟩
  · obtain ⟨u, hu, hdu⟩ := close_get h hp
    obtain ⟨w, hw, hdw⟩ := close_get h hq
    refine ⟨_, _, interp_cell hs hp hq h1.le h2.le, interp_cell (p := (p.1, u)) (q := (q.1, w)) hs' hu hw h1.le h2.le, ?_⟩
    have hd : 0 < q.1 - p.1 := sub_pos.2 (h1.trans h2)
    obtain ⟨t, ht0, ht1, hl⟩ : ∃ t : K, 0 ≤ t ∧ t ≤ 1 ∧ ∀ y z : K, line p.1 y q.1 z x = (1 - t) * y + t * z := by
      refine ⟨(x - p.1) / (q.1 - p.1), div_nonneg (by linarith) hd.le, (div_le_one hd).2 (by linarith), fun y z => ?_⟩
      unfold line
      field_simp
      ring
    simp only [hl]
    rw [abs_le] at hdu hdw ⊢
    constructor <;> nlinarith [mul_le_mul_of_nonneg_left hdu.1 (sub_nonneg.2 ht1), mul_le_mul_of_nonneg_left hdu.2 (sub_nonneg.2 ht1), mul_le_mul_of_nonneg_left hdw.1 ht0, mul_le_mul_of_nonneg_left hdw.2 ht0]

theorem close_zip {α β : K} {xs c c' : List K} (hl : c.length = c'.length) (h : ∀ (i : ℕ) (v v' : K), c[i]? = some v → c'[i]? = some v' → |v' - v| ≤ α * v + β) : Close α β (xs.zip c) (xs.zip c') := by
  induction xs generalizing c c' with
  | nil => exact List.Forall₂.nil
  | cons a xs ih =>
    match c, c', hl with
    | [], [], _ => exact List.Forall₂.nil
    | v :: c, v' :: c', hl =>
      exact List.Forall₂.cons ⟨rfl, h 0 v v' rfl rfl⟩ (ih (by simpa using hl) fun i w w' hw hw' => h (i + 1) w w' (by simpa using hw) (by simpa using hw'))

/-- the cumulated values of a constructed row -/
theorem cumul_get {xs row ys c : List K} (hg : XGrid xs row.length) (hc : interpNormRow xs row = .ok (some (ys, c))) :
    c.length = xs.length ∧ ys = row.map (· / area xs row) ∧ (∀ (i : ℕ) (v : K), c[i + 1]? = some v → v = areaTo (i + 1) xs row / area xs row) ∧
    ∀ a b u v, xs[0]? = some a → xs[1]? = some b → row[0]? = some u → c[0]? = some v → v = u * ((b - a) / 2) / area xs row := by
  have h0 : area xs row ≠ 0 := fun h0 => by rw [(C12_interp_normalises xs row hg).1 h0] at hc; simp at hc
  obtain ⟨ys1, c1, e1, e2, e3, e4⟩ := (C12_interp_normalises xs row hg).2 h0
  rw [hc] at e1
  obtain ⟨rfl, rfl⟩ : ys = ys1 ∧ c = c1 := by simpa using e1
  obtain ⟨a, b, t, u, v, r, rfl, hy, hl, hs, har, rfl⟩ := constructed_facts ⟨row, hg, hc⟩
  refine ⟨?_, e3, fun i w hw => ?_, fun a' b' u' w ha hb hu hw => ?_⟩
  · rw [List.length_cons, cumsum, length_cumsumFrom, length_trapezoids _ _ (by simp [hl])]; simp
  · rw [List.getElem?_cons_succ] at hw
    have hi : i < t.length + 1 := by
      have := (List.getElem?_eq_some_iff.1 hw).1
      rw [cumsum, length_cumsumFrom, length_trapezoids _ _ (by simp [hl])] at this
      simpa using this
    have := getElem?_cumsumFrom_trap (a :: b :: t) (u :: v :: r) 0 i (by simpa using hi) (by simp [hl])
    rw [cumsum, this] at hw
    rw [← areaTo_div, ← e3, hy]
    simpa using (Option.some.inj hw).symm
  · simp only [List.getElem?_cons_zero, List.getElem?_cons_succ, Option.some.injEq] at ha hb hw
    subst ha hb
    rw [hy] at e3
    match row, hu with
    | u2 :: row, hu =>
      simp only [List.getElem?_cons_zero, Option.some.injEq] at hu
      subst hu
      simp only [List.map_cons, List.cons.injEq] at e3
      rw [← hw, e3.1]
      ring

/-- **C133: interpolated PDFs.** If every value changes by at most `ε` of itself, the density changes everywhere by at most `2ε/(1-ε)` of itself and the CDF by at most
`ε/(2(1-ε))`. -/
theorem C133_interp {xs row row' ys c : List K} {ε : K} (hg : XGrid xs row.length) (hc : interpNormRow xs row = .ok (some (ys, c))) (hpos : ∀ v ∈ row, 0 ≤ v) (hn : Near ε row row') (h0 : 0 ≤ ε)
    (h1 : ε < 1) :
    ∃ ys' c', interpNormRow xs row' = .ok (some (ys', c')) ∧
      (∀ x, ∃ f f', interpPdf xs ys x = some f ∧ interpPdf xs ys' x = some f' ∧ |f' - f| ≤ 2 * ε / (1 - ε) * f) ∧
      ∀ x, ∃ F F', interpCdf xs c x = some F ∧ interpCdf xs c' x = some F' ∧ |F' - F| ≤ ε / (2 * (1 - ε)) := by
  have hne0 : area xs row ≠ 0 := fun h0 => by rw [(C12_interp_normalises xs row hg).1 h0] at hc; simp at hc
  obtain ⟨ha, ha0⟩ := area_near hn xs hg.strict hpos
  have hT : 0 < area xs row := lt_of_le_of_ne ha0 hne0.symm
  have hT' : 0 < area xs row' := by
    have := (abs_le.1 ha).1
    have : 0 < (1 - ε) * area xs row := mul_pos (by linarith) hT
    linarith
  have hlen : row'.length = row.length := (near_length hn).symm
  have hg' : XGrid xs row'.length := by rw [hlen]; exact hg
  obtain ⟨ys', c', hc', -, -, -⟩ := (C12_interp_normalises xs row' hg').2 hT'.ne'
  obtain ⟨g1, g2, g3, g4⟩ := cumul_get hg hc
  obtain ⟨k1, k2, k3, k4⟩ := cumul_get hg' hc'
  have hxl := hg.size
  have htwo := hg.two
  have hnex : xs ≠ [] := by intro h; subst h; simp at hxl; omega
  have hε2 : (0 : K) ≤ ε / (2 * (1 - ε)) := div_nonneg h0 (by linarith)
  refine ⟨ys', c', hc', fun x => ?_, fun x => ?_⟩
  · have hcl : Close (2 * ε / (1 - ε)) 0 (xs.zip ys) (xs.zip ys') := by
      apply close_zip
      · rw [g2, k2, List.length_map, List.length_map, hlen]
      · intro i v v' hv hv'
        rw [g2, List.getElem?_map] at hv
        rw [k2, List.getElem?_map] at hv'
        obtain ⟨w, hw, rfl⟩ := Option.map_eq_some_iff.1 hv
        obtain ⟨w', hw', rfl⟩ := Option.map_eq_some_iff.1 hv'
        rw [add_zero]
        refine ratio_near (hpos w (List.mem_of_getElem? hw)) hT h0 h1 ?_ ha
        have hi := (List.getElem?_eq_some_iff.1 hw)
        have hi' := (List.getElem?_eq_some_iff.1 hw')
        have := (List.forall₂_iff_get.1 hn).2 i hi.1 hi'.1
        simpa [hi.2, hi'.2] using this
    obtain ⟨v, v', e1, e2, e3⟩ := interp_close hcl (strictX_zip hg.strict) (by
      intro hz
      have := congrArg List.length hz
      rw [List.length_zip, g2, List.length_map, ← hxl, Nat.min_self] at this
      exact hnex (List.length_eq_zero_iff.1 this)) 0 0 (by simp) (by simp) x
    exact ⟨v, v', e1, e2, by simpa using e3⟩
  · have hcl : Close 0 (ε / (2 * (1 - ε))) (xs.zip c) (xs.zip c') := by
      apply close_zip (by rw [g1, k1])
      intro i v v' hv hv'
      rw [zero_mul, zero_add]
      match i with
      | 0 =>
        obtain ⟨a, b, t, hx⟩ : ∃ a b t, xs = a :: b :: t := by
          match xs, hxl with
          | [], h => simp at h; omega
          | [_], h => simp at h; omega
          | a :: b :: t, _ => exact ⟨a, b, t, rfl⟩
        obtain ⟨u, w, r, hr⟩ : ∃ u w r, row = u :: w :: r := by
          match row, htwo with
          | u :: w :: r, _ => exact ⟨u, w, r, rfl⟩
        obtain ⟨u', w', r', hr'⟩ : ∃ u w r, row' = u :: w :: r := by
          match row', hlen ▸ htwo with
          | u :: w :: r, _ => exact ⟨u, w, r, rfl⟩
        subst hx hr hr'
        rw [g4 a b u v rfl rfl rfl hv, k4 a b u' v' rfl rfl rfl hv']
        have hab : 0 ≤ (b - a) / 2 := by
          have := (List.pairwise_cons.1 hg.strict).1 b (by simp)
          linarith
        cases hn with
        | cons hu hn =>
          cases hn with
          | cons hw hn =>
            obtain ⟨i1, i2⟩ := area_near (List.Forall₂.cons hw hn) (b :: t) (List.pairwise_cons.1 hg.strict).2 fun z hz => hpos z (List.mem_cons_of_mem _ hz)
            have hB := add_near (mul_near hab hw) i1
            have e : ∀ y z, area (a :: b :: t) (y :: z) = area (a :: b :: t) (y :: z) := fun _ _ => rfl
            have eA : ∀ (y z : K) (r : List K), area (a :: b :: t) (y :: z :: r) = y * ((b - a) / 2) + (z * ((b - a) / 2) + area (b :: t) (z :: r)) := by
              intro y z r
              rw [area]
              ring
            have hu0 := hpos u (by simp)
            have hw0 := hpos w (by simp)
            have := (part_near (mul_nonneg hu0 hab) (add_nonneg (mul_nonneg hw0 hab) i2) (by rw [← eA]; exact hT) h0 h1 (mul_near hab hu) hB).2
            rw [eA, eA]
            exact this
      | i + 1 =>
        rw [g3 i v hv, k3 i v' hv']
        have hs1 := area_split (i + 1) xs row hxl
        have hs2 := area_split (i + 1) xs row' (by rw [hlen]; exact hxl)
        rw [areaTo_eq (i + 1) xs row] at hs1 ⊢
        rw [areaTo_eq (i + 1) xs row'] at hs2 ⊢
        obtain ⟨a1, a2⟩ := area_near (near_take hn (i + 1 + 1)) (xs.take (i + 1 + 1)) (hg.strict.sublist (List.take_sublist _ _)) fun z hz => hpos z (List.mem_of_mem_take hz)
        obtain ⟨b1, b2⟩ := area_near (near_drop hn (i + 1)) (xs.drop (i + 1)) (hg.strict.sublist (List.drop_sublist _ _)) fun z hz => hpos z (List.mem_of_mem_drop hz)
        rw [hs1, hs2]
        exact (part_near a2 b2 (by rw [← hs1]; exact hT) h0 h1 a1 b1).2
    obtain ⟨v, v', e1, e2, e3⟩ := interp_close hcl (strictX_zip hg.strict) (by
      intro hz
      have := congrArg List.length hz
      rw [List.length_zip, g1] at this
      simp at this
      exact hnex this) 0 1 (by simpa using hε2) (by simpa using hε2) x
    exact ⟨v, v', e1, e2, by simpa using e3⟩

/-! ## Mixtures -/

theorem npSum_eq {K : Type} [AddCommMonoid K] (l : List K) : Np.sum l = l.sum := rfl

theorem normCdf_mono' {σ : ℝ} (h : 0 < σ) (μ : ℝ) {x y : ℝ} (hxy : x ≤ y) : normCdf μ σ x ≤ normCdf μ σ y := by
  unfold normCdf
  exact MeasureTheory.measureReal_mono (Set.Iic_subset_Iic.2 (div_le_div_of_nonneg_right (by linarith) h.le))

theorem wsum_near {ε : K} {w w' : List K} (h : Near ε w w') (gs : List K) (hw : ∀ v ∈ w, 0 ≤ v) (hg : ∀ g ∈ gs, 0 ≤ g) :
    |(List.zipWith (· * ·) w' gs).sum - (List.zipWith (· * ·) w gs).sum| ≤ ε * (List.zipWith (· * ·) w gs).sum ∧ 0 ≤ (List.zipWith (· * ·) w gs).sum := by
  induction h generalizing gs with
  | nil => simp
  | @cons a b w w' hab h ih =>
    cases gs with
    | nil => simp
    | cons g gs =>
      obtain ⟨i1, i2⟩ := ih gs (fun v hv => hw v (List.mem_cons_of_mem _ hv)) fun v hv => hg v (List.mem_cons_of_mem _ hv)
      have h0 := hg g (by simp)
      have h1 := hw a (by simp)
      simp only [List.zipWith_cons_cons, List.sum_cons]
      exact ⟨add_near (mul_near h0 hab) i1, add_nonneg (mul_nonneg h1 h0) i2⟩

theorem wsum_compl (w gs : List K) (hl : w.length = gs.length) : (List.zipWith (· * ·) w gs).sum + (List.zipWith (· * ·) w (gs.map (1 - ·))).sum = w.sum := by
  induction w generalizing gs with
  | nil => simp
  | cons a w ih =>
    match gs, hl with
    | g :: gs, hl =>
      have := ih gs (by simpa using hl)
      simp only [List.map_cons, List.zipWith_cons_cons, List.sum_cons]
      linear_combination this

theorem wsum_div (w gs : List K) (T : K) : (List.zipWith (· * ·) (w.map (· / T)) gs).sum = (List.zipWith (· * ·) w gs).sum / T := by
  induction w generalizing gs with
  | nil => simp
  | cons a w ih =>
    cases gs with
    | nil => simp
    | cons g gs =>
      simp only [List.map_cons, List.zipWith_cons_cons, List.sum_cons, ih]
      ring

theorem mixEval_eq (w : List K) (comps : List (K → K)) (x : K) : mixEval w comps x = (List.zipWith (· * ·) w (comps.map fun c => c x)).sum := by
  unfold mixEval
  rw [npSum_eq, List.zipWith_map_right]

/-- **C133: weights of mixtures.** If every weight changes by at most `ε` of itself, the CDF of the mixture changes by at most `ε/(2(1-ε))`. -/
theorem C133_mixture_weights {w w' v : List K} {comps : List (K → K)} {ε : K} (hl : comps.length = w.length) (hw : ∀ a ∈ w, 0 ≤ a) (hv : mixNormRow w = some v) (hn : Near ε w w') (h0 : 0 ≤ ε)
    (h1 : ε < 1) (x : K) (hF : ∀ c ∈ comps, 0 ≤ c x ∧ c x ≤ 1) :
    ∃ v', mixNormRow w' = some v' ∧ |mixEval v' comps x - mixEval v comps x| ≤ ε / (2 * (1 - ε)) := by
  unfold mixNormRow at hv
  rw [npSum_eq] at hv
  split at hv
  · cases hv
  rename_i hT
  cases hv
  set gs := comps.map fun c => c x with hgs
  have hgl : gs.length = w.length := by simp [hgs, hl]
  have hl' : w'.length = w.length := (near_length hn).symm
  have hg0 : ∀ g ∈ gs, 0 ≤ g := by
    intro g hg
    obtain ⟨c, hc, rfl⟩ := List.mem_map.1 hg
    exact (hF c hc).1
  have hg1 : ∀ g ∈ gs.map (1 - ·), 0 ≤ g := by
    intro g hg
    obtain ⟨k, hk, rfl⟩ := List.mem_map.1 hg
    obtain ⟨c, hc, rfl⟩ := List.mem_map.1 hk
    exact sub_nonneg.2 (hF c hc).2
  obtain ⟨a1, a2⟩ := wsum_near hn gs hw hg0
  obtain ⟨b1, b2⟩ := wsum_near hn (gs.map (1 - ·)) hw hg1
  have e1 := wsum_compl w gs hgl.symm
  have e2 := wsum_compl w' gs (by rw [hl', hgl])
  have hpos : 0 < w.sum := lt_of_le_of_ne (by rw [← e1]; exact add_nonneg a2 b2) (Ne.symm hT)
  obtain ⟨p1, p2⟩ := part_near a2 b2 (by rw [e1]; exact hpos) h0 h1 a1 b1
  rw [e2] at p1
  refine ⟨w'.map (· / w'.sum), ?_, ?_⟩
  · unfold mixNormRow
    rw [npSum_eq, if_neg p1.ne']
  · rw [mixEval_eq, mixEval_eq, wsum_div, wsum_div]
    rw [e1, e2] at p2
    exact p2

theorem normCdf_shift {σ δ : ℝ} (h : 0 < σ) (μ μ' x : ℝ) (hd : |μ' - μ| ≤ δ) : |normCdf μ' σ x - normCdf μ σ x| ≤ δ / (Real.sqrt (2 * Real.pi) * σ) := by
  have hk : 0 < Real.sqrt (2 * Real.pi) * σ := mul_pos (Real.sqrt_pos.2 (by positivity)) h
  have e : normCdf μ' σ x = normCdf μ σ (x - (μ' - μ)) := by
    unfold normCdf
    congr 3
    ring
  rw [e]
  obtain ⟨d1, d2⟩ := abs_le.1 hd
  rcases le_total 0 (μ' - μ) with h0 | h0
  · have := normCdf_lipschitz h μ (x - (μ' - μ)) x (by linarith)
    have hm := normCdf_mono' h μ (show x - (μ' - μ) ≤ x by linarith)
    have hb : (x - (x - (μ' - μ))) / (Real.sqrt (2 * Real.pi) * σ) ≤ δ / (Real.sqrt (2 * Real.pi) * σ) := div_le_div_of_nonneg_right (by linarith) hk.le
    rw [abs_le]
    constructor
    · linarith
    · have : 0 ≤ δ / (Real.sqrt (2 * Real.pi) * σ) := div_nonneg (by linarith) hk.le
      linarith
  · have := normCdf_lipschitz h μ x (x - (μ' - μ)) (by linarith)
    have hm := normCdf_mono' h μ (show x ≤ x - (μ' - μ) by linarith)
    have hb : (x - (μ' - μ) - x) / (Real.sqrt (2 * Real.pi) * σ) ≤ δ / (Real.sqrt (2 * Real.pi) * σ) := div_le_div_of_nonneg_right (by linarith) hk.le
    rw [abs_le]
    constructor
    · have : 0 ≤ δ / (Real.sqrt (2 * Real.pi) * σ) := div_nonneg (by linarith) hk.le
      linarith
    · linarith

/-- **C133: means of Gaussian mixtures.** If every mean moves by at most `δ` and no component is narrower than `s`, the CDF changes by at most `δ/(√(2π) s)`. -/
theorem C133_mixture_means {w μs μs' σs : List ℝ} {δ s : ℝ} (hm : MixOK w μs σs) (hd : List.Forall₂ (fun m m' => |m' - m| ≤ δ) μs μs') (h0 : 0 ≤ δ) (hs : 0 < s) (hσ : ∀ v ∈ σs, s ≤ v) (x : ℝ) :
    |gmixCdf w μs' σs x - gmixCdf w μs σs x| ≤ δ / (Real.sqrt (2 * Real.pi) * s) := by
  have hr : 0 < Real.sqrt (2 * Real.pi) := Real.sqrt_pos.2 (by positivity)
  have key : ∀ (w μs μs' σs : List ℝ), (∀ v ∈ w, 0 ≤ v) → (∀ v ∈ σs, s ≤ v) → List.Forall₂ (fun m m' => |m' - m| ≤ δ) μs μs' →
      |gmixCdf w μs' σs x - gmixCdf w μs σs x| ≤ w.sum * (δ / (Real.sqrt (2 * Real.pi) * s)) := by
    intro w
    induction w with
    | nil => intros; simp [gmixCdf, mixEval, npSum_eq]
    | cons a w ih =>
      intro μs μs' σs hw hσ hd
      have ha := hw a (by simp)
      have hb : 0 ≤ δ / (Real.sqrt (2 * Real.pi) * s) := by positivity
      have hz : 0 ≤ (a :: w).sum * (δ / (Real.sqrt (2 * Real.pi) * s)) := mul_nonneg (List.sum_nonneg hw) hb
      cases hd with
      | nil => simpa [gmixCdf, mixEval, npSum_eq] using hz
      | @cons m m' μs μs' hmm hd =>
        cases σs with
        | nil => simpa [gmixCdf, mixEval, npSum_eq] using hz
        | cons σ σs =>
          have hi := ih μs μs' σs (fun v hv => hw v (List.mem_cons_of_mem _ hv)) (fun v hv => hσ v (List.mem_cons_of_mem _ hv)) hd
          have hσs := hσ σ (by simp)
          have h1 := normCdf_shift (lt_of_lt_of_le hs hσs) m m' x hmm
          have h2 : δ / (Real.sqrt (2 * Real.pi) * σ) ≤ δ / (Real.sqrt (2 * Real.pi) * s) := div_le_div_of_nonneg_left h0 (by positivity) (mul_le_mul_of_nonneg_left hσs hr.le)
          have h3 := mul_le_mul_of_nonneg_left (h1.trans h2) ha
          have e : ∀ m μs, gmixCdf (a :: w) (m :: μs) (σ :: σs) x = a * normCdf m σ x + gmixCdf w μs σs x := fun m μs => by
            simp [gmixCdf, mixEval, npSum_eq]
          rw [e, e, List.sum_cons]
          have : a * normCdf m' σ x + gmixCdf w μs' σs x - (a * normCdf m σ x + gmixCdf w μs σs x) = a * (normCdf m' σ x - normCdf m σ x) + (gmixCdf w μs' σs x - gmixCdf w μs σs x) := by ring
          rw [this]
          refine (abs_add_le _ _).trans ?_
          rw [abs_mul, abs_of_nonneg ha]
          linarith
  simpa [hm.one] using key w μs μs' σs hm.nonneg hσ hd

/-! ## Point metrics -/

/-- no number moves by more than `δ` -/
def Moved (δ : K) (l l' : List K) : Prop := List.Forall₂ (fun v v' => |v' - v| ≤ δ) l l'

theorem moved_symm {δ : K} {l l' : List K} (h : Moved δ l l') : Moved δ l' l := by
  induction h with
  | nil => exact List.Forall₂.nil
  | cons hab h ih => exact List.Forall₂.cons (by rw [abs_sub_comm]; exact hab) ih

theorem moved_count {δ : K} {l l' : List K} (h : Moved δ l l') (b : K) : l'.countP (fun x => decide (b + δ < x)) ≤ l.countP fun x => decide (b < x) := by
  induction h with
  | nil => simp
  | @cons a a' l l' hab h ih =>
    have := (abs_le.1 hab).2
    simp only [List.countP_cons, decide_eq_true_eq]
    by_cases h1 : b + δ < a'
    · rw [if_pos h1, if_pos (by linarith)]
      omega
    · rw [if_neg h1]
      omega

theorem sort_moved_le {δ : K} {l l' : List K} (h : Moved δ l l') {i : ℕ} {v v' : K} (hv : (Np.sort l)[i]? = some v) (hv' : (Np.sort l')[i]? = some v') : v' ≤ v + δ := by
  refine entry_le hv' (lt_of_le_of_lt (Nat.add_le_add_right (moved_count h v) i) ?_)
  have h1 := (count_le_iff (sort_pairwise l) v i v hv).1 le_rfl
  rw [(sort_perm l).countP_eq] at h1
  have h2 := count_split l v
  have h3 : l.length = l'.length := List.Forall₂.length_eq h
  omega

/-- the sorted numbers do not move by more either -/
theorem sort_moved {δ : K} {l l' : List K} (h : Moved δ l l') {i : ℕ} {v v' : K} (hv : (Np.sort l)[i]? = some v) (hv' : (Np.sort l')[i]? = some v') : |v' - v| ≤ δ := by
  rw [abs_le]
  have h1 := sort_moved_le h hv hv'
  have h2 := sort_moved_le (moved_symm h) hv' hv
  constructor <;> linarith

theorem median_moved {δ m m' : K} {l l' : List K} (h : Moved δ l l') (hm : npMedian l = some m) (hm' : npMedian l' = some m') : |m' - m| ≤ δ := by
  obtain ⟨a, b, ha, hb, rfl⟩ := (median_eq l m).1 hm
  obtain ⟨a', b', ha', hb', rfl⟩ := (median_eq l' m').1 hm'
  have hl : l'.length = l.length := (List.Forall₂.length_eq h).symm
  rw [hl] at ha' hb'
  have h1 := abs_le.1 (sort_moved h ha ha')
  have h2 := abs_le.1 (sort_moved h hb hb')
  rw [abs_le]
  constructor <;> linarith

theorem quantile_moved [FloorRing K] {δ p q q' : K} {l l' : List K} (h : Moved δ l l') (hq : npQuantile p l = .ok q) (hq' : npQuantile p l' = .ok q') : |q' - q| ≤ δ := by
  obtain ⟨h0, h1, i, u, w, hu, hw, hi0, hi1, rfl⟩ := quantile_ok hq
  obtain ⟨-, -, j, u', w', hu', hw', hj0, hj1, rfl⟩ := quantile_ok hq'
  have hl : l'.length = l.length := (List.Forall₂.length_eq h).symm
  rw [hl] at hw' hj0 hj1 ⊢
  have hij : j = i := by
    have a1 : (j : K) < (i : K) + 1 := lt_of_le_of_lt hj0 hi1
    have a2 : (i : K) < (j : K) + 1 := lt_of_le_of_lt hi0 hj1
    have a3 : j < i + 1 := by exact_mod_cast a1
    have a4 : i < j + 1 := by exact_mod_cast a2
    omega
  subst hij
  have d1 := abs_le.1 (sort_moved h hu hu')
  have d2 := abs_le.1 (sort_moved h hw hw')
  obtain ⟨t, ht⟩ : ∃ t, t = p * ((l.length : K) - 1) - (j : K) := ⟨_, rfl⟩
  have t0 : 0 ≤ t := by rw [ht]; linarith
  have t1 : 0 ≤ 1 - t := by rw [ht]; linarith
  rw [← ht, abs_le]
  constructor <;> nlinarith [mul_le_mul_of_nonneg_left d1.1 t1, mul_le_mul_of_nonneg_left d1.2 t1, mul_le_mul_of_nonneg_left d2.1 t0, mul_le_mul_of_nonneg_left d2.2 t0]

/-- **C133: point metrics.** If no residual moves by more than `δ`, the bias moves by at most `δ`, sigma-IQR by at most `2δ/1.349` and sigma-MAD by at most `2·1.4826 δ`.
Missing: the outlier rate, which jumps (`C133_outlier_rate_jumps`). -/
theorem C133_point_metrics_partial [FloorRing K] {est est' ref ref' : List K} {δ : K} (ho : Objects est ref) (ho' : Objects est' ref') (hne : est ≠ []) (hd : Moved δ (residuals est ref) (residuals est' ref')) :
    (∃ m m', pointBias est ref = .ok (some m) ∧ pointBias est' ref' = .ok (some m') ∧ |m' - m| ≤ δ) ∧
    (∃ s s', sigmaIqr est ref = .ok s ∧ sigmaIqr est' ref' = .ok s' ∧ |s' - s| ≤ 2 * δ / (1349 / 1000)) ∧
    ∃ s s', sigmaMad est ref = .ok (some s) ∧ sigmaMad est' ref' = .ok (some s') ∧ |s' - s| ≤ 2 * δ * (14826 / 10000) := by
  have hlen : (residuals est ref).length = est.length := by simp [residuals, ho.size]
  have hne1 : residuals est ref ≠ [] := by
    intro h0
    rw [h0] at hlen
    exact hne (List.length_eq_zero_iff.1 hlen.symm)
  have hne2 : residuals est' ref' ≠ [] := by
    intro h0
    rw [h0] at hd
    cases hd' : residuals est ref with
    | nil => exact hne1 hd'
    | cons a l => rw [hd'] at hd; cases hd
  obtain ⟨m, hm⟩ := median_exists _ hne1
  obtain ⟨m', hm'⟩ := median_exists _ hne2
  have hmm := median_moved hd hm hm'
  refine ⟨⟨m, m', ?_, ?_, hmm⟩, ?_, ?_⟩
  · simp [pointBias, ez_eq ho, Except.map, hm]
  · simp [pointBias, ez_eq ho', Except.map, hm']
  · have q34 : (0 : K) ≤ 3 / 4 ∧ (3 / 4 : K) ≤ 1 := by constructor <;> norm_num
    have q14 : (0 : K) ≤ 1 / 4 ∧ (1 / 4 : K) ≤ 1 := by constructor <;> norm_num
    obtain ⟨u, hu⟩ := quantile_exists q34.1 q34.2 hne1
    obtain ⟨v, hv⟩ := quantile_exists q14.1 q14.2 hne1
    obtain ⟨u', hu'⟩ := quantile_exists q34.1 q34.2 hne2
    obtain ⟨v', hv'⟩ := quantile_exists q14.1 q14.2 hne2
    refine ⟨(u - v) / (1349 / 1000), (u' - v') / (1349 / 1000), ?_, ?_, ?_⟩
    · simp only [sigmaIqr, ez_eq ho, sigmaIqrOf, hu, hv, Bind.bind, Except.bind]
    · simp only [sigmaIqr, ez_eq ho', sigmaIqrOf, hu', hv', Bind.bind, Except.bind]
    · have d1 := abs_le.1 (quantile_moved hd hu hu')
      have d2 := abs_le.1 (quantile_moved hd hv hv')
      rw [← sub_div, abs_div, abs_of_pos (show (0 : K) < 1349 / 1000 by norm_num)]
      apply div_le_div_of_nonneg_right _ (by norm_num)
      rw [abs_le]
      constructor <;> linarith
  · have hdev : Moved (2 * δ) ((residuals est ref).map fun e => |e - m|) ((residuals est' ref').map fun e => |e - m'|) := by
      unfold Moved at hd ⊢
      rw [List.forall₂_map_left_iff, List.forall₂_map_right_iff]
      refine List.Forall₂.imp (fun a b hab => ?_) hd
      refine (abs_abs_sub_abs_le_abs_sub _ _).trans ?_
      have h1 := abs_le.1 hab
      have h2 := abs_le.1 hmm
      rw [abs_le]
      constructor <;> linarith
    obtain ⟨d, hd1⟩ := median_exists ((residuals est ref).map fun e => |e - m|) (by simpa using hne1)
    obtain ⟨d', hd2⟩ := median_exists ((residuals est' ref').map fun e => |e - m'|) (by simpa using hne2)
    refine ⟨d * (14826 / 10000), d' * (14826 / 10000), ?_, ?_, ?_⟩
    · simp [sigmaMad, ez_eq ho, Except.map, sigmaMadOf, hm, hd1]
    · simp [sigmaMad, ez_eq ho', Except.map, sigmaMadOf, hm', hd2]
    · rw [← sub_mul, abs_mul, abs_of_pos (show (0 : K) < 14826 / 10000 by norm_num)]
      exact mul_le_mul_of_nonneg_right (median_moved hdev hd1 hd2) (by norm_num)

/-! ## Goodness of fit -/

theorem ks_le {F F' : K → K} {data data' : List K} {d d' δ : K} (hl : data'.length = data.length) (h : ksStat F data = .ok d) (h' : ksStat F' data' = .ok d')
    (hd : ∀ (i : ℕ) (x x' : K), (Np.sort data)[i]? = some x → (Np.sort data')[i]? = some x' → |F' x' - F x| ≤ δ) : d' ≤ d + δ := by
  obtain ⟨⟨i, x', hx', hcase⟩, -⟩ := ks_ok h'
  obtain ⟨-, hall⟩ := ks_ok h
  have hi := (List.getElem?_eq_some_iff.1 hx').1
  rw [length_sort, hl, ← length_sort] at hi
  have hx := List.getElem?_eq_getElem hi
  obtain ⟨a1, a2⟩ := hall i _ hx
  obtain ⟨b1, b2⟩ := abs_le.1 (hd i _ x' hx hx')
  rw [hl] at hcase
  rcases hcase with rfl | rfl <;> linarith

/-- **C133: Kolmogorov-Smirnov.** If the CDF changes by at most `δ` at the samples, the statistic changes by at most `δ`. -/
theorem C133_ks {F F' : K → K} {data : List K} {d d' δ : K} (h : ksStat F data = .ok d) (h' : ksStat F' data = .ok d') (hd : ∀ x ∈ data, |F' x - F x| ≤ δ) : |d' - d| ≤ δ := by
  have hm : ∀ {i : ℕ} {x : K}, (Np.sort data)[i]? = some x → x ∈ data := fun hx => (sort_perm data).mem_iff.1 (List.mem_of_getElem? hx)
  have h1 := ks_le rfl h h' fun i x x' hx hx' => by
    rw [hx] at hx'
    cases hx'
    exact hd x (hm hx)
  have h2 := ks_le rfl h' h fun i x x' hx hx' => by
    rw [hx] at hx'
    cases hx'
    rw [abs_sub_comm]
    exact hd x (hm hx)
  rw [abs_le]
  constructor <;> linarith

/-- **C133: Kolmogorov-Smirnov of moved samples.** If no sample moves by more than `δ` and the CDF rises by at most `L` per unit, the statistic changes by at most `L δ`. -/
theorem C133_ks_samples {F : K → K} {data data' : List K} {d d' δ L : K} (h : ksStat F data = .ok d) (h' : ksStat F data' = .ok d') (hL : 0 ≤ L) (hF : ∀ x y, |F x - F y| ≤ L * |x - y|)
    (hm : Moved δ data data') : |d' - d| ≤ L * δ := by
  have hl : data'.length = data.length := (List.Forall₂.length_eq hm).symm
  have h1 := ks_le hl h h' fun i x x' hx hx' => (hF x' x).trans (mul_le_mul_of_nonneg_left (sort_moved hm hx hx') hL)
  have h2 := ks_le hl.symm h' h fun i x x' hx hx' => (hF x' x).trans (mul_le_mul_of_nonneg_left (sort_moved (moved_symm hm) hx hx') hL)
  rw [abs_le]
  constructor <;> linarith

/-- **C133: Cramer-von Mises.** If the CDF changes by at most `δ` at the `n` samples, the statistic changes by at most `2 n δ`. -/
theorem C133_cvm {F F' : K → K} {data : List K} {d d' δ : K} (h : cvmStat F data = .ok d) (h' : cvmStat F' data = .ok d') (hF : ∀ x, 0 ≤ F x ∧ F x ≤ 1) (hF' : ∀ x, 0 ≤ F' x ∧ F' x ≤ 1)
    (hd : ∀ x ∈ data, |F' x - F x| ≤ δ) : |d' - d| ≤ 2 * (data.length : K) * δ := by
  unfold cvmStat at h h'
  by_cases h0 : data.length = 0
  · simp [h0] at h
  have hn : (0 : K) < data.length := by exact_mod_cast Nat.pos_of_ne_zero h0
  simp only [h0, if_false, Except.ok.injEq] at h h'
  rw [← h, ← h', npSum_eq, npSum_eq]
  have key : ∀ (is : List ℕ) (l : List K), (∀ i ∈ is, i < data.length) → (∀ x ∈ l, x ∈ data) →
      |(List.zipWith (fun (i : ℕ) v => ((2 * ((i : K) + 1) - 1) / (2 * (data.length : K)) - v) ^ 2) is (l.map F')).sum -
        (List.zipWith (fun (i : ℕ) v => ((2 * ((i : K) + 1) - 1) / (2 * (data.length : K)) - v) ^ 2) is (l.map F)).sum| ≤ 2 * (l.length : K) * δ := by
    intro is
    induction is with
    | nil =>
      intro l _ hl
      cases l with
      | nil => simp
      | cons a l =>
        have : 0 ≤ δ := (abs_nonneg _).trans (hd a (hl a (by simp)))
        simp only [List.zipWith_nil_left, List.sum_nil, sub_zero, abs_zero]
        positivity
    | cons i is ih =>
      intro l hi hl
      cases l with
      | nil => simp
      | cons a l =>
        have hδ := hd a (hl a (by simp))
        have hr := ih l (fun j hj => hi j (List.mem_cons_of_mem _ hj)) fun x hx => hl x (List.mem_cons_of_mem _ hx)
        simp only [List.map_cons, List.zipWith_cons_cons, List.sum_cons, List.length_cons]
        have hin := hi i (by simp)
        obtain ⟨u, hu⟩ : ∃ u, u = (2 * ((i : K) + 1) - 1) / (2 * (data.length : K)) := ⟨_, rfl⟩
        have hin' : (i : K) + 1 ≤ data.length := by exact_mod_cast hin
        have hu0 : 0 ≤ u := by
          rw [hu]
          apply div_nonneg _ (by linarith)
          have : (0 : K) ≤ i := Nat.cast_nonneg i
          linarith
        have hu1 : u ≤ 1 := by
          rw [hu, div_le_one (by linarith)]
          linarith
        rw [← hu]
        have hone : |(u - F' a) ^ 2 - (u - F a) ^ 2| ≤ 2 * δ := by
          have e : (u - F' a) ^ 2 - (u - F a) ^ 2 = (F' a - F a) * (F' a + F a - 2 * u) := by ring
          have hb : |F' a + F a - 2 * u| ≤ 2 := by
            rw [abs_le]
            constructor <;> linarith [(hF a).1, (hF a).2, (hF' a).1, (hF' a).2]
          rw [e, abs_mul]
          calc |F' a - F a| * |F' a + F a - 2 * u| ≤ δ * 2 := mul_le_mul hδ hb (abs_nonneg _) ((abs_nonneg _).trans hδ)
            _ = 2 * δ := by ring
        have e2 : ∀ p q r t : K, p + q - (r + t) = (p - r) + (q - t) := fun _ _ _ _ => by ring
        rw [e2]
        refine (abs_add_le _ _).trans ?_
        push_cast
        linarith
  have := key (List.range data.length) (Np.sort data) (fun i hi => List.mem_range.1 hi) fun x hx => (sort_perm data).mem_iff.1 hx
  rw [length_sort] at this
  have e3 : ∀ c p q : K, c + p - (c + q) = p - q := fun _ _ _ => by ring
  rw [e3]
  exact this

/-! ## Where small changes have large effects -/

/-- **C133: the outlier rate jumps.** However little one residual moves, the rate of five objects can change by 1/5. -/
theorem C133_outlier_rate_jumps (δ : ℚ) (h : 0 < δ) :
    pointOutlier [0, 0, 0, 0, 6 / 100] [0, 0, 0, 0, 0] = .ok (0 : ℚ) ∧ pointOutlier [0, 0, 0, 0, 6 / 100 + δ] [0, 0, 0, 0, 0] = .ok (1 / 5) := by
  constructor
  · decide +kernel
  · have ho : Objects [0, 0, 0, 0, 6 / 100 + δ] [0, 0, 0, 0, (0 : ℚ)] := ⟨rfl, by simp⟩
    have hr : residuals [0, 0, 0, 0, 6 / 100 + δ] [0, 0, 0, 0, (0 : ℚ)] = [0, 0, 0, 0, 6 / 100 + δ] := by simp [residuals]
    have ho' : outside (-0) 0 ([0, 0, 0, 0, 6 / 100 + δ] : List ℚ) = 1 := by
      have : 6 / 100 + δ ≠ 0 := by linarith
      simp [outside, this]
    have := C132_outlier_rate ho 0 (by norm_num) (by simp) (by rw [hr, ho']; norm_num) (by
      rw [hr]
      intro e he hpos
      have hpos' : 0 < |e| := hpos
      simp only [List.mem_cons, List.not_mem_nil, or_false] at he
      have : e = 6 / 100 + δ := by
        rcases he with he | he | he | he | he <;> first | exact he | (rw [he] at hpos'; simp at hpos')
      rw [this, abs_of_pos (by linarith)]
      constructor <;> linarith)
    rw [hr, ho'] at this
    rw [this]
    norm_num

/-! ## Concrete cases -/

theorem near_example : Near (K := ℚ) (1 / 10) [1, 1, 2] [11 / 10, 9 / 10, 2] := by unfold Near; decide +kernel

/-- contents known to ten percent: the CDF moves by 1/40 in the first bin, less than the bound 1/18 -/
example := C133_hist (K := ℚ) (edges := [0, 1, 2, 3]) (row := [1, 1, 2]) (p := [1 / 4, 1 / 4, 1 / 2]) ⟨by decide +kernel, rfl, by decide⟩ (by decide +kernel) (by decide +kernel) near_example (by norm_num) (by norm_num)

example : histNormRow (K := ℚ) [0, 1, 2, 3] [11 / 10, 9 / 10, 2] = some [11 / 40, 9 / 40, 1 / 2] ∧ histCdf (K := ℚ) [0, 1, 2, 3] [1 / 4, 1 / 4, 1 / 2] 1 = some (1 / 4) ∧
    histCdf (K := ℚ) [0, 1, 2, 3] [11 / 40, 9 / 40, 1 / 2] 1 = some (11 / 40) := by decide +kernel

/-- two equal contents: the CDF really moves by `ε/2` -/
example : histNormRow (K := ℚ) [0, 1, 2] [11 / 10, 9 / 10] = some [11 / 20, 9 / 20] ∧ histCdf (K := ℚ) [0, 1, 2] [11 / 20, 9 / 20] 1 = some (1 / 2 + 1 / 10 / 2) := by decide +kernel

example := C133_interp (K := ℚ) (xs := [0, 1, 3]) (row := [1, 1, 2]) (ys := [1 / 4, 1 / 4, 1 / 2]) (c := [1 / 8, 1 / 4, 1]) ⟨by decide +kernel, rfl, by decide⟩ (by decide +kernel) (by decide +kernel) near_example
  (by norm_num) (by norm_num)

example := C133_mixture_weights (K := ℚ) (w := [1, 1, 2]) (v := [1 / 4, 1 / 4, 1 / 2]) (comps := [fun _ => 1, fun x => x, fun _ => 0]) rfl (by decide +kernel) (by decide +kernel) near_example (by norm_num) (by norm_num)
  (1 / 2) (by simp; norm_num)

example := C133_mixture_means (w := [1 / 4, 3 / 4]) (μs := [0, 5]) (μs' := [1 / 10, 49 / 10]) (σs := [1, 2]) (δ := 1 / 10) (s := 1) ⟨rfl, rfl, by norm_num, by norm_num, by norm_num⟩
  (.cons (by norm_num) (.cons (by rw [abs_le]; constructor <;> norm_num) .nil)) (by norm_num) (by norm_num) (by norm_num) 2

example := C133_point_metrics_partial (K := ℚ) (est := [1 / 10, 2 / 10, 5]) (est' := [2 / 10, 1 / 10, 5]) (ref := [0, 0, 0]) (ref' := [0, 0, 0]) (δ := 1 / 10) ⟨rfl, by decide +kernel⟩ ⟨rfl, by decide +kernel⟩
  (by decide) (by unfold Moved; decide +kernel)

example := C133_ks (K := ℚ) (F := fun x => x) (F' := fun x => x ^ 2) (data := [3 / 4, 1 / 2]) (d := 1 / 2) (d' := 7 / 16) (δ := 1 / 4) (by decide +kernel) (by decide +kernel) (by decide +kernel)

example := C133_ks_samples (K := ℚ) (F := fun x => x) (data := [1 / 2, 1 / 4]) (data' := [6 / 10, 1 / 4]) (d := 1 / 2) (d' := 2 / 5) (δ := 1 / 10) (L := 1) (by decide +kernel) (by decide +kernel) (by norm_num) (by simp)
  (by unfold Moved; decide +kernel)

example := C133_cvm (K := ℚ) (F := fun _ => 3 / 4) (F' := fun _ => 1 / 2) (data := [3 / 4, 1 / 2]) (d := 7 / 24) (d' := 1 / 24 + 1 / 8) (δ := 1 / 4) (by decide +kernel) (by decide +kernel) (by intro; norm_num) (by intro; norm_num)
  (by decide +kernel)

end Verif.Props.Stability
