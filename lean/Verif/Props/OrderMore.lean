import Verif.Props.Dominance
import Verif.Props.PackedCurves
import Verif.Props.ConvertQuant

/-!
# C133, C134 for packed PDFs and for quantiles
-/

set_option linter.unusedSectionVars false
set_option autoImplicit false

namespace Verif.Props.OrderMore

open Verif Verif.Np Verif.Model Verif.Lemmas Verif.Lemmas.InterpPdf Verif.Spec Verif.Props.Bins Verif.Props.Hist Verif.Props.InterpPdf Verif.Props.Dominance
open Verif.Props.Stability Verif.Props.PackedPdf Verif.Props.PackedCurves

/-! ## Packed PDFs -/

theorem packed_facts (t : PackingType) (lf rm : ℝ) (hrm : 0 < rm) (xs : List ℝ) (codes : List ℕ) (hg : XGrid xs codes.length) (hc : ∃ c ∈ codes, c ≠ 0)
    (st : List ℝ × List ℝ) (h : packedState t lf xs codes rm = .ok (some st)) : Constructed xs st.1 st.2 ∧ ∀ v ∈ st.1, 0 ≤ v := by
  obtain ⟨hu0, hup, hul⟩ := unpackRow_facts t lf codes rm hrm hc
  have hgu : XGrid xs (unpackRow t lf codes rm).length := by rw [hul]; exact hg
  have hA := area_pos xs _ hg.strict (by rw [hul]; exact hg.size) hgu.two hu0 hup
  obtain ⟨ys, c, hn, ha, hys, -⟩ := (C12_interp_normalises xs _ hgu).2 hA.ne'
  unfold packedState at h
  rw [hn] at h
  obtain rfl : (ys, c) = st := Option.some.inj (Except.ok.inj h)
  refine ⟨⟨_, hgu, hn⟩, ?_⟩
  show ∀ v ∈ ys, 0 ≤ v
  rw [hys]; intro v hv; obtain ⟨w, hw, rfl⟩ := List.mem_map.1 hv; exact div_nonneg (hu0 w hw) hA.le

/-- **C134: packed PDFs on one grid**, with any packings: if the CDF of one is nowhere below that of the other, none of its quantiles is larger -/
theorem C134_packed (xs : List ℝ) (t t' : PackingType) (lf lf' rm rm' : ℝ) (codes codes' : List ℕ) (hrm : 0 < rm) (hrm' : 0 < rm') (hg : XGrid xs codes.length)
    (hg' : XGrid xs codes'.length) (hc : ∃ c ∈ codes, c ≠ 0) (hc' : ∃ c ∈ codes', c ≠ 0) (st st' : List ℝ × List ℝ) (h : packedState t lf xs codes rm = .ok (some st))
    (h' : packedState t' lf' xs codes' rm' = .ok (some st')) (ho : Left (packedCdf xs st) (packedCdf xs st')) (q : ℝ) :
    ∃ x x', packedPpf xs st q = some x ∧ packedPpf xs st' q = some x' ∧ x ≤ x' := by
  obtain ⟨k, k0⟩ := packed_facts t lf rm hrm xs codes hg hc st h
  obtain ⟨k', k0'⟩ := packed_facts t' lf' rm' hrm' xs codes' hg' hc' st' h'
  rw [packedPpf_eq, packedPpf_eq]
  exact C134_interp_partial xs _ _ _ _ k k' k0 k0' ho q

theorem unpack_scale (t : PackingType) (lf rm rm' : ℝ) (hrm : rm ≠ 0) (hrm' : rm' ≠ 0) (codes : List ℕ) :
    unpackRow t lf codes rm' = (unpackRow t lf codes rm).map (· / (rm / rm')) := by
  cases t with
  | linear_from_rowmax =>
    simp only [unpackRow, linearUnpackRow, List.map_map]
    refine List.map_congr_left fun c _ => ?_
    simp only [Function.comp]
    field_simp
  | log_from_rowmax =>
    simp only [unpackRow, logUnpackRow, List.map_map]
    refine List.map_congr_left fun c _ => ?_
    simp only [Function.comp, logValue]
    field_simp

/-- **C133: the largest value of a packed row does not matter**, however much it changes (as long as it is not zero): the stored distribution is the same -/
theorem C133_packed_rowmax (t : PackingType) (lf rm rm' : ℝ) (hrm : rm ≠ 0) (hrm' : rm' ≠ 0) (xs : List ℝ) (codes : List ℕ) (hg : XGrid xs codes.length) :
    packedState t lf xs codes rm' = packedState t lf xs codes rm := by
  unfold packedState
  rw [unpack_scale t lf rm rm' hrm hrm' codes]
  refine C12_scale_invariant xs _ ?_ _ (div_ne_zero hrm hrm')
  cases t <;> simpa [unpackRow, linearUnpackRow, logUnpackRow] using hg

/-- the codes change by at most one step, and zeros stay zeros -/
def OneStep (codes codes' : List ℕ) : Prop := List.Forall₂ (fun c c' => (c = 0 ↔ c' = 0) ∧ c' ≤ c + 1 ∧ c ≤ c' + 1) codes codes'

/-- **C133: one step of the codes, logarithmic packing.** If no code changes by more than one step (and zeros stay zeros), the density changes everywhere by at most
`2ε/(1-ε)` of itself and the CDF by at most `ε/(2(1-ε))`, with `ε = 10^(-log_floor/255) - 1`, the ratio of neighbouring code values less one (0.0275 for the default
floor). -/
theorem C133_packed_log {lf rm : ℝ} (hlf : lf ≤ 0) (hrm : 0 < rm) {xs : List ℝ} {codes codes' : List ℕ} {st : List ℝ × List ℝ} (hg : XGrid xs codes.length)
    (hst : packedState .log_from_rowmax lf xs codes rm = .ok (some st)) (hn : OneStep codes codes') {ε : ℝ} (hε : ε = (10 : ℝ) ^ (-lf / 255) - 1) (h1 : ε < 1) :
    ∃ st', packedState .log_from_rowmax lf xs codes' rm = .ok (some st') ∧
      (∀ x, ∃ f f', packedPdf xs st x = some f ∧ packedPdf xs st' x = some f' ∧ |f' - f| ≤ 2 * ε / (1 - ε) * f) ∧
      ∀ x, ∃ F F', packedCdf xs st x = some F ∧ packedCdf xs st' x = some F' ∧ |F' - F| ≤ ε / (2 * (1 - ε)) := by
  have hb : (1 : ℝ) ≤ (10 : ℝ) ^ (-lf / 255) := Real.one_le_rpow (by norm_num) (by linarith)
  have h0 : 0 ≤ ε := by rw [hε]; linarith
  have hv : ∀ c : ℕ, 0 ≤ logValue lf rm c := fun c => by unfold logValue; dsimp only; split_ifs <;> positivity
  have hstep : ∀ c : ℕ, c ≠ 0 → logValue lf rm (c + 1) = logValue lf rm c * (10 : ℝ) ^ (-lf / 255) := fun c hc => by
    simp only [logValue, if_neg hc, if_neg (Nat.succ_ne_zero c)]
    rw [mul_assoc rm, ← Real.rpow_add (by norm_num)]
    congr 2
    push_cast
    ring
  have hnear : Near ε (unpackRow .log_from_rowmax lf codes rm) (unpackRow .log_from_rowmax lf codes' rm) := by
    unfold Near unpackRow logUnpackRow
    dsimp only
    rw [List.forall₂_map_left_iff, List.forall₂_map_right_iff]
    refine List.Forall₂.imp (fun c c' h => ?_) hn
    obtain ⟨hz, hu, hd⟩ := h
    have hvc := hv c
    rcases (by omega : c' = c ∨ c' = c + 1 ∨ c = c' + 1) with rfl | rfl | rfl
    · rw [sub_self, abs_zero]; exact mul_nonneg h0 hvc
    · have hc : c ≠ 0 := fun h => by simpa using hz.1 h
      rw [hstep c hc, hε, abs_of_nonneg (by nlinarith)]
      linarith
    · have hc : c' ≠ 0 := fun h => by simpa using hz.2 h
      have hvc' := hv c'
      rw [hstep c' hc, abs_sub_comm, abs_of_nonneg (by nlinarith), hε]
      nlinarith [mul_nonneg hvc' (sub_nonneg.2 hb), mul_nonneg (mul_nonneg hvc' (sub_nonneg.2 hb)) (sub_nonneg.2 hb)]
  have hgu : XGrid xs (unpackRow .log_from_rowmax lf codes rm).length := by simpa [unpackRow, logUnpackRow] using hg
  have hpos : ∀ v ∈ unpackRow .log_from_rowmax lf codes rm, 0 ≤ v := by
    intro v h
    obtain ⟨c, -, rfl⟩ := List.mem_map.1 h
    exact hv c
  obtain ⟨ys', c', e, p1, p2⟩ := C133_interp (ys := st.1) (c := st.2) hgu hst hpos hnear h0 h1
  exact ⟨(ys', c'), e, p1, p2⟩

/-- **C133: one step of the codes, linear packing.** If no code changes by more than one step, with `M` the largest code of the row, `P` the largest value of its density
and `L` the length of the grid, density and CDF change by at most the given bounds. -/
theorem C133_packed_linear {lf rm : ℝ} (hrm : 0 < rm) {xs : List ℝ} {codes codes' : List ℕ} (hg : XGrid xs codes.length) {M : ℕ} (hM : M ∈ codes) (hmax : ∀ c ∈ codes, c ≤ M) (hM0 : M ≠ 0)
    (hc' : ∃ c ∈ codes', c ≠ 0) (hn : List.Forall₂ (fun c c' => c' ≤ c + 1 ∧ c ≤ c' + 1) codes codes') :
    ∃ st st' P, packedState .linear_from_rowmax lf xs codes rm = .ok (some st) ∧ packedState .linear_from_rowmax lf xs codes' rm = .ok (some st') ∧ P ∈ st.1 ∧ (∀ v ∈ st.1, v ≤ P) ∧
      ∀ a b L, xs.head? = some a → xs.getLast? = some b → L = b - a → 1 / (M : ℝ) * P * L < 1 →
        ∀ x, (∃ f f', packedPdf xs st x = some f ∧ packedPdf xs st' x = some f' ∧ |f' - f| ≤ 1 / (M : ℝ) * P * (1 + P * L) / (1 - 1 / (M : ℝ) * P * L)) ∧
          (∃ F F', packedCdf xs st x = some F ∧ packedCdf xs st' x = some F' ∧ |F' - F| ≤ 1 / (M : ℝ) * P * (1 + P * L) / (1 - 1 / (M : ℝ) * P * L) * L) := by
  have hMp : (0 : ℝ) < M := by exact_mod_cast Nat.pos_of_ne_zero hM0
  have hgu : XGrid xs (unpackRow .linear_from_rowmax lf codes rm).length := by simpa [unpackRow, linearUnpackRow] using hg
  obtain ⟨u0, -, -⟩ := unpackRow_facts .linear_from_rowmax lf codes rm hrm ⟨M, hM, hM0⟩
  obtain ⟨v0, vp, -⟩ := unpackRow_facts .linear_from_rowmax lf codes' rm hrm hc'
  obtain ⟨y0, c0, ys, c, P, e0, e, -, -, -, hP, hPm, key⟩ := normalised_close (1 / (M : ℝ)) (rm * M / 255) (by positivity) xs (unpackRow .linear_from_rowmax lf codes rm)
    (unpackRow .linear_from_rowmax lf codes' rm) hgu u0 (by positivity) (List.mem_map.2 ⟨M, hM, rfl⟩) (by
      intro v hv
      obtain ⟨c, hc, rfl⟩ := List.mem_map.1 hv
      have : (c : ℝ) ≤ M := by exact_mod_cast hmax c hc
      exact div_le_div_of_nonneg_right (mul_le_mul_of_nonneg_left this hrm.le) (by norm_num)) (by
      unfold unpackRow linearUnpackRow
      dsimp only
      rw [List.forall₂_map_left_iff, List.forall₂_map_right_iff]
      refine List.Forall₂.imp (fun c c' h => ?_) hn.flip
      have h1 : (c : ℝ) ≤ c' + 1 := by exact_mod_cast h.1
      have h2 : (c' : ℝ) ≤ c + 1 := by exact_mod_cast h.2
      rw [show rm * (c : ℝ) / 255 - rm * (c' : ℝ) / 255 = rm / 255 * ((c : ℝ) - c') by ring, abs_mul, abs_of_pos (by positivity)]
      rw [show 1 / (M : ℝ) * (rm * M / 255) = rm / 255 * 1 by field_simp]
      exact mul_le_mul_of_nonneg_left (abs_le.2 ⟨by linarith, by linarith⟩) (by positivity)) v0 vp
  refine ⟨(y0, c0), (ys, c), P, e0, e, hP, hPm, fun a b L ha hb hL hPL x => ?_⟩
  obtain ⟨⟨p, p0, q1, q2, q3⟩, ⟨F, F0, r1, r2, r3⟩⟩ := key a b L ha hb hL hPL x
  exact ⟨⟨p0, p, q2, q1, q3⟩, ⟨F0, F, r2, r1, r3⟩⟩

/-! ## Quantiles -/

variable {K : Type} [Field K] [LinearOrder K] [IsStrictOrderedRing K]

/-- **C134, quantiles at the stored probabilities** are the stored locations, for every interpolant through its points: they are ordered as the locations are. Missing: the
probabilities in between, for which the claim fails (`C134_quant_wrong`). -/
theorem C134_quant_partial (spl : List (K × K) → K → K) (hspl : ∀ knots : List (K × K), (knots.map Prod.fst).Pairwise (· < ·) → ∀ p ∈ knots, spl knots p.1 = p.2) (lo hi lo' hi' : K)
    (quants locs locs' : List K) (hq : quants.Pairwise (· < ·)) (hl : locs.length = quants.length) (hl' : locs'.length = quants.length) :
    List.Forall₂ (· ≤ ·) locs locs' ↔
      ∀ q ∈ quants, ∀ x x', quantPpf spl lo hi quants locs q = some x → quantPpf spl lo' hi' quants locs' q = some x' → x ≤ x' := by
  have hk : ∀ (l : List K), l.length = quants.length → ∀ p ∈ quants.zip l, spl (quants.zip l) p.1 = p.2 := fun l h p hp =>
    hspl _ (by rw [List.map_fst_zip (by omega)]; exact hq) p hp
  rw [List.forall₂_iff_get]
  constructor
  · rintro ⟨-, h⟩ q hqm x x' hx hx'
    obtain ⟨i, hi, rfl⟩ := List.mem_iff_getElem.1 hqm
    rw [ConvertQuant.quantPpf_knot spl lo _ quants locs hq (hk locs hl) i _ (locs[i]'(by omega)) (List.getElem?_eq_getElem hi) (List.getElem?_eq_getElem (by omega))] at hx
    rw [ConvertQuant.quantPpf_knot spl lo' _ quants locs' hq (hk locs' hl') i _ (locs'[i]'(by omega)) (List.getElem?_eq_getElem hi) (List.getElem?_eq_getElem (by omega))] at hx'
    cases hx; cases hx'
    exact h i (by omega) (by omega)
  · intro h
    refine ⟨by omega, fun i h1 h2 => ?_⟩
    have hi : i < quants.length := by omega
    exact h _ (List.getElem_mem hi) _ _
      (ConvertQuant.quantPpf_knot spl lo _ quants locs hq (hk locs hl) i _ (locs[i]'h1) (List.getElem?_eq_getElem hi) (List.getElem?_eq_getElem h1))
      (ConvertQuant.quantPpf_knot spl lo' _ quants locs' hq (hk locs' hl') i _ (locs'[i]'h2) (List.getElem?_eq_getElem hi) (List.getElem?_eq_getElem h2))

/-- **C134 fails for quantiles**: with the probabilities 0, 1/2, 1, the CDF of the PDF with locations 0, 1, 9 is nowhere below that of the PDF with locations 1, 2, 3; the first has the
larger upper quartile, 33/8 against 5/2. -/
theorem C134_quant_wrong : Left (quantCdf quadSpline3 [0, 1/2, 1] ([0, 1, 9] : List ℚ)) (quantCdf quadSpline3 [0, 1/2, 1] [1, 2, 3]) ∧
    quantPpf quadSpline3 0 9 [0, 1/2, 1] ([0, 1, 9] : List ℚ) (3/4) = some (33/8) ∧ quantPpf quadSpline3 0 9 [0, 1/2, 1] ([1, 2, 3] : List ℚ) (3/4) = some (5/2) := by
  refine ⟨fun y u u' hu hu' => ?_, by decide +kernel, by decide +kernel⟩
  simp only [quantCdf, List.getLast_cons_cons, List.getLast_singleton, List.zip_cons_cons, List.zip_nil_right, quadSpline3, parabola] at hu hu'
  split_ifs at hu hu' <;> cases hu <;> cases hu' <;> norm_num at * <;> nlinarith

/-- **C134, ordered locations do not give ordered quantiles** between the stored probabilities: the locations 0, 1, 2 are at most 0, 1, 10 each, but the first PDF has the larger lower quartile
(the quadratic interpolant leaves the range) -/
theorem C134_quant_between_wrong : List.Forall₂ (· ≤ ·) ([0, 1, 2] : List ℚ) [0, 1, 10] ∧ quantPpf quadSpline3 0 10 [0, 1/2, 1] ([0, 1, 2] : List ℚ) (1/4) = some (1/2) ∧
    quantPpf quadSpline3 0 10 [0, 1/2, 1] ([0, 1, 10] : List ℚ) (1/4) = some (-1/2) := by
  refine ⟨by decide +kernel, by decide +kernel, by decide +kernel⟩

/-- the three weights with which the locations enter the quadratic interpolant -/
def weights3 (q0 q1 q2 p : K) : List K :=
  [(p - q1) * (p - q2) / ((q0 - q1) * (q0 - q2)), (p - q0) * (p - q2) / ((q1 - q0) * (q1 - q2)), (p - q0) * (p - q1) / ((q2 - q0) * (q2 - q1))]

theorem quant3 (lo hi q0 q1 q2 l0 l1 l2 p : K) (h1 : q0 < q1) (h2 : q1 < q2) (hp : q0 ≤ p) (hp' : p ≤ q2) :
    quantPpf quadSpline3 lo hi [q0, q1, q2] [l0, l1, l2] p = some (List.zipWith (· * ·) (weights3 q0 q1 q2 p) [l0, l1, l2]).sum := by
  have a1 : q1 - q0 ≠ 0 := (sub_pos.2 h1).ne'
  have a2 : q2 - q1 ≠ 0 := (sub_pos.2 h2).ne'
  have a3 : q2 - q0 ≠ 0 := (sub_pos.2 (h1.trans h2)).ne'
  have b1 : q0 - q1 ≠ 0 := (sub_neg.2 h1).ne
  have b2 : q1 - q2 ≠ 0 := (sub_neg.2 h2).ne
  have b3 : q0 - q2 ≠ 0 := (sub_neg.2 (h1.trans h2)).ne
  simp only [quantPpf, List.getLast_cons_cons, List.getLast_singleton, if_neg (not_lt.2 hp), if_neg (not_lt.2 hp'), List.zip_cons_cons, List.zip_nil_right, quadSpline3, parabola, weights3,
    List.zipWith_cons_cons, List.zipWith_nil_right, List.sum_cons, List.sum_nil]
  congr 1
  rw [show q0 - q1 = -(q1 - q0) by ring, show q1 - q2 = -(q2 - q1) by ring, show q0 - q2 = -(q2 - q0) by ring]
  field_simp
  ring

/-- **C133: three quantiles.** If no location moves by more than `δ`, the quantile for `p` moves by at most `δ` times the sum of the sizes of the three weights, and for some
locations this bound is attained. Any number of quantiles: `C133_quant_any`. The CDF and density, whose break points move: `QuantStable.C133_quant_cdf`, `C133_quant_pdf_partial`. Missing here: more than three quantiles (covered there). -/
theorem C133_quant_partial (lo hi lo' hi' q0 q1 q2 p δ : K) (h1 : q0 < q1) (h2 : q1 < q2) (hp : q0 ≤ p) (hp' : p ≤ q2) (h0 : 0 ≤ δ) :
    (∀ locs locs' : List K, locs.length = 3 → List.Forall₂ (fun l l' => |l' - l| ≤ δ) locs locs' →
      ∃ x x', quantPpf quadSpline3 lo hi [q0, q1, q2] locs p = some x ∧ quantPpf quadSpline3 lo' hi' [q0, q1, q2] locs' p = some x' ∧
        |x' - x| ≤ δ * ((weights3 q0 q1 q2 p).map fun w => |w|).sum) ∧
    ∀ locs : List K, locs.length = 3 → ∃ locs', List.Forall₂ (fun l l' => |l' - l| ≤ δ) locs locs' ∧
      ∃ x x', quantPpf quadSpline3 lo hi [q0, q1, q2] locs p = some x ∧ quantPpf quadSpline3 lo' hi' [q0, q1, q2] locs' p = some x' ∧
        |x' - x| = δ * ((weights3 q0 q1 q2 p).map fun w => |w|).sum := by
  obtain ⟨u, v, w, hw⟩ : ∃ u v w, weights3 q0 q1 q2 p = [u, v, w] := ⟨_, _, _, rfl⟩
  constructor
  · intro locs locs' hl hd
    match locs, locs', hl, hd with
    | [a, b, c], [a', b', c'], _, .cons ha (.cons hb (.cons hc .nil)) =>
      refine ⟨_, _, quant3 lo hi q0 q1 q2 a b c p h1 h2 hp hp', quant3 lo' hi' q0 q1 q2 a' b' c' p h1 h2 hp hp', ?_⟩
      rw [hw]
      simp only [List.zipWith_cons_cons, List.zipWith_nil_right, List.sum_cons, List.sum_nil, List.map_cons, List.map_nil]
      rw [show u * a' + (v * b' + (w * c' + 0)) - (u * a + (v * b + (w * c + 0))) = u * (a' - a) + v * (b' - b) + w * (c' - c) by ring]
      have e : ∀ r d : K, |d| ≤ δ → |r * d| ≤ δ * |r| := fun r d h => by rw [abs_mul, mul_comm]; exact mul_le_mul_of_nonneg_right h (abs_nonneg r)
      have := abs_add_three (u * (a' - a)) (v * (b' - b)) (w * (c' - c))
      linarith [e u _ ha, e v _ hb, e w _ hc]
  · intro locs hl
    match locs, hl with
    | [a, b, c], _ =>
      have e : ∀ r : K, ∃ d, |d| ≤ δ ∧ r * d = δ * |r| := fun r => by
        rcases le_total 0 r with h | h
        · exact ⟨δ, (abs_of_nonneg h0).le, by rw [abs_of_nonneg h, mul_comm]⟩
        · exact ⟨-δ, by rw [abs_neg, abs_of_nonneg h0], by rw [abs_of_nonpos h]; ring⟩
      obtain ⟨d1, f1, g1⟩ := e u
      obtain ⟨d2, f2, g2⟩ := e v
      obtain ⟨d3, f3, g3⟩ := e w
      refine ⟨[a + d1, b + d2, c + d3], .cons (by simpa using f1) (.cons (by simpa using f2) (.cons (by simpa using f3) .nil)), _, _,
        quant3 lo hi q0 q1 q2 a b c p h1 h2 hp hp', quant3 lo' hi' q0 q1 q2 _ _ _ p h1 h2 hp hp', ?_⟩
      rw [hw]
      simp only [List.zipWith_cons_cons, List.zipWith_nil_right, List.sum_cons, List.sum_nil, List.map_cons, List.map_nil]
      rw [show u * (a + d1) + (v * (b + d2) + (w * (c + d3) + 0)) - (u * a + (v * b + (w * c + 0))) = u * d1 + v * d2 + w * d3 by ring, g1, g2, g3, abs_of_nonneg (by positivity)]
      ring

/-! ## Non-vacuity -/

/-- a packed triangle and the same codes in another order, grid of three points -/
example : ∃ st st', packedState .linear_from_rowmax (-3) [0, 1, 2] [255, 51, 0] 2 = .ok (some st) ∧ packedState .log_from_rowmax (-3) [0, 1, 2] [0, 51, 255] 5 = .ok (some st') := by
  obtain ⟨st, -, h, -⟩ := C108_distribution .linear_from_rowmax (-3) 2 (by norm_num) [0, 1, 2] [255, 51, 0] ⟨by norm_num, rfl, by decide⟩ ⟨255, by simp, by simp⟩
  obtain ⟨st', -, h', -⟩ := C108_distribution .log_from_rowmax (-3) 5 (by norm_num) [0, 1, 2] [0, 51, 255] ⟨by norm_num, rfl, by decide⟩ ⟨255, by simp, by simp⟩
  exact ⟨st, st', h, h'⟩

/-- the hypothesis on the CDFs is met by a PDF and itself with another largest value, and `C134_packed` then gives equal quantiles -/
example (q : ℝ) : ∃ st, packedState .log_from_rowmax (-3) [0, 1, 2] [0, 51, 255] 5 = .ok (some st) ∧ ∃ x x', packedPpf [0, 1, 2] st q = some x ∧ packedPpf [0, 1, 2] st q = some x' ∧ x ≤ x' := by
  have hg : XGrid ([0, 1, 2] : List ℝ) [0, 51, 255].length := ⟨by norm_num, rfl, by decide⟩
  obtain ⟨st, -, h, -⟩ := C108_distribution .log_from_rowmax (-3) 5 (by norm_num) [0, 1, 2] [0, 51, 255] hg ⟨255, by simp, by simp⟩
  have h' : packedState .log_from_rowmax (-3) [0, 1, 2] [0, 51, 255] 7 = .ok (some st) := by rw [C133_packed_rowmax _ _ 5 7 (by norm_num) (by norm_num) _ _ hg]; exact h
  exact ⟨st, h, C134_packed [0, 1, 2] _ _ _ _ 5 7 _ _ (by norm_num) (by norm_num) hg hg ⟨255, by simp, by simp⟩ ⟨255, by simp, by simp⟩ st st h h'
    (fun y u u' hu hu' => by rw [hu] at hu'; exact (Option.some.inj hu').ge) q⟩

/-- an interpolant through its points, and two rows of locations -/
example := C134_quant_partial (K := ℚ) (fun knots x => (interp 0 1 knots x).getD 0) (fun knots hk p hp => by
  have hS : StrictX knots := by
    unfold StrictX
    rw [List.isChain_iff_pairwise]
    rw [List.pairwise_map] at hk
    exact hk
  rw [Mirror.interp_knot (lo := 0) (hi := 1) hS hp]; rfl) 0 9 0 9 [0, 1/2, 1] [0, 1, 9] [1, 2, 3] (by decide +kernel) rfl rfl

example : OneStep [0, 51, 255] [0, 52, 254] := by unfold OneStep; decide
example := C133_packed_linear (lf := -3) (rm := 2) (by norm_num) (xs := [0, 1, 2]) (codes := [0, 51, 255]) (codes' := [1, 52, 254]) ⟨by norm_num, rfl, by decide⟩ (M := 255) (by simp) (by simp)
  (by norm_num) ⟨52, by simp, by simp⟩ (by decide)
/-- with the probabilities 0, 1/2, 1 the quartiles move by at most 5/4 of the largest move of a location -/
example : ((weights3 (K := ℚ) 0 (1/2) 1 (1/4)).map fun w => |w|).sum = 5/4 := by decide +kernel
example := C133_quant_partial (K := ℚ) 0 1 0 1 0 (1/2) 1 (1/4) 1 (by norm_num) (by norm_num) (by norm_num) (by norm_num) (by norm_num)

end Verif.Props.OrderMore
