import Verif.Model.Packing
import Mathlib.Tactic.FieldSimp
import Mathlib.Tactic.Ring
import Mathlib.Algebra.Order.Ring.Rat
import Mathlib.Data.Rat.Floor

/-!
# C25, C26, C27: 8-bit packing
-/

set_option linter.unusedSectionVars false
set_option autoImplicit false

namespace Verif.Props.Packing

open Verif Verif.Np Verif.Model

/-! ## C25 -/

section Linear
variable {K : Type*} [Field K] [LinearOrder K] [IsStrictOrderedRing K] [FloorRing K]

private theorem code_bounds {rm v : K} (hrm : 0 < rm) (h0 : 0 ≤ v) (h1 : v ≤ rm) :
    0 ≤ npRound (255 * v / rm) ∧ npRound (255 * v / rm) ≤ 255 := by
  have a : (0 : K) ≤ 255 * v / rm := by positivity
  have b : 255 * v / rm ≤ 255 := by rw [div_le_iff₀ hrm]; linarith
  constructor
  · have := npRound_mono a
    rwa [show (0 : K) = ((0 : ℤ) : K) by simp, npRound_int] at this
  · have := npRound_mono b
    have e : npRound (255 : K) = 255 := by
      have := npRound_int (K := K) 255
      simpa using this
    rwa [e] at this

private theorem code_cast {rm v : K} (hrm : 0 < rm) (h0 : 0 ≤ v) (h1 : v ≤ rm) :
    ((linearCode rm v : ℕ) : K) = (npRound (255 * v / rm) : K) := by
  obtain ⟨a, b⟩ := code_bounds hrm h0 h1
  have := toU8_cast a b
  unfold linearCode
  exact_mod_cast congrArg (Int.cast : ℤ → K) this

private theorem code_err {rm v : K} (hrm : 0 < rm) (h0 : 0 ≤ v) (h1 : v ≤ rm) :
    |rm * (linearCode rm v : K) / 255 - v| ≤ rm / 510 := by
  rw [code_cast hrm h0 h1]
  have h := npRound_abs (255 * v / rm)
  have e : rm * (npRound (255 * v / rm) : K) / 255 - v = rm / 255 * ((npRound (255 * v / rm) : K) - 255 * v / rm) := by
    field_simp
  rw [e, abs_mul, abs_of_pos (by positivity : (0 : K) < rm / 255)]
  calc rm / 255 * |(npRound (255 * v / rm) : K) - 255 * v / rm| ≤ rm / 255 * (1/2) := by gcongr
    _ = rm / 510 := by ring

private theorem code_max {rm : K} (hrm : 0 < rm) : linearCode rm rm = 255 := by
  unfold linearCode
  rw [mul_div_assoc, div_self hrm.ne', mul_one, show (255 : K) = ((255 : ℤ) : K) by simp, npRound_int]
  rfl

private theorem code_code {rm : K} (hrm : 0 < rm) (c : ℕ) (hc : c ≤ 255) : linearCode rm (rm * (c : K) / 255) = c := by
  unfold linearCode
  rw [show 255 * (rm * (c : K) / 255) / rm = ((c : ℤ) : K) by push_cast; field_simp, npRound_int]
  have := toU8_cast (z := (c : ℤ)) (by omega) (by omega)
  exact_mod_cast this

private theorem packRow_ok {row : List K} {rm : K} (h : rowMax row = .ok rm) (h0 : rm ≠ 0) :
    linearPackRow row = .ok (row.map (linearCode rm), rm) := by
  unfold linearPackRow
  rw [h]
  exact if_neg h0

/-- **C25.** Packing a row of non-negative values, one of them positive, succeeds; the reference is the largest value; the codes are at
most 255; unpacking changes no value by more than the reference / 510 and reproduces the largest value; larger values never
get smaller codes; packing the unpacked row gives the same codes and the same reference. -/
theorem C25_linear_packing (row : List K) (h0 : ∀ v ∈ row, 0 ≤ v) (hpos : ∃ v ∈ row, 0 < v) :
    ∃ codes rm, linearPackRow row = .ok (codes, rm) ∧ rm ∈ row ∧ (∀ v ∈ row, v ≤ rm) ∧
      codes.length = row.length ∧ (∀ c ∈ codes, c ≤ 255) ∧
      (∀ (i : ℕ) v u, row[i]? = some v → (linearUnpackRow codes rm)[i]? = some u → |u - v| ≤ rm / 510 ∧ (v = rm → u = v)) ∧
      (∀ (i j : ℕ) v w c d, row[i]? = some v → row[j]? = some w → codes[i]? = some c → codes[j]? = some d →
        v ≤ w → c ≤ d) ∧
      linearPackRow (linearUnpackRow codes rm) = .ok (codes, rm) := by
  obtain ⟨p, hp, hp0⟩ := hpos
  obtain ⟨rm, hrm⟩ := rowMax_exists (List.ne_nil_of_mem hp)
  obtain ⟨hmem, hmax⟩ := (rowMax_ok_iff _ _).1 hrm
  have hrm0 : 0 < rm := lt_of_lt_of_le hp0 (hmax p hp)
  refine ⟨row.map (linearCode rm), rm, packRow_ok hrm hrm0.ne', hmem, hmax, by simp, ?_, ?_, ?_, ?_⟩
  · intro c hc
    obtain ⟨v, _, rfl⟩ := List.mem_map.1 hc
    exact toU8_le _
  · intro i v u hv hu
    rw [linearUnpackRow, List.getElem?_map, List.getElem?_map, hv] at hu
    obtain rfl : rm * (linearCode rm v : K) / 255 = u := by simpa using hu
    have hvm := List.mem_of_getElem? hv
    refine ⟨code_err hrm0 (h0 v hvm) (hmax v hvm), ?_⟩
    rintro rfl
    rw [code_max hrm0]; push_cast; field_simp
  · intro i j v w c d hv hw hc hd hvw
    rw [List.getElem?_map, hv] at hc
    rw [List.getElem?_map, hw] at hd
    obtain rfl : linearCode rm v = c := by simpa using hc
    obtain rfl : linearCode rm w = d := by simpa using hd
    have hvm := List.mem_of_getElem? hv
    have hwm := List.mem_of_getElem? hw
    have a := code_cast hrm0 (h0 v hvm) (hmax v hvm)
    have b := code_cast hrm0 (h0 w hwm) (hmax w hwm)
    have : npRound (255 * v / rm) ≤ npRound (255 * w / rm) := npRound_mono (by gcongr)
    have h3 : (npRound (255 * v / rm) : K) ≤ (npRound (255 * w / rm) : K) := by exact_mod_cast this
    rw [← a, ← b] at h3
    exact_mod_cast h3
  · have hm2 : rowMax (linearUnpackRow (row.map (linearCode rm)) rm) = .ok rm := by
      rw [rowMax_ok_iff]
      constructor
      · rw [linearUnpackRow, List.mem_map]
        refine ⟨255, List.mem_map.2 ⟨rm, hmem, code_max hrm0⟩, ?_⟩
        push_cast; field_simp
      · intro u hu
        rw [linearUnpackRow, List.mem_map] at hu
        obtain ⟨c, hc, rfl⟩ := hu
        obtain ⟨v, _, rfl⟩ := List.mem_map.1 hc
        have : ((linearCode rm v : ℕ) : K) ≤ 255 := by exact_mod_cast toU8_le _
        rw [div_le_iff₀ (by norm_num)]
        exact mul_le_mul_of_nonneg_left this hrm0.le
    rw [packRow_ok hm2 hrm0.ne']
    congr 2
    rw [linearUnpackRow, List.map_map, List.map_map]
    apply List.map_congr_left
    intro v _
    exact code_code hrm0 _ (toU8_le _)

example : linearPackRow ([0, 1, 5/2, 10] : List ℚ) = .ok ([0, 26, 64, 255], 10) := by decide +kernel

end Linear

/-! ## C26 -/

section Log

/-- number before rounding: `255 * (log10((v + eps)/rm) + nf) / nf` -/
private noncomputable def logPos (lf rm v : ℝ) : ℝ :=
  255 * (Real.logb 10 ((v + (10 : ℝ) ^ (3 * lf)) / rm) + -1 * lf) / (-1 * lf)

private theorem logCode_cast (lf rm v : ℝ) : ((logCode lf rm v : ℕ) : ℤ) = max 0 (min 255 (npRound (logPos lf rm v))) := by
  unfold logCode
  exact toU8_cast (le_max_left _ _) (max_le (by norm_num) (min_le_left _ _))

private theorem eps_pos (lf : ℝ) : 0 < (10 : ℝ) ^ (3 * lf) := Real.rpow_pos_of_pos (by norm_num) _

private theorem logPos_mono {lf rm v w : ℝ} (hlf : lf < 0) (hrm : 0 < rm) (h0 : 0 ≤ v) (h : v ≤ w) :
    logPos lf rm v ≤ logPos lf rm w := by
  have he := eps_pos lf
  unfold logPos
  have : Real.logb 10 ((v + (10 : ℝ) ^ (3 * lf)) / rm) ≤ Real.logb 10 ((w + (10 : ℝ) ^ (3 * lf)) / rm) := by
    apply Real.logb_le_logb_of_le (by norm_num) (by positivity)
    gcongr
  have : (0 : ℝ) < -1 * lf := by linarith
  gcongr

private theorem logCode_mono {lf rm v w : ℝ} (hlf : lf < 0) (hrm : 0 < rm) (h0 : 0 ≤ v) (h : v ≤ w) :
    logCode lf rm v ≤ logCode lf rm w := by
  have : ((logCode lf rm v : ℕ) : ℤ) ≤ (logCode lf rm w : ℕ) := by
    rw [logCode_cast, logCode_cast]
    exact max_le_max le_rfl (min_le_min le_rfl (npRound_mono (logPos_mono hlf hrm h0 h)))
  exact_mod_cast this

/-- code 255 as soon as `v + eps ≥ rm` -/
private theorem logCode_top {lf rm v : ℝ} (hlf : lf < 0) (hrm : 0 < rm) (h : rm ≤ v + (10 : ℝ) ^ (3 * lf)) :
    logCode lf rm v = 255 := by
  have hl : 0 ≤ Real.logb 10 ((v + (10 : ℝ) ^ (3 * lf)) / rm) :=
    Real.logb_nonneg (by norm_num) ((one_le_div hrm).2 h)
  have hp : 255 ≤ logPos lf rm v := by
    unfold logPos
    rw [le_div_iff₀ (by linarith)]
    nlinarith
  have hr : (255 : ℤ) ≤ npRound (logPos lf rm v) := by
    have := npRound_mono hp
    rwa [show (255 : ℝ) = ((255 : ℤ) : ℝ) by simp, npRound_int] at this
  have := logCode_cast lf rm v
  rw [min_eq_left hr, max_eq_right (by norm_num)] at this
  exact_mod_cast this

/-- `rm * 10^(lf * (1 - t))` is the value at position `255 t` -/
private theorem logPos_eq_iff {lf rm v : ℝ} (hlf : lf < 0) (hrm : 0 < rm) (h0 : 0 ≤ v) (t : ℝ) :
    (255 * t < logPos lf rm v ↔ rm * (10 : ℝ) ^ (lf * (1 - t)) < v + (10 : ℝ) ^ (3 * lf)) ∧
    (255 * t ≤ logPos lf rm v ↔ rm * (10 : ℝ) ^ (lf * (1 - t)) ≤ v + (10 : ℝ) ^ (3 * lf)) := by
  have he := eps_pos lf
  have hpos : 0 < (v + (10 : ℝ) ^ (3 * lf)) / rm := by positivity
  have hn : (0 : ℝ) < -1 * lf := by linarith
  constructor
  · rw [mul_comm rm, ← lt_div_iff₀ hrm, ← Real.lt_logb_iff_rpow_lt (by norm_num) hpos, logPos, lt_div_iff₀ hn]
    constructor <;> intro h <;> linarith
  · rw [mul_comm rm, ← le_div_iff₀ hrm, ← Real.le_logb_iff_rpow_le (by norm_num) hpos, logPos, le_div_iff₀ hn]
    constructor <;> intro h <;> linarith

/-- **C26, value by value.** A value `0 ≤ v ≤ rm`, with `eps = 10^(3 log_floor)`, gets code 0, and is therefore unpacked as 0, exactly when
`v + eps ≤ rm * 10^(log_floor * (1 - 1/510))`; any other value is unpacked as `u` with
`v * 10^(log_floor/510) ≤ u ≤ (v + eps) * 10^(-log_floor/510)`: half a logarithmic step. -/
theorem C26_log_error {lf rm v : ℝ} (hlf : lf < 0) (hrm : 0 < rm) (h0 : 0 ≤ v) (h1 : v ≤ rm) :
    (logCode lf rm v = 0 ↔ v + (10 : ℝ) ^ (3 * lf) ≤ rm * (10 : ℝ) ^ (lf * (1 - 1/510))) ∧
    (logCode lf rm v = 0 → logValue lf rm (logCode lf rm v) = 0) ∧
    (logCode lf rm v ≠ 0 →
      v * (10 : ℝ) ^ (lf / 510) ≤ logValue lf rm (logCode lf rm v) ∧
      logValue lf rm (logCode lf rm v) ≤ (v + (10 : ℝ) ^ (3 * lf)) * (10 : ℝ) ^ (-lf / 510)) := by
  have hc := logCode_cast lf rm v
  have he := eps_pos lf
  refine ⟨?_, ?_, ?_⟩
  · rw [← not_lt, ← (logPos_eq_iff hlf hrm h0 (1/510)).1]
    have : (255 : ℝ) * (1/510) = 1/2 := by norm_num
    rw [this, ← npRound_pos_iff, not_le]
    constructor
    · intro h
      rw [h] at hc
      by_contra h2
      have h3 : 1 ≤ npRound (logPos lf rm v) := not_lt.1 h2
      have : (1 : ℤ) ≤ min 255 (npRound (logPos lf rm v)) := le_min (by norm_num) h3
      have := le_max_right (0 : ℤ) (min 255 (npRound (logPos lf rm v)))
      omega
    · intro h
      have : min 255 (npRound (logPos lf rm v)) ≤ 0 := (min_le_right _ _).trans (by omega)
      rw [max_eq_left this] at hc
      exact_mod_cast hc
  · intro h
    rw [h]; simp [logValue]
  · intro hne
    have hval : logValue lf rm (logCode lf rm v) = rm * (10 : ℝ) ^ (lf * (1 - (logCode lf rm v : ℝ) / 255)) := by
      simp only [logValue]
      rw [if_neg hne]
      congr 2; ring
    have hpos1 : 1 ≤ npRound (logPos lf rm v) := by
      by_contra h2
      have : min 255 (npRound (logPos lf rm v)) ≤ 0 := (min_le_right _ _).trans (by omega)
      rw [max_eq_left this] at hc
      exact hne (by exact_mod_cast hc)
    have hmax : ((logCode lf rm v : ℕ) : ℤ) = min 255 (npRound (logPos lf rm v)) := by
      rw [hc, max_eq_right]
      exact le_min (by norm_num) (by omega)
    set c : ℝ := (logCode lf rm v : ℝ) with hcdef
    -- code in reals
    have hcle : c ≤ (npRound (logPos lf rm v) : ℝ) := by
      have : ((logCode lf rm v : ℕ) : ℤ) ≤ npRound (logPos lf rm v) := by rw [hmax]; exact min_le_right _ _
      have h2 : (((logCode lf rm v : ℕ) : ℤ) : ℝ) ≤ (npRound (logPos lf rm v) : ℝ) := by exact_mod_cast this
      simpa [hcdef] using h2
    rw [hval]
    constructor
    · -- lower: v * 10^(lf/510) ≤ u
      have hle1 : (10 : ℝ) ^ (lf / 510) ≤ 1 := Real.rpow_le_one_of_one_le_of_nonpos (by norm_num) (by linarith)
      rcases le_or_gt 255 (npRound (logPos lf rm v)) with hbig | hsmall
      · have : c = 255 := by
          rw [min_eq_left hbig] at hmax
          have : logCode lf rm v = 255 := by exact_mod_cast hmax
          rw [hcdef, this]; norm_num
        rw [this]
        have : rm * (10 : ℝ) ^ (lf * (1 - 255 / 255)) = rm := by norm_num
        rw [this]
        calc v * (10 : ℝ) ^ (lf / 510) ≤ v * 1 := by gcongr
          _ ≤ rm := by linarith
      · have hceq : c = (npRound (logPos lf rm v) : ℝ) := by
          rw [min_eq_right hsmall.le] at hmax
          have : (((logCode lf rm v : ℕ) : ℤ) : ℝ) = (npRound (logPos lf rm v) : ℝ) := by exact_mod_cast hmax
          simpa [hcdef] using this
        -- logPos ≤ c + 1/2
        have hub : logPos lf rm v ≤ c + 1/2 := by rw [hceq]; linarith [le_npRound (logPos lf rm v)]
        have hv : v + (10 : ℝ) ^ (3 * lf) ≤ rm * (10 : ℝ) ^ (lf * (1 - (c + 1/2) / 255)) := by
          rw [← not_lt, ← (logPos_eq_iff hlf hrm h0 ((c + 1/2) / 255)).1, not_lt]
          rw [mul_div_cancel₀ _ (by norm_num : (255 : ℝ) ≠ 0)]; exact hub
        calc v * (10 : ℝ) ^ (lf / 510) ≤ (rm * (10 : ℝ) ^ (lf * (1 - (c + 1/2) / 255))) * (10 : ℝ) ^ (lf / 510) := by
              gcongr; linarith
          _ = rm * ((10 : ℝ) ^ (lf * (1 - (c + 1/2) / 255) + lf / 510)) := by
              rw [Real.rpow_add (by norm_num)]; ring
          _ = rm * (10 : ℝ) ^ (lf * (1 - c / 255)) := by congr 2; ring
          _ ≤ _ := le_rfl
    · have hlb : c - 1/2 ≤ logPos lf rm v := by linarith [npRound_le (logPos lf rm v)]
      have hv : rm * (10 : ℝ) ^ (lf * (1 - (c - 1/2) / 255)) ≤ v + (10 : ℝ) ^ (3 * lf) := by
        rw [← (logPos_eq_iff hlf hrm h0 ((c - 1/2) / 255)).2, mul_div_cancel₀ _ (by norm_num : (255 : ℝ) ≠ 0)]
        exact hlb
      calc rm * (10 : ℝ) ^ (lf * (1 - c / 255))
          = rm * (10 : ℝ) ^ (lf * (1 - (c - 1/2) / 255) + -lf / 510) := by congr 2; ring
        _ = (rm * (10 : ℝ) ^ (lf * (1 - (c - 1/2) / 255))) * (10 : ℝ) ^ (-lf / 510) := by
            rw [Real.rpow_add (by norm_num)]; ring
        _ ≤ _ := by gcongr

theorem logPackRow_ok {lf : ℝ} {row : List ℝ} {rm : ℝ} (hlf : lf < 0) (hv : ∀ v ∈ row, 0 ≤ v) (h : rowMax row = .ok rm) (h0 : 0 < rm) :
    logPackRow lf row = .ok (row.map (logCode lf rm), rm) := by
  unfold logPackRow
  rw [h]
  refine if_neg ?_
  simp only [h0.ne', hlf.ne, false_or, List.any_eq_true, decide_eq_true_eq, not_exists, not_and, not_le]
  intro v hm
  have : (0 : ℝ) < (10 : ℝ) ^ (3 * lf) := by positivity
  have := hv v hm
  positivity

/-- **C26 (partial).** Log packing of a row of non-negative values with a positive one: the codes are at most 255, larger values never
get smaller codes, the largest value gets code 255 and is reproduced, code 0 is unpacked as 0; a zero is reproduced when the row
maximum is at least `10^(2 log_floor)`; a value `v` with `v + eps > rm * 10^(log_floor * (1 - 1/510))` is reproduced within half
a logarithmic step, up to the additive `eps = 10^(3 log_floor)`. Missing: the values between the floor `rm * 10^log_floor`
and half a step above it, which are unpacked as 0 (`C26_above_floor_lost`), and rows whose maximum is not large compared to
`eps`, whose small values are inflated (`C26_small_rows_wrong`). -/
theorem C26_log_packing_partial {lf : ℝ} (hlf : lf < 0) (row : List ℝ) (h0 : ∀ v ∈ row, 0 ≤ v) (hpos : ∃ v ∈ row, 0 < v) :
    ∃ codes rm, logPackRow lf row = .ok (codes, rm) ∧ rm ∈ row ∧ (∀ v ∈ row, v ≤ rm) ∧
      codes.length = row.length ∧ (∀ c ∈ codes, c ≤ 255) ∧
      (∀ (i j : ℕ) v w c d, row[i]? = some v → row[j]? = some w → codes[i]? = some c → codes[j]? = some d →
        v ≤ w → c ≤ d) ∧
      (∀ (i : ℕ) v c u, row[i]? = some v → codes[i]? = some c → (logUnpackRow lf codes rm)[i]? = some u →
        (c = 0 → u = 0) ∧ (v = rm → c = 255 ∧ u = rm) ∧
        (v = 0 → (10 : ℝ) ^ (2 * lf) ≤ rm → u = 0) ∧
        (rm * (10 : ℝ) ^ (lf * (1 - 1/510)) < v + (10 : ℝ) ^ (3 * lf) →
          v * (10 : ℝ) ^ (lf / 510) ≤ u ∧ u ≤ (v + (10 : ℝ) ^ (3 * lf)) * (10 : ℝ) ^ (-lf / 510))) := by
  obtain ⟨p, hp, hp0⟩ := hpos
  obtain ⟨rm, hrm⟩ := rowMax_exists (List.ne_nil_of_mem hp)
  obtain ⟨hmem, hmax⟩ := (rowMax_ok_iff _ _).1 hrm
  have hrm0 : 0 < rm := lt_of_lt_of_le hp0 (hmax p hp)
  refine ⟨row.map (logCode lf rm), rm, logPackRow_ok hlf h0 hrm hrm0, hmem, hmax, by simp, ?_, ?_, ?_⟩
  · intro c hc
    obtain ⟨v, _, rfl⟩ := List.mem_map.1 hc
    exact toU8_le _
  · intro i j v w c d hv hw hc hd hvw
    rw [List.getElem?_map, hv] at hc
    rw [List.getElem?_map, hw] at hd
    obtain rfl : logCode lf rm v = c := by simpa using hc
    obtain rfl : logCode lf rm w = d := by simpa using hd
    exact logCode_mono hlf hrm0 (h0 v (List.mem_of_getElem? hv)) hvw
  · intro i v c u hv hc hu
    rw [logUnpackRow, List.getElem?_map, hc] at hu
    rw [List.getElem?_map, hv] at hc
    obtain rfl : logCode lf rm v = c := by simpa using hc
    obtain rfl : logValue lf rm (logCode lf rm v) = u := by simpa using hu
    have hvm := List.mem_of_getElem? hv
    obtain ⟨ha, hb, hd⟩ := C26_log_error hlf hrm0 (h0 v hvm) (hmax v hvm)
    refine ⟨hb, ?_, ?_, ?_⟩
    · rintro rfl
      have : logCode lf v v = 255 := logCode_top hlf hrm0 (by linarith [eps_pos lf])
      refine ⟨this, ?_⟩
      rw [this]; simp [logValue]
    · rintro rfl hbig
      apply hb
      rw [ha, zero_add]
      calc (10 : ℝ) ^ (3 * lf) ≤ (10 : ℝ) ^ (2 * lf + lf * (1 - 1/510)) := by
            apply Real.rpow_le_rpow_of_exponent_le (by norm_num); linarith
        _ = (10 : ℝ) ^ (2 * lf) * (10 : ℝ) ^ (lf * (1 - 1/510)) := by rw [Real.rpow_add (by norm_num)]
        _ ≤ rm * (10 : ℝ) ^ (lf * (1 - 1/510)) := by gcongr
    · intro h
      exact hd (fun hc0 => absurd (ha.1 hc0) (not_le.2 h))

example : ∃ codes rm, logPackRow (-3) [0, 1/2, 1] = .ok (codes, rm) :=
  let ⟨c, rm, h, _⟩ := C26_log_packing_partial (lf := -3) (by norm_num) [0, 1/2, 1]
    (by intro v hv; simp at hv; rcases hv with rfl | rfl | rfl <;> norm_num) ⟨1, by simp, by norm_num⟩
  ⟨c, rm, h⟩

private theorem pow10_neg9 : (10 : ℝ) ^ (3 * (-3) : ℝ) = 1 / 1000000000 := by
  rw [show (3 * (-3) : ℝ) = -((9 : ℕ) : ℝ) by norm_num, Real.rpow_neg (by norm_num), Real.rpow_natCast]
  norm_num

/-- **C26 is violated just above the floor**: with the default floor, a row with maximum 1 and a value 0.001 = 10^-3 loses that value
(unpacked as 0). -/
theorem C26_above_floor_lost :
    (1 : ℝ) * (10 : ℝ) ^ (-3 : ℝ) ≤ 1/1000 ∧ logCode (-3) 1 (1/1000) = 0 ∧ logValue (-3) 1 (logCode (-3) 1 (1/1000)) = 0 := by
  have h3 : (10 : ℝ) ^ (-3 : ℝ) = 1/1000 := by
    rw [show (-3 : ℝ) = -((3 : ℕ) : ℝ) by norm_num, Real.rpow_neg (by norm_num), Real.rpow_natCast]; norm_num
  have hcode : logCode (-3) 1 (1/1000) = 0 := by
    rw [(C26_log_error (by norm_num) (by norm_num) (by norm_num) (by norm_num)).1, pow10_neg9, one_mul,
      show ((-3 : ℝ) * (1 - 1/510)) = -3 + 1/170 by norm_num, Real.rpow_add (by norm_num), h3]
    have : (101/100 : ℝ) ≤ (10 : ℝ) ^ (1/170 : ℝ) := by
      rw [Real.le_rpow_iff_log_le (by norm_num) (by norm_num)]
      rw [div_mul_eq_mul_div, one_mul, le_div_iff₀ (by norm_num), mul_comm,
        show (170 : ℝ) = ((170 : ℕ) : ℝ) by norm_num, ← Real.log_pow]
      apply Real.log_le_log (by positivity)
      norm_num
    linarith
  refine ⟨by rw [one_mul, h3], hcode, ?_⟩
  rw [hcode]; simp [logValue]

/-- **C26 is violated for rows of small values**: with the default floor, a row whose maximum is `10^-9` has every value, even 0, packed as 255
and unpacked as the maximum. -/
theorem C26_small_rows_wrong (v : ℝ) (h0 : 0 ≤ v) :
    logCode (-3) (1/1000000000) v = 255 ∧ logValue (-3) (1/1000000000) (logCode (-3) (1/1000000000) v) = 1/1000000000 := by
  have : logCode (-3) (1/1000000000) v = 255 := logCode_top (by norm_num) (by norm_num) (by rw [pow10_neg9]; linarith)
  refine ⟨this, ?_⟩
  rw [this]; simp [logValue]

end Log

/-! ## C27 -/

/-- **C27: unknown types.** Both directions raise `ValueError` exactly for what is not a member of the enumeration (given some
rows to work on that can be packed). -/
theorem C27_unknown (t : PackArg) (h : ∀ m, t ≠ .member m) (rows : List (List ℝ)) (packed : List (List ℕ × ℝ)) (lf : Option ℝ) :
    packArray t rows lf = .error .ValueError ∧ unpackArray t packed lf = .error .ValueError := by
  simp [packArray, unpackArray, h]

/-- **C27: the packed class** accepts the members and their numbers, and nothing else; a member survives being stored as a number. -/
theorem C27_class (t : PackArg) (packed : List (List ℕ × ℝ)) (lf : Option ℝ) :
    (∀ m, t = .member m ∨ t = .num m.value →
      packedYvals t packed lf = unpackArray (.member m) packed lf ∧
      ∃ ys, packedYvals t packed lf = .ok ys ∧ ys.map List.length = packed.map fun p => p.1.length) ∧
    ((∀ m : PackingType, t ≠ .member m ∧ t ≠ .num m.value) → packedYvals t packed lf = .error .ValueError) := by
  have hlf : ∀ m : PackArg, unpackArray m packed (some (lf.getD (-3))) = unpackArray m packed lf := by
    intro m; simp [unpackArray]
  constructor
  · intro m hm
    have e : packedYvals t packed lf = unpackArray (.member m) packed lf := by
      rcases hm with rfl | rfl <;> cases m
      · exact hlf (.member .linear_from_rowmax)
      · exact hlf (.member .log_from_rowmax)
      · exact hlf (.member .linear_from_rowmax)
      · exact hlf (.member .log_from_rowmax)
    refine ⟨e, ?_⟩
    rw [e]
    cases m
    · refine ⟨_, rfl, ?_⟩
      rw [List.map_map]; apply List.map_congr_left; intro p _; simp [linearUnpackRow]
    · refine ⟨packed.map fun p => logUnpackRow (lf.getD (-3)) p.1 p.2, by simp [unpackArray], ?_⟩
      rw [List.map_map]; apply List.map_congr_left; intro p _; simp [logUnpackRow]
  · intro h
    cases t with
    | member m => exact absurd rfl (h m).1
    | other => rfl
    | num n =>
      have h0 : n ≠ 0 := fun hn => (h .linear_from_rowmax).2 (by rw [hn]; rfl)
      have h1 : n ≠ 1 := fun hn => (h .log_from_rowmax).2 (by rw [hn]; rfl)
      have : PackingType.ofValue (.num n) = .error .ValueError := by
        unfold PackingType.ofValue
        split <;> simp_all
      simp only [packedYvals, storedType, this]; rfl

/-- every row is non-negative and has a positive value -/
def Packable (rows : List (List ℝ)) : Prop := ∀ r ∈ rows, (∀ v ∈ r, 0 ≤ v) ∧ ∃ v ∈ r, 0 < v

private theorem mapM_ok_get {α β : Type*} (f : α → Except Err β) : ∀ (l : List α) (out : List β), l.mapM f = .ok out →
    out.length = l.length ∧ ∀ (i : ℕ) a, l[i]? = some a → ∃ b, out[i]? = some b ∧ f a = .ok b := by
  intro l
  induction l with
  | nil => intro out h; simp [pure, Except.pure] at h; subst h; simp
  | cons a t ih =>
    intro out h
    rw [List.mapM_cons] at h
    cases ha : f a with
    | error e => rw [ha] at h; simp [bind, Except.bind] at h
    | ok b =>
      rw [ha] at h
      cases ht : t.mapM f with
      | error e => rw [ht] at h; simp [bind, Except.bind] at h
      | ok bs =>
        rw [ht] at h
        obtain rfl : b :: bs = out := by simpa [bind, Except.bind, pure, Except.pure] using h
        obtain ⟨h1, h2⟩ := ih bs ht
        refine ⟨by simp [h1], ?_⟩
        intro i x hx
        cases i with
        | zero => simp at hx; subst hx; exact ⟨b, by simp, ha⟩
        | succ i => simpa using h2 i x (by simpa using hx)

private theorem mapM_ok_of {α β : Type*} (f : α → Except Err β) : ∀ (l : List α), (∀ a ∈ l, ∃ b, f a = .ok b) →
    ∃ out, l.mapM f = .ok out := by
  intro l
  induction l with
  | nil => intro _; exact ⟨[], rfl⟩
  | cons a t ih =>
    intro h
    obtain ⟨b, hb⟩ := h a (by simp)
    obtain ⟨bs, hbs⟩ := ih fun x hx => h x (by simp [hx])
    exact ⟨b :: bs, by rw [List.mapM_cons, hb, hbs]; rfl⟩

/-- **C27: packing and unpacking with the same type use matching codecs.** Converting packable rows to a packed ensemble with either member and any
negative floor succeeds, keeps the shape, and each unpacked value is within the error bound of that codec: `rm/510` for the linear
one, half a logarithmic step (up to `eps`, above the cut) for the logarithmic one, where `rm` is the maximum of its row. -/
theorem C27_matching (m : PackingType) (rows : List (List ℝ)) (hr : Packable rows) (lf : Option ℝ) (hlf : lf.getD (-3) < 0) :
    ∃ out, convertPacked (.member m) rows lf = .ok out ∧ out.length = rows.length ∧
      ∀ (i j : ℕ) r v, rows[i]? = some r → r[j]? = some v → ∃ o u rm, out[i]? = some o ∧ o.length = r.length ∧ o[j]? = some u ∧
        rowMax r = .ok rm ∧
        match m with
        | .linear_from_rowmax => |u - v| ≤ rm / 510
        | .log_from_rowmax =>
          rm * (10 : ℝ) ^ (lf.getD (-3) * (1 - 1/510)) < v + (10 : ℝ) ^ (3 * lf.getD (-3)) →
          v * (10 : ℝ) ^ (lf.getD (-3) / 510) ≤ u ∧ u ≤ (v + (10 : ℝ) ^ (3 * lf.getD (-3))) * (10 : ℝ) ^ (-lf.getD (-3) / 510) := by
  cases m with
  | linear_from_rowmax =>
    have hall : ∀ r ∈ rows, ∃ b, linearPackRow r = .ok b := by
      intro r hm
      obtain ⟨c, rm, h, _⟩ := C25_linear_packing r (hr r hm).1 (hr r hm).2
      exact ⟨_, h⟩
    obtain ⟨packed, hp⟩ := mapM_ok_of _ rows hall
    obtain ⟨hlen, hget⟩ := mapM_ok_get _ rows packed hp
    refine ⟨packed.map fun p => linearUnpackRow p.1 p.2, ?_, by simp [hlen], ?_⟩
    · have h1 : packArray (.member .linear_from_rowmax) rows lf = .ok packed := hp
      simp only [convertPacked, h1]; rfl
    · intro i j r v hri hrj
      obtain ⟨b, hb, hbr⟩ := hget i r hri
      have hrm := List.mem_of_getElem? hri
      obtain ⟨codes, rm, h, hmem, hmax, hl, _, herr, _⟩ := C25_linear_packing r (hr r hrm).1 (hr r hrm).2
      obtain rfl : b = (codes, rm) := by rw [h] at hbr; simpa using hbr.symm
      have hjl : j < r.length := (List.getElem?_eq_some_iff.1 hrj).1
      have hjl2 : j < (linearUnpackRow codes rm).length := by simp [linearUnpackRow, hl, hjl]
      refine ⟨linearUnpackRow codes rm, (linearUnpackRow codes rm)[j], rm, by simp [hb], by simp [linearUnpackRow, hl],
        List.getElem?_eq_getElem hjl2, (rowMax_ok_iff _ _).2 ⟨hmem, hmax⟩, ?_⟩
      exact (herr j v _ hrj (List.getElem?_eq_getElem hjl2)).1
  | log_from_rowmax =>
    set f := lf.getD (-3) with hf
    have hall : ∀ r ∈ rows, ∃ b, logPackRow f r = .ok b := by
      intro r hm
      obtain ⟨c, rm, h, _⟩ := C26_log_packing_partial hlf r (hr r hm).1 (hr r hm).2
      exact ⟨_, h⟩
    obtain ⟨packed, hp⟩ := mapM_ok_of _ rows hall
    obtain ⟨hlen, hget⟩ := mapM_ok_get _ rows packed hp
    refine ⟨packed.map fun p => logUnpackRow f p.1 p.2, ?_, by simp [hlen], ?_⟩
    · have h1 : packArray (.member .log_from_rowmax) rows lf = .ok packed := by
        simp only [packArray, ← hf]; simpa using hp
      simp only [convertPacked, h1]
      rfl
    · intro i j r v hri hrj
      obtain ⟨b, hb, hbr⟩ := hget i r hri
      have hrm := List.mem_of_getElem? hri
      obtain ⟨codes, rm, h, hmem, hmax, hl, _, _, herr⟩ := C26_log_packing_partial hlf r (hr r hrm).1 (hr r hrm).2
      obtain rfl : b = (codes, rm) := by rw [h] at hbr; simpa using hbr.symm
      have hjl : j < r.length := (List.getElem?_eq_some_iff.1 hrj).1
      have hjl2 : j < (logUnpackRow f codes rm).length := by simp [logUnpackRow, hl, hjl]
      refine ⟨logUnpackRow f codes rm, (logUnpackRow f codes rm)[j], rm, by simp [hb], by simp [logUnpackRow, hl],
        List.getElem?_eq_getElem hjl2, (rowMax_ok_iff _ _).2 ⟨hmem, hmax⟩, ?_⟩
      exact (herr j v _ _ hrj (List.getElem?_eq_getElem (by omega)) (List.getElem?_eq_getElem hjl2)).2.2.2

example : Packable [[0, 1, 1/2], [3, 0, 0]] := by
  intro r hr
  simp only [List.mem_cons, List.not_mem_nil, or_false] at hr
  rcases hr with rfl | rfl
  · exact ⟨by intro v hv; simp at hv; rcases hv with rfl | rfl | rfl <;> norm_num, 1, by simp, by norm_num⟩
  · exact ⟨by intro v hv; simp at hv; rcases hv with rfl | rfl <;> norm_num, 3, by simp, by norm_num⟩

end Verif.Props.Packing
