import Verif.Props.PaddingInterp
import Verif.Model.PackedPdf
import Verif.Props.Mirror

/-!
# C130: grid points with value zero around a packed PDF
-/

set_option linter.unusedSectionVars false
set_option autoImplicit false

namespace Verif.Props.Refine

open Verif Verif.Np Verif.Model Verif.Lemmas Verif.Spec Verif.Props.InterpPdf

section

variable {K : Type} [Field K] [LinearOrder K] [IsStrictOrderedRing K]

theorem ZeroPadded.map {h h' : List K × List K} (hz : ZeroPadded h h') (f : K → K) (h0 : f 0 = 0) : ZeroPadded (h.1, h.2.map f) (h'.1, h'.2.map f) := by
  induction hz with
  | refl => exact Relation.ReflTransGen.refl
  | tail _ hs ih =>
    refine ih.tail ?_
    cases hs with
    | left a b xs ys h => simpa [h0] using ZeroPad.left a b xs (ys.map f) h
    | right z xs ys h hl =>
      have := ZeroPad.right z xs (ys.map f) h (by rw [List.getLast?_map, hl, Option.map_some, h0])
      simpa [h0] using this

theorem ZeroPadded.mem {h h' : List K × List K} (hz : ZeroPadded h h') (v : K) : v ∈ h'.2 ↔ v ∈ h.2 := by
  induction hz with
  | refl => rfl
  | tail _ hs ih =>
    rw [← ih]
    cases hs with
    | left a b xs ys h => simp
    | right z xs ys h hl =>
      have hm : (0 : K) ∈ ys := List.mem_of_getLast? hl
      simp only [List.mem_append, List.mem_singleton]
      exact ⟨fun h => h.elim id (fun h => h ▸ hm), Or.inl⟩

theorem ZeroPadded.rowMax {h h' : List K × List K} (hz : ZeroPadded h h') {m : K} (hm : Np.rowMax h.2 = .ok m) : Np.rowMax h'.2 = .ok m := by
  rw [rowMax_ok_iff] at hm ⊢
  simpa only [hz.mem] using hm

end

/-- `codes` with the positions -/
def asReal (codes : List ℕ) : List ℝ := codes.map fun (n : ℕ) => (n : ℝ)

theorem unpack_zero (t : PackingType) (lf rm : ℝ) : ∃ f : ℝ → ℝ, f 0 = 0 ∧ ∀ codes, unpackRow t lf codes rm = (asReal codes).map f := by
  cases t with
  | linear_from_rowmax =>
    refine ⟨fun v => rm * v / 255, by simp, fun codes => ?_⟩
    simp [unpackRow, linearUnpackRow, asReal]
  | log_from_rowmax =>
    refine ⟨fun v => logValue lf rm ⌊v⌋₊, by simp [logValue], fun codes => ?_⟩
    simp [unpackRow, logUnpackRow, asReal]

/-- **C130: zeros around a packed PDF.** Where the codes at the ends of the grid are zero, adding grid points with code zero beyond the ends keeps the density
and the CDF everywhere and the PPF for all probabilities from zero to below one, with either packing. -/
theorem C130_packed_padding (t : PackingType) (lf rm : ℝ) {xs xs' : List ℝ} {codes codes' : List ℕ} {st : List ℝ × List ℝ}
    (hz : ZeroPadded (xs, asReal codes) (xs', asReal codes')) (hg : XGrid xs codes.length) (hp : packedState t lf xs codes rm = .ok (some st)) :
    XGrid xs' codes'.length ∧ ∃ st', packedState t lf xs' codes' rm = .ok (some st') ∧ (∀ x, packedPdf xs' st' x = packedPdf xs st x) ∧
      (∀ x, packedCdf xs' st' x = packedCdf xs st x) ∧ ∀ q, 0 ≤ q → q < 1 → packedPpf xs' st' q = packedPpf xs st q := by
  obtain ⟨f, f0, hf⟩ := unpack_zero t lf rm
  have hz' := hz.map f f0
  simp only [← hf] at hz'
  have hlen : ∀ codes, (unpackRow t lf codes rm).length = codes.length := fun codes => by rw [hf]; simp [asReal]
  obtain ⟨ys, c⟩ := st
  obtain ⟨h1, ys', c', h2, h3, h4, h5⟩ := C130_interp_padding hz' (by rw [hlen]; exact hg) hp
  rw [hlen] at h1
  refine ⟨h1, (ys', c'), h2, h3, h4, fun q h0 hq => ?_⟩
  have := h5 q h0 hq
  cases xs <;> cases xs' <;> exact this

/-- the triangle again: codes 0, 255, 0 with the largest value 2 -/
theorem C130_packed_padding_example : ZeroPadded (([1, 2, 3] : List ℝ), asReal [0, 255, 0]) ([0, 1, 2, 3, 5], asReal [0, 0, 255, 0, 0]) ∧
    XGrid ([1, 2, 3] : List ℝ) [0, 255, 0].length ∧
    packedState .linear_from_rowmax 0 [1, 2, 3] [0, 255, 0] 2 = .ok (some ([0, 1, 0], [0, 1/2, 1])) ∧
    packedState .log_from_rowmax (-3) [1, 2, 3] [0, 255, 0] 2 = .ok (some ([0, 1, 0], [0, 1/2, 1])) := by
  refine ⟨?_, ⟨by norm_num, rfl, by decide⟩, ?_, ?_⟩
  · have h1 : ZeroPad (([1, 2, 3] : List ℝ), [0, 255, 0]) ([0, 1, 2, 3], [0, 0, 255, 0]) := ZeroPad.left 0 1 [2, 3] [255, 0] (by norm_num)
    have h2 : ZeroPad (([0, 1, 2, 3] : List ℝ), [0, 0, 255, 0]) ([0, 1, 2, 3, 5], [0, 0, 255, 0, 0]) :=
      ZeroPad.right 5 [0, 1, 2, 3] [0, 0, 255, 0] (by norm_num) rfl
    simpa [asReal, ZeroPadded] using (Relation.ReflTransGen.single h1).tail h2
  · norm_num [packedState, unpackRow, linearUnpackRow, interpNormRow, interpCumul, trapezoids, cumsum, cumsumFrom]
  · norm_num [packedState, unpackRow, logUnpackRow, logValue, interpNormRow, interpCumul, trapezoids, cumsum, cumsumFrom]

/-- **C130: zeros around a PDF to be packed.** Converting the same PDF on a grid with more points of value zero beyond the ends gives a packed PDF with the
same density, CDF and PPF (linear packing). -/
theorem C130_pack_padding {xs row xs' row' : List ℝ} {st : List ℝ × List ℝ} (hz : ZeroPadded (xs, row) (xs', row')) (hg : XGrid xs row.length)
    (hp : packedFromVals xs row = .ok (some st)) :
    XGrid xs' row'.length ∧ ∃ st', packedFromVals xs' row' = .ok (some st') ∧ (∀ x, packedPdf xs' st' x = packedPdf xs st x) ∧
      (∀ x, packedCdf xs' st' x = packedCdf xs st x) ∧ ∀ q, 0 ≤ q → q < 1 → packedPpf xs' st' q = packedPpf xs st q := by
  unfold packedFromVals linearPackRow at hp
  cases hm : Np.rowMax row with
  | error e => rw [hm] at hp; cases hp
  | ok m =>
    rw [hm] at hp
    by_cases h0 : m = 0
    · rw [h0] at hp
      simp [bind, Except.bind] at hp
    · simp only [bind, Except.bind, if_neg h0] at hp
      have hm' := hz.rowMax hm
      simp only at hm'
      have hc0 : ((linearCode m (0 : ℝ) : ℕ) : ℝ) = 0 := by simp [linearCode, npRound, toU8]
      have hz' := hz.map (fun v => ((linearCode m v : ℕ) : ℝ)) hc0
      have e : ∀ r : List ℝ, r.map (fun v => ((linearCode m v : ℕ) : ℝ)) = asReal (r.map (linearCode m)) := fun r => by simp [asReal]
      simp only [e] at hz'
      obtain ⟨h1, st', h2, h3⟩ := C130_packed_padding .linear_from_rowmax 0 m hz' (by simpa using hg) hp
      refine ⟨by simpa using h1, st', ?_, h3⟩
      unfold packedFromVals linearPackRow
      rw [hm']
      simp only [bind, Except.bind, if_neg h0]
      exact h2

/-- a value of zero gets the code zero unless the row is very small throughout -/
theorem logCode_zero {lf rm : ℝ} (hlf : lf < 0) (hrm : (10 : ℝ) ^ (2 * lf) ≤ rm) : logCode lf rm 0 = 0 := by
  have h10 : (0 : ℝ) < (10 : ℝ) ^ (2 * lf) := Real.rpow_pos_of_pos (by norm_num) _
  have hr0 : 0 < rm := h10.trans_le hrm
  have hl : 2 * lf ≤ Real.logb 10 rm := by
    rw [Real.le_logb_iff_rpow_le (by norm_num) hr0]
    exact hrm
  have he : Real.logb 10 ((0 + (10 : ℝ) ^ (3 * lf)) / rm) = 3 * lf - Real.logb 10 rm := by
    rw [zero_add, Real.logb_div (Real.rpow_pos_of_pos (by norm_num) _).ne' hr0.ne', Real.logb_rpow (by norm_num) (by norm_num)]
  have hx : 255 * (Real.logb 10 ((0 + (10 : ℝ) ^ (3 * lf)) / rm) + -1 * lf) / (-1 * lf) ≤ 0 := by
    rw [he]
    apply div_nonpos_of_nonpos_of_nonneg <;> linarith
  have hn : npRound (255 * (Real.logb 10 ((0 + (10 : ℝ) ^ (3 * lf)) / rm) + -1 * lf) / (-1 * lf)) ≤ 0 := by
    by_contra hc
    have h1 := npRound_abs (255 * (Real.logb 10 ((0 + (10 : ℝ) ^ (3 * lf)) / rm) + -1 * lf) / (-1 * lf))
    have h2 : (1 : ℝ) ≤ (npRound (255 * (Real.logb 10 ((0 + (10 : ℝ) ^ (3 * lf)) / rm) + -1 * lf) / (-1 * lf)) : ℝ) := by
      exact_mod_cast not_le.1 hc
    rw [abs_le] at h1
    linarith [h1.2]
  unfold logCode
  dsimp only
  rw [max_eq_left ((min_le_right _ _).trans hn)]
  rfl

/-- **C130: zeros around a PDF to be packed logarithmically.** The same for logarithmic packing, if the values of the PDF are not all below the square of the
smallest ratio that the packing keeps (otherwise zero does not get the code zero). -/
theorem C130_log_pack_padding {lf : ℝ} (hlf : lf < 0) {xs row xs' row' : List ℝ} {st : List ℝ × List ℝ} (hz : ZeroPadded (xs, row) (xs', row'))
    (hg : XGrid xs row.length) (hbig : ∃ v ∈ row, (10 : ℝ) ^ (2 * lf) ≤ v) (hp : logPackedFromVals lf xs row = .ok (some st)) :
    XGrid xs' row'.length ∧ ∃ st', logPackedFromVals lf xs' row' = .ok (some st') ∧ (∀ x, packedPdf xs' st' x = packedPdf xs st x) ∧
      (∀ x, packedCdf xs' st' x = packedCdf xs st x) ∧ ∀ q, 0 ≤ q → q < 1 → packedPpf xs' st' q = packedPpf xs st q := by
  unfold logPackedFromVals logPackRow at hp
  cases hm : Np.rowMax row with
  | error e => rw [hm] at hp; cases hp
  | ok m =>
    rw [hm] at hp
    have hm' := hz.rowMax hm
    simp only at hm'
    have hany : (row'.any fun v => decide ((v + (10 : ℝ) ^ (3 * lf)) / m ≤ 0)) = row.any fun v => decide ((v + (10 : ℝ) ^ (3 * lf)) / m ≤ 0) := by
      rw [Bool.eq_iff_iff, List.any_eq_true, List.any_eq_true]
      exact ⟨fun ⟨v, h1, h2⟩ => ⟨v, (hz.mem v).1 h1, h2⟩, fun ⟨v, h1, h2⟩ => ⟨v, (hz.mem v).2 h1, h2⟩⟩
    simp only [bind, Except.bind] at hp
    split_ifs at hp with h0
    have hmb : (10 : ℝ) ^ (2 * lf) ≤ m := by
      obtain ⟨v, hv, hv2⟩ := hbig
      exact hv2.trans (((rowMax_ok_iff _ _).1 hm).2 v hv)
    have hc0 : ((logCode lf m 0 : ℕ) : ℝ) = 0 := by rw [logCode_zero hlf hmb, Nat.cast_zero]
    have hz' := hz.map (fun v => ((logCode lf m v : ℕ) : ℝ)) hc0
    have e : ∀ r : List ℝ, r.map (fun v => ((logCode lf m v : ℕ) : ℝ)) = asReal (r.map (logCode lf m)) := fun r => by simp [asReal]
    simp only [e] at hz'
    obtain ⟨h1, st', h2, h3⟩ := C130_packed_padding .log_from_rowmax lf m hz' (by simpa using hg) hp
    refine ⟨by simpa using h1, st', ?_, h3⟩
    unfold logPackedFromVals logPackRow
    rw [hm']
    simp only [bind, Except.bind, hany]
    rw [if_neg h0]
    exact h2

/-- if all values are that small, zero can get the largest code: with `log_floor` -1 and largest value 1/1000, zero is packed like the largest value -/
theorem C130_log_pack_small_changes : logCode (-1) (1 / 1000) 0 = 255 ∧ logCode (-1) (1 / 1000) (1 / 1000) = 255 := by
  have h3 : (10 : ℝ) ^ (3 * (-1 : ℝ)) = 1 / 1000 := by
    rw [show (3 * (-1 : ℝ)) = ((-3 : ℤ) : ℝ) by norm_num, Real.rpow_intCast]
    norm_num
  have h255 : npRound (255 : ℝ) = 255 := by exact_mod_cast npRound_int (K := ℝ) 255
  constructor
  · unfold logCode
    dsimp only
    rw [h3, zero_add, div_self (by norm_num), Real.logb_one]
    norm_num [h255, toU8]
    rfl
  · unfold logCode
    dsimp only
    rw [h3, show ((1 : ℝ) / 1000 + 1 / 1000) / (1 / 1000) = 2 by norm_num]
    have h2 : 0 ≤ Real.logb 10 2 := Real.logb_nonneg (by norm_num) (by norm_num)
    have hm : (255 : ℤ) ≤ npRound (255 * (Real.logb 10 2 + -1 * (-1 : ℝ)) / (-1 * (-1))) := by
      rw [← h255]
      apply npRound_mono
      norm_num
      linarith
    rw [min_eq_left hm]
    rfl

/-- the triangle satisfies the hypotheses for logarithmic packing -/
theorem C130_log_pack_padding_example : ∃ v ∈ ([0, 2, 0] : List ℝ), (10 : ℝ) ^ (2 * (-3 : ℝ)) ≤ v := by
  refine ⟨2, by simp, ?_⟩
  rw [show (2 * (-3 : ℝ)) = ((-6 : ℤ) : ℝ) by norm_num, Real.rpow_intCast]
  norm_num

end Verif.Props.Refine
