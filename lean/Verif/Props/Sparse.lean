import Verif.Model.Sparse
import Mathlib.Tactic.FieldSimp
import Mathlib.Tactic.Ring
import Mathlib.Tactic.Linarith
import Mathlib.Tactic.LinearCombination
import Mathlib.Algebra.Order.Ring.Rat
import Mathlib.Data.Rat.Floor

/-!
# C28, C29, C31: sparse integer codec, basis indices, weights
-/

set_option linter.unusedSectionVars false
set_option autoImplicit false

namespace Verif.Props.Sparse

open Verif Verif.Np Verif.Model

/-! ## C28 -/

private theorem lor_low (n : ℕ) : ∀ (c b : ℤ), 0 ≤ b → b < 2 ^ n → Int.lor (c * 2 ^ n) b = c * 2 ^ n + b := by
  induction n with
  | zero =>
    intro c b h0 h1
    have : b = 0 := by simp at h1; omega
    subst this
    cases hc : (c * 2 ^ 0) <;> simp [Int.lor, Nat.ldiff]
  | succ n ih =>
    intro c b h0 h1
    have e1 : c * 2 ^ (n + 1) = Int.bit false (c * 2 ^ n) := by rw [Int.bit_val]; simp; ring
    have e2 : b = Int.bit b.bodd b.div2 := (Int.bit_decomp b).symm
    have h3 : b = 2 * b.div2 + bif b.bodd then 1 else 0 := by rw [← Int.bit_val]; exact e2
    have h4 : (0 : ℤ) ≤ (bif b.bodd then 1 else 0) ∧ (bif b.bodd then (1 : ℤ) else 0) ≤ 1 := by cases b.bodd <;> simp
    have hp : (2 : ℤ) ^ (n + 1) = 2 * 2 ^ n := by ring
    rw [e1]
    conv_lhs => rw [e2]
    rw [Int.lor_bit, ih c b.div2 (by omega) (by omega), Bool.false_or, Int.bit_val, Int.bit_val]
    conv_rhs => rw [h3]
    simp; ring

private theorem land_low (n : ℕ) : ∀ x : ℤ, Int.land x (2 ^ n - 1) = x % 2 ^ n := by
  induction n with
  | zero => intro x; cases x <;> simp [Int.land, Nat.ldiff]
  | succ n ih =>
    intro x
    have e1 : (2 : ℤ) ^ (n + 1) - 1 = Int.bit true (2 ^ n - 1) := by rw [Int.bit_val]; simp; ring
    have h3 : x = 2 * x.div2 + bif x.bodd then 1 else 0 := by rw [← Int.bit_val]; exact (Int.bit_decomp x).symm
    rw [e1]
    conv_lhs => rw [← Int.bit_decomp x]
    rw [Int.land_bit, ih, Bool.and_true, Int.bit_val]
    have h4 : (0 : ℤ) ≤ (bif x.bodd then 1 else 0) ∧ (bif x.bodd then (1 : ℤ) else 0) ≤ 1 := by cases x.bodd <;> simp
    conv_rhs => rw [h3]
    have hp : (2 : ℤ) ^ (n + 1) = 2 * 2 ^ n := by ring
    have hpos : (0 : ℤ) < 2 ^ n := by positivity
    set r : ℤ := bif x.bodd then 1 else 0
    set y := x.div2
    have hy := Int.emod_add_mul_ediv y (2 ^ n)
    have h0 := Int.emod_nonneg y hpos.ne'
    have h1 := Int.emod_lt_of_pos y hpos
    symm
    rw [hp]
    have : 2 * y + r = (2 * (y % 2 ^ n) + r) + (2 * 2 ^ n) * (y / 2 ^ n) := by linear_combination -2 * hy
    rw [this, Int.add_mul_emod_self_left]
    exact Int.emod_eq_of_lt (by omega) (by omega)

theorem getN_eq (x : ℤ) : getN x = (x / 65536, x % 65536) := by
  unfold getN
  rw [land_low 16, Int.shiftRight_eq_div_pow]
  norm_num

theorem combine_eq (c b : ℤ) (h0 : 0 ≤ b) (h1 : b < 65536) : combineInt c b = c * 65536 + b := by
  unfold combineInt
  rw [Int.shiftLeft_eq]
  have := lor_low 16 c b h0 (by norm_num; exact h1)
  norm_num at this ⊢
  exact this

/-- **C28 (partial).** Unpacking a packed (coefficient, index) pair gives the pair back exactly when the index is between 0 and 65535,
whatever the sign of the coefficient. Missing: larger indices, which the library generates (`C28_index_overflow`). -/
theorem C28_codec_partial (c b : ℤ) : getN (combineInt c b) = (c, b) ↔ 0 ≤ b ∧ b < 65536 := by
  constructor
  · intro h
    rw [getN_eq, Prod.mk.injEq] at h
    rw [← h.2]
    exact ⟨Int.emod_nonneg _ (by norm_num), Int.emod_lt_of_pos _ (by norm_num)⟩
  · rintro ⟨h0, h1⟩
    rw [combine_eq c b h0 h1, getN_eq]
    rw [Prod.mk.injEq]
    constructor <;> omega

/-- **C28: distinct pairs have distinct codes** for indices in range. -/
theorem C28_injective (c b c' b' : ℤ) (hb : 0 ≤ b ∧ b < 65536) (hb' : 0 ≤ b' ∧ b' < 65536)
    (h : combineInt c b = combineInt c' b') : c = c' ∧ b = b' := by
  have h1 := (C28_codec_partial c b).2 hb
  rw [h, (C28_codec_partial c' b').2 hb'] at h1
  exact ⟨(Prod.mk.inj h1).1.symm, (Prod.mk.inj h1).2.symm⟩

variable {K : Type} [Field K] [LinearOrder K] [IsStrictOrderedRing K] [FloorRing K]

/-- number of dictionary entries built with default parameters for an evenly spaced grid of `n` points -/
def defaultDictSize (n : ℕ) (dx : K) : ℤ := (n : ℤ) * defaultNsig n dx * 3

/-- **C28 is violated**: with default parameters a grid of 400 points has 80400 dictionary entries; entry 65536 with even
coefficient `c` is decoded as entry 0 with coefficient `c + 1`. -/
theorem C28_index_overflow (dx : K) (hdx : 0 < dx) :
    defaultDictSize 400 dx = 80400 ∧ (65536 : ℤ) < defaultDictSize 400 dx ∧ getN (combineInt 16000 65536) = (16001, 0) := by
  have h : defaultNsig 400 dx = 67 := by
    unfold defaultNsig
    simp only
    have e : 2 * ((((400 : ℕ) : K) - 1) * dx / 12 - dx / 6) / dx = 397 / 6 := by
      push_cast; field_simp; norm_num
    rw [e, Int.ceil_eq_iff]
    norm_num
  refine ⟨by simp [defaultDictSize, h], by simp [defaultDictSize, h], by decide +kernel⟩

/-- the exact size: `3 n ceil((n-3)/6)`. All default indices fit for grids of at most 363 points and not for larger ones. -/
theorem C28_default_sizes (n : ℕ) (dx : K) (hdx : 0 < dx) :
    defaultDictSize n dx = n * ⌈((n : K) - 3) / 6⌉ * 3 ∧ (defaultDictSize n dx ≤ 65536 ↔ n ≤ 363) := by
  have e : 2 * (((n : K) - 1) * dx / 12 - dx / 6) / dx = ((n : K) - 3) / 6 := by
    field_simp; ring
  have h1 : defaultNsig n dx = ⌈((n : K) - 3) / 6⌉ := by
    unfold defaultNsig; simp only [e]
  refine ⟨by rw [defaultDictSize, h1], ?_⟩
  rw [defaultDictSize, h1]
  constructor
  · intro h
    by_contra hc
    have hn : 364 ≤ n := by omega
    have hk : (61 : ℤ) ≤ ⌈((n : K) - 3) / 6⌉ := by
      have h2 : (60 : ℤ) < ⌈((n : K) - 3) / 6⌉ := by
        rw [Int.lt_ceil]
        have : (364 : K) ≤ n := by exact_mod_cast hn
        rw [lt_div_iff₀ (by norm_num)]; push_cast; linarith
      omega
    have hn' : (364 : ℤ) ≤ n := by exact_mod_cast hn
    nlinarith
  · intro hn
    have hk : ⌈((n : K) - 3) / 6⌉ ≤ 60 := by
      rw [Int.ceil_le]
      have : (n : K) ≤ 363 := by exact_mod_cast hn
      rw [div_le_iff₀ (by norm_num)]; push_cast; linarith
    have hn' : (n : ℤ) ≤ 363 := by exact_mod_cast hn
    have hn0 : (0 : ℤ) ≤ n := by omega
    nlinarith

example : getN (combineInt (-7) 65535) = (-7, 65535) := by decide +kernel

/-! ## C29 -/

private theorem put_fold {γ : Type} : ∀ (cs : List γ) (A : List γ) (kk : ℕ), kk + cs.length ≤ A.length →
    cs.foldl putColumn (A, kk) = (A.take kk ++ cs ++ A.drop (kk + cs.length), kk + cs.length) := by
  intro cs
  induction cs with
  | nil => intro A kk _; simp
  | cons c t ih =>
    intro A kk h
    simp only [List.length_cons] at h
    rw [List.foldl_cons]
    show t.foldl putColumn (A.set kk c, kk + 1) = _
    rw [ih _ _ (by simp; omega)]
    have h1 : (A.set kk c).take (kk + 1) = A.take kk ++ [c] := by
      rw [List.take_add_one, List.take_set_of_le (Nat.le_refl kk), List.getElem?_set_self (by omega)]
      rfl
    have h2 : (A.set kk c).drop (kk + 1 + t.length) = A.drop (kk + (t.length + 1)) := by
      rw [List.drop_set_of_lt (by omega)]; congr 1; omega
    rw [h1, h2]
    simp only [List.append_assoc, List.cons_append, List.nil_append, List.length_cons]
    congr 1; omega

/-- the nested loops visit the columns in the order of nested `flatMap`s -/
private theorem voigtBasis_eq {γ : Type} (zero : γ) (col : K → K → K → γ) (means sigs gammas : List K) :
    voigtBasis zero col means sigs gammas =
      means.flatMap fun m => sigs.flatMap fun s => gammas.map fun g => col m s g := by
  have inner : ∀ (m : K) (ss : List K) (st : List γ × ℕ),
      ss.foldl (fun st s => gammas.foldl (fun st g => putColumn st (col m s g)) st) st =
      (ss.flatMap fun s => gammas.map fun g => col m s g).foldl putColumn st := by
    intro m ss
    induction ss with
    | nil => intro st; rfl
    | cons s t ih =>
      intro st
      rw [List.foldl_cons, List.flatMap_cons, List.foldl_append, ih, List.foldl_map]
  have outer : ∀ (ms : List K) (st : List γ × ℕ),
      ms.foldl (fun st m => sigs.foldl (fun st s => gammas.foldl (fun st g => putColumn st (col m s g)) st) st) st =
      (ms.flatMap fun m => sigs.flatMap fun s => gammas.map fun g => col m s g).foldl putColumn st := by
    intro ms
    induction ms with
    | nil => intro st; rfl
    | cons m t ih => intro st; rw [List.foldl_cons, List.flatMap_cons, List.foldl_append, ih, inner]
  have len1 : ∀ (m : K), (sigs.flatMap fun s => gammas.map fun g => col m s g).length = sigs.length * gammas.length := by
    intro m; simp [List.length_flatMap]
  have len : (means.flatMap fun m => sigs.flatMap fun s => gammas.map fun g => col m s g).length =
      means.length * sigs.length * gammas.length := by
    rw [List.length_flatMap]
    simp only [len1]
    simp [mul_assoc]
  unfold voigtBasis
  simp only
  rw [outer, put_fold _ _ _ (by rw [len]; simp), len]
  simp

private theorem flatMap_get {α β : Type} (f : α → List β) (n : ℕ) (hf : ∀ a, (f a).length = n) (hn : 0 < n) : ∀ (l : List α) (b : ℕ),
    (l.flatMap f)[b]? = (l[b / n]?).bind fun a => (f a)[b % n]? := by
  intro l
  induction l with
  | nil => intro b; simp
  | cons a t ih =>
    intro b
    rw [List.flatMap_cons]
    by_cases hb : b < n
    · rw [List.getElem?_append_left (by rw [hf]; exact hb), Nat.div_eq_of_lt hb, Nat.mod_eq_of_lt hb]; simp
    · have hb := not_lt.1 hb
      rw [List.getElem?_append_right (by rw [hf]; exact hb), hf, ih]
      have h1 : b / n = (b - n) / n + 1 := Nat.div_eq_sub_div hn hb
      rw [h1, List.getElem?_cons_succ, ← Nat.mod_eq_sub_mod hb]

/-- **C29.** For every dictionary (any numbers of means, widths and gammas), an index is valid for decoding exactly when it is a column
of the dictionary, and it decodes to the parameters that the column was computed from. -/
theorem C29_index_addresses_column {γ : Type} (zero : γ) (col : K → K → K → γ) (means sigs gammas : List K) (b : ℕ) :
    (voigtBasis zero col means sigs gammas).length = means.length * sigs.length * gammas.length ∧
    (b < means.length * sigs.length * gammas.length →
      ∃ m s g, indexShape means sigs gammas b = .ok (m, s, g) ∧
        (voigtBasis zero col means sigs gammas)[b]? = some (col m s g)) ∧
    (means.length * sigs.length * gammas.length ≤ b → indexShape means sigs gammas b = .error .IndexError) := by
  rw [voigtBasis_eq]
  have len1 : ∀ (m : K), (sigs.flatMap fun s => gammas.map fun g => col m s g).length = sigs.length * gammas.length := by
    intro m; simp [List.length_flatMap]
  refine ⟨?_, ?_, ?_⟩
  · rw [List.length_flatMap]
    simp only [len1]
    simp [mul_assoc]
  · intro hb
    rw [mul_assoc] at hb
    have hsg : 0 < sigs.length * gammas.length := Nat.pos_of_ne_zero (by rintro h; rw [h] at hb; simp at hb)
    have hg : 0 < gammas.length := Nat.pos_of_ne_zero (by rintro h; rw [h] at hsg; simp at hsg)
    have h1 : b / (sigs.length * gammas.length) < means.length := (Nat.div_lt_iff_lt_mul hsg).2 hb
    have h2 : b % (sigs.length * gammas.length) < sigs.length * gammas.length := Nat.mod_lt _ hsg
    have h3 : b % (sigs.length * gammas.length) / gammas.length < sigs.length := (Nat.div_lt_iff_lt_mul hg).2 h2
    have h4 : b % (sigs.length * gammas.length) % gammas.length < gammas.length := Nat.mod_lt _ hg
    refine ⟨means[b / (sigs.length * gammas.length)], sigs[b % (sigs.length * gammas.length) / gammas.length],
      gammas[b % (sigs.length * gammas.length) % gammas.length], ?_, ?_⟩
    · unfold indexShape
      simp only [List.getElem?_eq_getElem h1, List.getElem?_eq_getElem h3, List.getElem?_eq_getElem h4]
    · rw [flatMap_get _ _ len1 hsg, List.getElem?_eq_getElem h1, Option.bind_some,
        flatMap_get _ _ (fun s => by simp) hg, List.getElem?_eq_getElem h3, Option.bind_some, List.getElem?_map,
        List.getElem?_eq_getElem h4]
      rfl
  · intro hb
    rw [mul_assoc] at hb
    unfold indexShape
    simp only
    by_cases hsg : sigs.length * gammas.length = 0
    · rcases Nat.mul_eq_zero.1 hsg with h | h
      · obtain rfl := List.length_eq_zero_iff.1 h
        split <;> simp_all
      · obtain rfl := List.length_eq_zero_iff.1 h
        split <;> simp_all
    · have : means.length ≤ b / (sigs.length * gammas.length) := (Nat.le_div_iff_mul_le (Nat.pos_of_ne_zero hsg)).2 hb
      rw [List.getElem?_eq_none this]

example : indexShape ([10, 20, 30] : List ℚ) [1, 2] [5, 6, 7] 11 = .ok (20, 2, 7) := by decide +kernel

/-! ## C31 -/

/-- the weights that decoding gives for the coefficients `dval` encoded with the basis indices `dind` -/
def decodedWeights (dind : List ℕ) (dval : List K) : Except Err (List K) :=
  (coefIndex dind.length dval).map fun index =>
    (decodeRow (K := K) (List.zipWith (fun c (b : ℕ) => combineInt c b) index dind)).2

private theorem decode_fst (index : List ℤ) (dind : List ℕ) (hl : index.length = dind.length) (hd : ∀ b ∈ dind, b < 65536) :
    ((List.zipWith (fun c (b : ℕ) => combineInt c b) index dind).map getN).map Prod.fst = index ∧
    ((List.zipWith (fun c (b : ℕ) => combineInt c b) index dind).map getN).map Prod.snd = dind.map (fun (b : ℕ) => (b : ℤ)) := by
  induction index generalizing dind with
  | nil =>
    obtain rfl : dind = [] := List.length_eq_zero_iff.1 hl.symm
    simp
  | cons c t ih =>
    cases dind with
    | nil => simp at hl
    | cons b s =>
      have := (C28_codec_partial c b).2 ⟨by omega, by exact_mod_cast hd b (by simp)⟩
      obtain ⟨h1, h2⟩ := ih s (by simpa using hl) (fun x hx => hd x (by simp [hx]))
      simp only [List.zipWith_cons_cons, List.map_cons, this]
      exact ⟨by rw [h1], by rw [h2]⟩

/-- **C31, exact.** The indices decode exactly (when they fit in 16 bits). The first decoded weight is always 1; decoded weight `j ≥ 1` is the
`j`-th coefficient divided by the largest coefficient, up to `1/64000`. -/
theorem C31_weights_exact (dind : List ℕ) (d0 : K) (dt : List K) (hl : dind.length = dt.length + 1)
    (hd : ∀ b ∈ dind, b < 65536) (mx : K) (hmx : rowMax (d0 :: dt) = .ok mx) (hpos : 0 < mx) :
    ∃ ws, decodedWeights dind (d0 :: dt) = .ok (1 :: ws) ∧ ws.length = dt.length ∧
      ∀ (j : ℕ) d w, dt[j]? = some d → ws[j]? = some w → |w - d / mx| ≤ 1 / 64000 := by
  have hidx : coefIndex dind.length (d0 :: dt) =
      .ok (npRound (d0 / (1 / ((nCoef : K) - 1))) :: dt.map fun d => npRound (d / mx / (1 / ((nCoef : K) - 1)))) := by
    unfold coefIndex
    rw [hmx]
    simp only [bind, Except.bind, if_pos hpos, List.map_cons]
  set idx := npRound (d0 / (1 / ((nCoef : K) - 1))) :: dt.map fun d => npRound (d / mx / (1 / ((nCoef : K) - 1))) with hi
  have hfst := (decode_fst idx dind (by simp [hi, hl]) hd).1
  have hvals : ((List.zipWith (fun c (b : ℕ) => combineInt c b) idx dind).map getN).map
      (fun p => (p.1 : K) * (1 / ((nCoef : K) - 1))) = idx.map fun (c : ℤ) => (c : K) * (1 / ((nCoef : K) - 1)) := by
    conv_rhs => rw [← hfst]
    rw [List.map_map, List.map_map, List.map_map]
    rfl
  refine ⟨dt.map fun d => (npRound (d / mx / (1 / ((nCoef : K) - 1))) : K) * (1 / ((nCoef : K) - 1)), ?_, by simp, ?_⟩
  · unfold decodedWeights
    rw [hidx]
    simp only [Except.map, decodeRow]
    rw [hvals, hi]
    simp only [List.map_cons, List.set_cons_zero, List.map_map]
    rfl
  · intro j d w hd hw
    rw [List.getElem?_map, hd] at hw
    obtain rfl := Option.some.inj hw
    have hn : ((nCoef : K) - 1) = 32000 := by norm_num [nCoef]
    rw [hn]
    have h := npRound_abs (d / mx / (1 / (32000 : K)))
    have e : (npRound (d / mx / (1 / (32000 : K))) : K) * (1 / 32000) - d / mx =
        1/32000 * ((npRound (d / mx / (1 / (32000 : K))) : K) - d / mx / (1 / 32000)) := by
      field_simp
    rw [e, abs_mul, abs_of_pos (by norm_num : (0 : K) < 1 / 32000)]
    linarith

/-- **C31 (partial).** If the first coefficient is the largest, every decoded weight is the encoded coefficient divided by the largest
one, up to `1/64000`. Missing: the first coefficient is not the largest, see `C31_first_weight_wrong`. -/
theorem C31_weights_partial (dind : List ℕ) (d0 : K) (dt : List K) (hl : dind.length = dt.length + 1)
    (hd : ∀ b ∈ dind, b < 65536) (hmax : ∀ d ∈ dt, d ≤ d0) (hpos : 0 < d0) :
    ∃ ws, decodedWeights dind (d0 :: dt) = .ok ws ∧ ws.length = dind.length ∧
      ∀ (j : ℕ) d w, (d0 :: dt)[j]? = some d → ws[j]? = some w → |w - d / d0| ≤ 1 / 64000 := by
  have hmx : rowMax (d0 :: dt) = .ok d0 := (rowMax_ok_iff _ _).2 ⟨by simp, by
    intro v hv
    rcases List.mem_cons.1 hv with rfl | h
    · exact le_rfl
    · exact hmax v h⟩
  obtain ⟨ws, h1, h2, h3⟩ := C31_weights_exact dind d0 dt hl hd d0 hmx hpos
  refine ⟨1 :: ws, h1, by simp [h2, hl], ?_⟩
  intro j d w hdj hwj
  cases j with
  | zero =>
    simp only [List.getElem?_cons_zero, Option.some.injEq] at hdj hwj
    subst hdj; subst hwj
    rw [div_self hpos.ne', sub_self, abs_zero]; norm_num
  | succ j => exact h3 j d w (by simpa using hdj) (by simpa using hwj)

/-- **C31 is violated** when the first coefficient is not the largest: coefficients 1/2 and 1 decode to equal weights. -/
theorem C31_first_weight_wrong : decodedWeights [4, 9] ([1/2, 1] : List ℚ) = .ok [1, 1] := by decide +kernel

/-- **C31 is violated** when no coefficient is positive: all coefficients are lost and the first basis function gets weight one. -/
theorem C31_negative_wrong : decodedWeights [4, 9] ([-1, -1/2] : List ℚ) = .ok [1, 0] := by decide +kernel

example : decodedWeights [4, 9] ([2, 1] : List ℚ) = .ok [1, 1/2] := by decide +kernel

end Verif.Props.Sparse
