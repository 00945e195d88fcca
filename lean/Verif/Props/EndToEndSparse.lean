import Verif.Props.EndToEnd
import Verif.Props.SparseEns
import Verif.Props.Sparse
import Verif.Props.SparsePdf

/-!
# C104 for sparse representations

From the codes handed to `qp.sparse(...)` to the values of `ens.pdf(x)`.
-/

set_option linter.unusedSectionVars false
set_option autoImplicit false

namespace Verif.Props.EndToEndSparse

open Verif Verif.Np Verif.Model Verif.Spec Verif.Lemmas Verif.Props.EndToEnd Verif.Props.InterpPdf Verif.Props.Sparse

variable {K : Type} [Field K] [LinearOrder K] [IsStrictOrderedRing K] [FloorRing K]

/-- the code of a basis function: the coefficient in the upper, the number of the dictionary entry in the lower 16 bits -/
def code (a : Axes K) (b : Basis) : ℕ := b.coef * 65536 + ((b.i * a.ns + b.j) * a.nv + b.k)

/-- the keyword arguments of `qp.sparse(xvals=..., mu=..., sig=..., dims=..., sparse_indices=...)` for `n` basis functions per PDF -/
def sparseArgs (xs : List K) (a : Axes K) (n : ℕ) (rows : List (List Basis)) : Dict K :=
  [("xvals", .arr (vec xs)), ("mu", .arr (vec [a.m0, a.m1])), ("sig", .arr (vec [a.s0, a.s1])),
   ("dims", .arr (vec [(a.nm : K), (a.ns : K), (a.nv : K), 32001, (n : K)])),
   ("sparse_indices", table n (rows.map fun r => r.map fun b => ((code a b : ℕ) : K)))]

theorem tick_get (lo hi : K) (n i : ℕ) (h : i < n) : (Np.linspace lo hi n)[i]? = some (tick lo hi n i) := by
  by_cases hn : n = 1
  · subst hn
    obtain rfl : i = 0 := by omega
    simp [Np.linspace, tick]
  · exact getElem?_linspace lo hi n hn i h

theorem weightedSum_curves {σ : Type} (xs : List K) (C : σ → K → K) : ∀ (cs : List σ) (w : σ → K) (A : K → K),
    ((cs.map fun c => xs.map (C c)).zip (cs.map w)).foldl (fun acc p => List.zipWith (fun a b => a + p.2 * b) acc p.1) (xs.map A) =
      xs.map fun v => A v + (cs.map fun c => w c * C c v).sum
  | [], w, A => by simp
  | c :: cs, w, A => by
    simp only [List.map_cons, List.zip_cons_cons, List.foldl_cons]
    have : List.zipWith (fun a b => a + w c * b) (xs.map A) (xs.map (C c)) = xs.map fun v => A v + w c * C c v := by
      rw [List.zipWith_map_left, List.zipWith_map_right, List.zipWith_self]
    rw [this, weightedSum_curves xs C cs w]
    apply List.map_congr_left
    intro v _
    simp only [List.sum_cons]
    ring

theorem weightedSum_eq (profile : K → K → K → K) (nrm : List K → K) (cut : K) (xs : List K) (a : Axes K) (r : List Basis) :
    weightedSum xs.length (r.map fun b => xs.map (basisCurve profile nrm cut xs a b)) ((r.map fun b => (b.coef : K) * (1 / ((nCoef : K) - 1))).set 0 1) =
      xs.map (sparseCurve profile nrm cut xs a r) := by
  have h0 : List.replicate xs.length (0 : K) = xs.map fun _ => 0 := by simp
  unfold weightedSum
  rw [h0]
  cases r with
  | nil =>
    have : sparseCurve profile nrm cut xs a [] = fun _ => 0 := funext fun _ => rfl
    simp [this]
  | cons b bs =>
    simp only [List.map_cons, List.set_cons_zero, List.zip_cons_cons, List.foldl_cons]
    have : List.zipWith (fun a b => a + 1 * b) (xs.map fun _ => (0 : K)) (xs.map (basisCurve profile nrm cut xs a b)) =
        xs.map (basisCurve profile nrm cut xs a b) := by
      rw [List.zipWith_map_left, List.zipWith_map_right, List.zipWith_self]
      simp
    rw [this, weightedSum_curves xs (basisCurve profile nrm cut xs a) bs]
    apply List.map_congr_left
    intro v _
    simp only [sparseCurve]
    congr 2
    apply List.map_congr_left
    intro c _
    have : ((nCoef : ℕ) : K) - 1 = 32000 := by norm_num [nCoef]
    rw [this]
    ring

/-- the dictionary: entry number `(i * ns + j) * nv + k` is the normalised profile with these positions on the axes -/
theorem dict_entry (profile : K → K → K → K) (nrm : List K → K) (cut : K) (xs : List K) (a : Axes K) (md : Dict K)
    (hx : metaGrid md "xvals" = xs) (hmu : metaGrid md "mu" = [a.m0, a.m1]) (hsg : metaGrid md "sig" = [a.s0, a.s1]) (n : ℕ)
    (hdm : metaGrid md "dims" = [(a.nm : K), (a.ns : K), (a.nv : K), 32001, (n : K)]) (b : Basis) (hi : b.i < a.nm) (hj : b.j < a.ns)
    (hk : b.k < a.nv) (hn : nrm (xs.map (cutProfile profile cut a b)) ≠ 0) :
    (sparseDict profile nrm cut md)[(b.i * a.ns + b.j) * a.nv + b.k]? = some (some (xs.map (basisCurve profile nrm cut xs a b))) := by
  have hnm : ⌊(a.nm : K)⌋.toNat = a.nm := by simp
  have hns : ⌊(a.ns : K)⌋.toNat = a.ns := by simp
  have hnv : ⌊(a.nv : K)⌋.toNat = a.nv := by simp
  simp only [sparseDict, hx, hmu, hsg, hdm, dimRange, List.getD_cons_zero, List.getD_cons_succ, hnm, hns, hnv]
  set E := (b.i * a.ns + b.j) * a.nv + b.k with hE
  have hlt : E < a.nm * a.ns * a.nv := by
    have h1 : b.i * a.ns + b.j < a.nm * a.ns := by
      calc b.i * a.ns + b.j < b.i * a.ns + a.ns := by omega
        _ = (b.i + 1) * a.ns := by ring
        _ ≤ a.nm * a.ns := Nat.mul_le_mul_right _ hi
    calc E < (b.i * a.ns + b.j) * a.nv + a.nv := by omega
      _ = (b.i * a.ns + b.j + 1) * a.nv := by ring
      _ ≤ a.nm * a.ns * a.nv := Nat.mul_le_mul_right _ h1
  obtain ⟨-, h2, -⟩ := C29_index_addresses_column none (sparseCol profile nrm cut xs) (Np.linspace a.m0 a.m1 a.nm) (Np.linspace a.s0 a.s1 a.ns)
    (Np.linspace 0 (1 / 2) a.nv) E
  simp only [length_linspace] at h2
  obtain ⟨m, s, g, h3, h4⟩ := h2 hlt
  rw [h4]
  have d1 : E / (a.ns * a.nv) = b.i := by
    have : E = (b.j * a.nv + b.k) + (a.ns * a.nv) * b.i := by rw [hE]; ring
    rw [this, Nat.add_mul_div_left _ _ (Nat.mul_pos (by omega) (by omega)), Nat.div_eq_of_lt, zero_add]
    calc b.j * a.nv + b.k < b.j * a.nv + a.nv := by omega
      _ = (b.j + 1) * a.nv := by ring
      _ ≤ a.ns * a.nv := Nat.mul_le_mul_right _ hj
  have d2 : E % (a.ns * a.nv) = b.j * a.nv + b.k := by
    have : E = (b.j * a.nv + b.k) + (a.ns * a.nv) * b.i := by rw [hE]; ring
    rw [this, Nat.add_mul_mod_self_left, Nat.mod_eq_of_lt]
    calc b.j * a.nv + b.k < b.j * a.nv + a.nv := by omega
      _ = (b.j + 1) * a.nv := by ring
      _ ≤ a.ns * a.nv := Nat.mul_le_mul_right _ hj
  have d3 : (b.j * a.nv + b.k) / a.nv = b.j := by
    rw [add_comm, mul_comm, Nat.add_mul_div_left _ _ (by omega), Nat.div_eq_of_lt hk, zero_add]
  have d4 : (b.j * a.nv + b.k) % a.nv = b.k := by
    rw [add_comm, mul_comm, Nat.add_mul_mod_self_left, Nat.mod_eq_of_lt hk]
  unfold indexShape at h3
  simp only [length_linspace, d1, d2, d3, d4, tick_get _ _ _ _ hi, tick_get _ _ _ _ hj, tick_get _ _ _ _ hk, Except.ok.injEq, Prod.mk.injEq] at h3
  obtain ⟨rfl, rfl, rfl⟩ := h3
  have hc : cutBelow cut (xs.map fun v => profile (v - tick a.m0 a.m1 a.nm b.i) (tick a.s0 a.s1 a.ns b.j) (tick 0 (1 / 2) a.nv b.k)) =
      xs.map (cutProfile profile cut a b) := by
    simp [cutBelow, cutProfile, Function.comp_def]
  simp only [sparseCol, hc, if_neg hn, List.map_map]
  rfl

/-- **C104: sparse representations.** For every profile function and every norm, an ensemble created from codes evaluates to the broken lines through
the weighted sums of the addressed basis functions, divided by their area. -/
theorem C104_sparse (profile : K → K → K → K) (nrm : List K → K) (xs : List K) (hs : xs.Pairwise (· < ·)) (h2 : 2 ≤ xs.length) (a : Axes K)
    (hsize : a.nm * a.ns * a.nv ≤ 65536) (n : ℕ) (rows : List (List Basis)) (hlen : ∀ r ∈ rows, r.length = n)
    (hin : ∀ r ∈ rows, ∀ b ∈ r, b.i < a.nm ∧ b.j < a.ns ∧ b.k < a.nv ∧ nrm (xs.map (cutProfile profile (1 / 100000) a b)) ≠ 0)
    (harea : ∀ r ∈ rows, area xs (xs.map (sparseCurve profile nrm (1 / 100000) xs a r)) ≠ 0) :
    ∃ e, mkEns (rowCreate sparseCls) (rowCreate sparseCls) (sparseArgs xs a n rows) none = .ok e ∧ e.frozen.npdf = rows.length ∧
      ∀ x : List K, x.Pairwise (· < ·) →
        ensEval (sparseEval profile nrm (cutOf (sparseArgs xs a n rows))) e.frozen x = .ok (rows.map fun r => x.map fun t =>
          some (brokenLine xs (xs.map (sparseCurve profile nrm (1 / 100000) xs a r)) t /
            area xs (xs.map (sparseCurve profile nrm (1 / 100000) xs a r)))) := by
  have hcut : cutOf (sparseArgs xs a n rows) = 1 / 100000 := by simp [cutOf, sparseArgs, get?_cons, get?_nil]
  rw [hcut]
  set mo : List (String × Arr (Elem K)) := [("xvals", vec xs), ("mu", vec [a.m0, a.m1]), ("sig", vec [a.s0, a.s1]),
    ("dims", vec [(a.nm : K), (a.ns : K), (a.nv : K), 32001, (n : K)])] with hmo
  obtain ⟨e, h1, h3, h4⟩ := create_eval rows (fun r => [nums (r.map fun b => ((code a b : ℕ) : K))]) (fun r => [nums (r.map fun b => ((code a b : ℕ) : K))])
    (c := sparseCls (K := K)) names_sparse (mo := mo) (mo' := mo)
    (ws := [n]) (ws' := [n]) (by simp [sparseCls, hmo]) (by simp [sparseCls])
    (fun r hr => by simp [nums_length, hlen r hr])
    (m := [("xvals", .arr (vec xs)), ("mu", .arr (vec [a.m0, a.m1])), ("sig", .arr (vec [a.s0, a.s1])),
      ("dims", .arr (vec [(a.nm : K), (a.ns : K), (a.nv : K), 32001, (n : K)])), ("cut", .py (.num (some (1 / 100000)))), ("check_input", .py (.bool true))])
    (by simp [sparseCls, hmo, metaDict, checkInputArg, argVal, get?_cons, get?_nil, Bind.bind, Except.bind, pure, Except.pure])
    (data := sparseArgs xs a n rows)
    (by simp [sparseArgs, hmo, metaDict, storeRows, sparseCls, table, Function.comp_def])
    (by simp [sparseCls])
    (by
      simp [sparseCls, grid1, get?_cons, Val.toArr, vec, finites_nums, Bind.bind, Except.bind, hmo]
      omega)
    (by simp [sparseCls])
    (fun r hr => by simp [sparseCls])
    (by simp [sparseCls])
    (fun r hr => by simp [nums_length, hlen r hr])
  refine ⟨e, h1, h3, fun x hx => h4 _ _ (fun r hr row hrow => ?_) x hx⟩
  funext t
  have hr0 : row "sparse_indices" = nums (r.map fun b => ((code a b : ℕ) : K)) := hrow 0 (by simp [sparseCls])
  set md : Dict K := classMeta (sparseCls (K := K)).name (sparseCls (K := K)).version ++ mo.map fun p => (p.1, .arr p.2.expand0) with hmd
  have gx : metaGrid md "xvals" = xs := by
    simp [metaGrid, hmd, hmo, classMeta, get?_cons, Val.toArr, vec, Arr.expand0, finites_nums]
  have gmu : metaGrid md "mu" = [a.m0, a.m1] := by
    simp [metaGrid, hmd, hmo, classMeta, get?_cons, Val.toArr, vec, Arr.expand0, finites_nums]
  have gsg : metaGrid md "sig" = [a.s0, a.s1] := by
    simp [metaGrid, hmd, hmo, classMeta, get?_cons, Val.toArr, vec, Arr.expand0, finites_nums]
  have gdm : metaGrid md "dims" = [(a.nm : K), (a.ns : K), (a.nv : K), 32001, (n : K)] := by
    simp [metaGrid, hmd, hmo, classMeta, get?_cons, Val.toArr, vec, Arr.expand0, finites_nums]
  have hE : ∀ b ∈ r, (b.i * a.ns + b.j) * a.nv + b.k < 65536 := by
    intro b hb
    obtain ⟨hi, hj, hk, -⟩ := hin r hr b hb
    have q1 : b.i * a.ns + b.j + 1 ≤ a.nm * a.ns := by
      calc b.i * a.ns + b.j + 1 ≤ b.i * a.ns + a.ns := by omega
        _ = (b.i + 1) * a.ns := by ring
        _ ≤ a.nm * a.ns := Nat.mul_le_mul_right _ hi
    calc (b.i * a.ns + b.j) * a.nv + b.k < (b.i * a.ns + b.j) * a.nv + a.nv := by omega
      _ = (b.i * a.ns + b.j + 1) * a.nv := by ring
      _ ≤ a.nm * a.ns * a.nv := Nat.mul_le_mul_right _ q1
      _ ≤ 65536 := hsize
  have hget : ∀ b ∈ r, getN ⌊((code a b : ℕ) : K)⌋ = ((b.coef : ℤ), (((b.i * a.ns + b.j) * a.nv + b.k : ℕ) : ℤ)) := by
    intro b hb
    have hfl : ⌊((code a b : ℕ) : K)⌋ = ((code a b : ℕ) : ℤ) := by simp
    rw [hfl, getN_eq]
    have := hE b hb
    unfold code
    rw [Prod.mk.injEq]
    constructor <;> omega
  have hdec : decodeRow (K := K) ((r.map fun b => ((code a b : ℕ) : K)).map fun c => ⌊c⌋) =
      (r.map fun b => (((b.i * a.ns + b.j) * a.nv + b.k : ℕ) : ℤ), (r.map fun b => (b.coef : K) * (1 / ((nCoef : K) - 1))).set 0 1) := by
    unfold decodeRow
    simp only [List.map_map]
    congr 1
    · apply List.map_congr_left
      intro b hb
      simp only [Function.comp, hget b hb]
    · congr 1
      apply List.map_congr_left
      intro b hb
      simp only [Function.comp, hget b hb, Int.cast_natCast]
  have hcols : (r.map fun b => (((b.i * a.ns + b.j) * a.nv + b.k : ℕ) : ℤ)).mapM (fun i => ((sparseDict profile nrm (1 / 100000) md)[i.toNat]?).join) =
      some (r.map fun b => xs.map (basisCurve profile nrm (1 / 100000) xs a b)) := by
    rw [List.mapM_map]
    have : ∀ l : List Basis, (∀ b ∈ l, b ∈ r) →
        l.mapM ((fun i : ℤ => ((sparseDict profile nrm (1 / 100000) md)[i.toNat]?).join) ∘ fun b : Basis => (((b.i * a.ns + b.j) * a.nv + b.k : ℕ) : ℤ)) =
        some (l.map fun b => xs.map (basisCurve profile nrm (1 / 100000) xs a b)) := by
      intro l
      induction l with
      | nil => intro _; rfl
      | cons b l ih =>
        intro hl
        obtain ⟨hi, hj, hk, hn⟩ := hin r hr b (hl b (by simp))
        have := dict_entry profile nrm (1 / 100000) xs a md gx gmu gsg n gdm b hi hj hk hn
        rw [List.mapM_cons, ih fun c hc => hl c (by simp [hc])]
        simp only [Function.comp, Int.toNat_natCast, this]
        rfl
    exact this r fun _ h => h
  simp only [sparseEval, hr0, finites_nums, gx, hdec, Option.bind_eq_bind, Option.bind_some, hcols, weightedSum_eq]
  have htr : trapz xs (xs.map (sparseCurve profile nrm (1 / 100000) xs a r)) = area xs (xs.map (sparseCurve profile nrm (1 / 100000) xs a r)) :=
    Lemmas.InterpPdf.sum_trapezoids _ _
  simp only [trapzNorm, htr, if_neg (harea r hr), Option.bind_some]
  rw [interp_line _ _ ⟨hs, by simp, by simpa using h2⟩, brokenLine_div]

/-! ## an instance: two PDFs of two basis functions -/

/-- a profile with values in the rationals: a tent of height one -/
def tent (v s _g : ℚ) : ℚ := max 0 (1 - |v| / s)

example := C104_sparse (K := ℚ) tent (fun l => l.sum) [0, 1, 2] (by decide +kernel) (by decide) ⟨0, 2, 1, 3, 3, 2, 1⟩ (by decide) 2
  [[⟨0, 0, 0, 0⟩, ⟨16000, 2, 1, 0⟩], [⟨0, 1, 1, 0⟩, ⟨32000, 1, 0, 0⟩]] (by decide) (by decide +kernel) (by decide +kernel)

example : sparseCurve tent (fun l => l.sum) (1 / 100000) [0, 1, 2] ⟨0, 2, 1, 3, 3, 2, 1⟩ [⟨0, 0, 0, 0⟩, ⟨16000, 2, 1, 0⟩] 0 = 13 / 12 := by decide +kernel

end Verif.Props.EndToEndSparse
