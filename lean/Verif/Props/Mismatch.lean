import Verif.Model.Mismatch
import Verif.Props.MixReal
import Verif.Props.InterpPdf
import Mathlib.Algebra.Order.Ring.Rat
import Mathlib.Data.Rat.Floor
import Mathlib.Data.List.GetD

/-!
# C145: tables that do not belong together
-/

set_option linter.unusedSectionVars false
set_option autoImplicit false

namespace Verif.Props.Mismatch

open Verif Verif.Np Verif.Model Verif.Spec Verif.Props.InterpPdf MeasureTheory Filter

/-- one entry stands for all `n` -/
def spread {α : Type} (n : ℕ) (l : List α) : List α :=
  match l with
  | [a] => List.replicate n a
  | l => l

/-- the lengths can be combined to `n` -/
def Fits (n : ℕ) (ls : List ℕ) : Prop := ∀ l ∈ ls, l = n ∨ l = 1

theorem spread_length {α : Type} {n : ℕ} {l : List α} (h : l.length = n ∨ l.length = 1) : (spread n l).length = n := by
  unfold spread
  split
  · simp
  · rename_i hne
    rcases h with h | h
    · exact h
    · obtain ⟨a, rfl⟩ := List.length_eq_one_iff.1 h
      exact absurd rfl (hne a)

theorem bget_spread {α : Type} {n : ℕ} {l : List α} (h : l.length = n ∨ l.length = 1) {k : ℕ} (hk : k < n) : bget l k = (spread n l)[k]? := by
  unfold bget
  by_cases h1 : l.length = 1
  · obtain ⟨a, rfl⟩ := List.length_eq_one_iff.1 h1
    simp [spread, hk]
  · rw [if_neg h1]
    unfold spread
    split
    · simp at h1
    · rfl

theorem bcast_some {a b n : ℕ} (h : bcast a b = some n) : (a = n ∨ a = 1) ∧ (b = n ∨ b = 1) ∧ (n = a ∨ n = b) := by
  unfold bcast at h
  split_ifs at h <;> simp at h <;> omega

theorem bcast_none {a b : ℕ} (h : bcast a b = none) : a ≠ b ∧ a ≠ 1 ∧ b ≠ 1 := by
  unfold bcast at h
  split_ifs at h; omega

/-- the three lengths can be combined exactly if numpy combines them -/
theorem bcast3 (a b c : ℕ) :
    (∀ n, (bcast a b).bind (bcast c) = some n → Fits n [a, b, c] ∧ n ∈ [a, b, c]) ∧
    ((bcast a b).bind (bcast c) = none → ∀ n, ¬ Fits n [a, b, c]) := by
  unfold Fits
  cases h : bcast a b with
  | none =>
    have h1 := bcast_none h
    refine ⟨fun n hn => (by simp at hn), fun _ n hf => ?_⟩
    simp only [List.forall_mem_cons] at hf
    omega
  | some m =>
    have h1 := bcast_some h
    simp only [Option.bind_some]
    refine ⟨fun n hn => ?_, fun hn n hf => ?_⟩
    · have h2 := bcast_some hn
      constructor
      · simp only [List.forall_mem_cons]
        refine ⟨?_, ?_, ?_, by simp⟩ <;> omega
      · simp only [List.mem_cons, List.not_mem_nil, or_false]
        omega
    · have h2 := bcast_none hn
      simp only [List.forall_mem_cons] at hf
      omega

section
variable {K : Type} [Field K] [LinearOrder K]

theorem terms (n : ℕ) (w m s : List K) (hw : w.length = n) (hm : m.length = n) (hs : s.length = n) (N : K → K → K → K) (x : K) :
    (List.range n).map (fun k => w.getD k 0 * N (m.getD k 0) (s.getD k 0) x) = List.zipWith (fun a c => a * c x) w (List.zipWith N m s) := by
  refine List.ext_getElem (by simp [hw, hm, hs]) fun i h1 h2 => ?_
  have hi : i < n := by simpa using h1
  simp only [List.getElem_map, List.getElem_range, List.getElem_zipWith]
  rw [List.getD_eq_getElem _ _ (by omega), List.getD_eq_getElem _ _ (by omega), List.getD_eq_getElem _ _ (by omega)]

theorem mapM_some {α β : Type} (f : α → Option β) (g : α → β) : ∀ l : List α, (∀ a ∈ l, f a = some (g a)) → l.mapM f = some (l.map g) := by
  intro l
  induction l with
  | nil => intro _; rfl
  | cons a l ih =>
    intro h
    rw [List.mapM_cons, h a List.mem_cons_self, ih fun b hb => h b (List.mem_cons_of_mem _ hb)]
    rfl

/-- **C145: what a mixture made from tables of different sizes is.** The constructor looks at nothing but the signs of the weights. A PDF is
evaluated exactly if all three tables have its row and the numbers of its means, widths and weights are equal or one; then a single entry stands for
all, the weights being normalised before; weights that add up to zero make the value `nan`. Otherwise the evaluation fails: `IndexError` for a
missing row, `ValueError` for different numbers.
Missing: that tables which do not belong together are refused, and that what is accepted is a distribution (false, `C145_one_weight_integral`). -/
theorem C145_mix_partial (N : K → K → K → K) (means stds weights : List (List K)) :
    ((∃ t, mixBuild means stds weights = .ok t) ↔ ∀ r ∈ weights, ∀ w ∈ r, 0 ≤ w) ∧
    ∀ t, mixBuild means stds weights = .ok t → ∀ (i : ℕ) (x : K),
      (weights.length ≤ i ∨ means.length ≤ i ∨ stds.length ≤ i → mixEvalRow N t i x = .error .IndexError) ∧
      ∀ w m s, weights[i]? = some w → means[i]? = some m → stds[i]? = some s →
        (∀ n w', Fits n [m.length, s.length, w.length] → n ∈ [m.length, s.length, w.length] → mixNormRow w = some w' →
          mixEvalRow N t i x = .ok (some (mixEval (spread n w') (List.zipWith N (spread n m) (spread n s)) x))) ∧
        (∀ n, Fits n [m.length, s.length, w.length] → n ∈ [m.length, s.length, w.length] → 0 < n → w.sum = 0 → mixEvalRow N t i x = .ok none) ∧
        ((∀ n, ¬ Fits n [m.length, s.length, w.length]) → mixEvalRow N t i x = .error .ValueError) := by
  constructor
  · unfold mixBuild
    constructor
    · rintro ⟨t, h⟩
      split_ifs at h with h1
      simp only [List.any_eq_true, not_exists, not_and, decide_eq_true_eq, not_lt] at h1
      exact h1
    · intro h
      rw [if_neg]
      · exact ⟨_, rfl⟩
      · simp only [List.any_eq_true, not_exists, not_and, decide_eq_true_eq, not_lt]
        exact h
  · intro t ht i x
    unfold mixBuild at ht
    split_ifs at ht with h1
    rw [Except.ok.injEq] at ht
    subst ht
    constructor
    · intro h
      unfold mixEvalRow
      split
      · rename_i a b c
        exfalso
        have ha := (List.getElem?_eq_some_iff.1 a).1
        have hb := (List.getElem?_eq_some_iff.1 b).1
        have hc := (List.getElem?_eq_some_iff.1 c).1
        simp only [List.length_map] at ha
        simp only at hb hc
        omega
      · rfl
    · intro w m s hw hm hs
      have hv : (mixStored w).length = w.length := by
        unfold mixStored mixNormRow
        split_ifs <;> simp
      have e : mixEvalRow N ⟨means, stds, weights.map mixStored⟩ i x =
            match (bcast m.length s.length).bind (bcast w.length) with
            | none => .error .ValueError
            | some n => .ok (((List.range n).mapM fun k => do
                let a ← bget (mixStored w) k
                let u ← a
                let μ ← bget m k
                let σ ← bget s k
                some (u * N μ σ x)).map List.sum) := by
        unfold mixEvalRow
        simp only [List.getElem?_map, hw, hm, hs, Option.map_some, hv]
        rfl
      refine ⟨?_, ?_, ?_⟩
      · intro n w' hf hn hw'
        have hl : w'.length = w.length := by
          unfold mixNormRow at hw'
          split_ifs at hw'
          rw [← Option.some.inj hw']; simp
        have e3 : mixStored w = w'.map some := by unfold mixStored; rw [hw']
        rw [e, e3]
        have hsome : ∃ n', (bcast m.length s.length).bind (bcast w.length) = some n' := by
          cases hb : (bcast m.length s.length).bind (bcast w.length) with
          | none => exact absurd hf ((bcast3 _ _ _).2 hb n)
          | some n' => exact ⟨n', rfl⟩
        obtain ⟨n', hb⟩ := hsome
        have hnn : n' = n := by
          obtain ⟨h2, h3⟩ := (bcast3 _ _ _).1 n' hb
          unfold Fits at hf h2
          simp only [List.forall_mem_cons] at hf h2
          simp only [List.mem_cons, List.not_mem_nil, or_false] at h3 hn
          omega
        subst hnn
        simp only [hb]
        unfold Fits at hf
        simp only [List.forall_mem_cons] at hf
        obtain ⟨f1, f2, f3, -⟩ := hf
        rw [← hl] at f3
        rw [mapM_some _ (fun k => (spread n' w').getD k 0 * N ((spread n' m).getD k 0) ((spread n' s).getD k 0) x)]
        · rw [Option.map_some, terms n' _ _ _ (spread_length f3) (spread_length f1) (spread_length f2)]
          rfl
        · intro k hk
          rw [List.mem_range] at hk
          have hbw : bget (w'.map some) k = ((spread n' w')[k]?).map some := by
            rw [← bget_spread f3 hk]
            unfold bget
            simp only [List.length_map, List.getElem?_map]
            split_ifs <;> rfl
          rw [hbw, bget_spread f1 hk, bget_spread f2 hk, List.getElem?_eq_getElem (by rw [spread_length f3]; exact hk),
            List.getElem?_eq_getElem (by rw [spread_length f1]; exact hk), List.getElem?_eq_getElem (by rw [spread_length f2]; exact hk),
            List.getD_eq_getElem _ _ (by rw [spread_length f3]; exact hk), List.getD_eq_getElem _ _ (by rw [spread_length f1]; exact hk),
            List.getD_eq_getElem _ _ (by rw [spread_length f2]; exact hk)]
          rfl
      · intro n hf hn hpos hw0
        have e3 : mixStored w = w.map fun _ => none := by
          have : mixNormRow w = none := by unfold mixNormRow; rw [if_pos]; exact (show Np.sum w = w.sum from rfl).trans hw0
          unfold mixStored; rw [this]
        rw [e, e3]
        cases hb : (bcast m.length s.length).bind (bcast w.length) with
        | none => exact absurd hf ((bcast3 _ _ _).2 hb n)
        | some n' =>
          have hnn : n' = n := by
            obtain ⟨h2, h3⟩ := (bcast3 _ _ _).1 n' hb
            unfold Fits at hf h2
            simp only [List.forall_mem_cons] at hf h2
            simp only [List.mem_cons, List.not_mem_nil, or_false] at h3 hn
            omega
          subst hnn
          obtain ⟨k, rfl⟩ : ∃ k, n' = k + 1 := ⟨n' - 1, by omega⟩
          have hb0 : ∀ l : List K, (bget (l.map fun _ => (none : Option K)) 0).bind id = none := by
            intro l
            cases l <;> simp [bget]
          simp only
          rw [List.range_succ_eq_map, List.mapM_cons]
          have := hb0 w
          cases hg : bget (w.map fun _ => (none : Option K)) 0 with
          | none => rfl
          | some a =>
            rw [hg] at this
            simp only [Option.bind_some, id_eq] at this
            subst this
            rfl
      · intro h
        rw [e]
        cases hb : (bcast m.length s.length).bind (bcast w.length) with
        | none => rfl
        | some n' => exact absurd ((bcast3 _ _ _).1 n' hb).1 (h n')

/-- two means and widths, two weights for the first PDF; the second PDF has a single width -/
example : (mixBuild (K := ℚ) [[0, 1], [2, 3]] [[1, 1], [5]] [[1, 3], [1, 1]]).bind (fun t => mixEvalRow (fun μ σ x => μ + σ * x) t 1 1) =
    .ok (some (1 / 2 * 7 + 1 / 2 * 8)) := by decide +kernel

example : (mixBuild (K := ℚ) [[0, 1]] [[1, 1]] [[0]]).bind (fun t => mixEvalRow (fun μ σ x => μ + σ * x) t 0 1) = .ok none := by decide +kernel

example : (mixBuild (K := ℚ) [[0, 1, 2]] [[1, 1, 1]] [[1, 3]]).bind (fun t => mixEvalRow (fun μ σ x => μ + σ * x) t 0 1) = .error .ValueError := by
  decide +kernel

/-- **C145: tables that belong together.** With as many means, widths and weights, the PDF is the mixture. -/
theorem C145_mix_matching (N : K → K → K → K) (means stds weights : List (List K)) (t : MixTabs K) (ht : mixBuild means stds weights = .ok t)
    (i : ℕ) (w m s w' : List K) (hw : weights[i]? = some w) (hm : means[i]? = some m) (hs : stds[i]? = some s) (h1 : m.length = w.length)
    (h2 : s.length = w.length) (hn : mixNormRow w = some w') (x : K) : mixEvalRow N t i x = .ok (some (mixEval w' (List.zipWith N m s) x)) := by
  have hl : w'.length = w.length := by
    unfold mixNormRow at hn
    split_ifs at hn
    rw [← Option.some.inj hn]; simp
  have hsp : ∀ {l : List K}, l.length = w.length → spread w.length l = l := by
    intro l hl
    unfold spread
    split
    · rename_i a
      rw [← hl]; rfl
    · rfl
  have := (((C145_mix_partial N means stds weights).2 t ht i x).2 w m s hw hm hs).1 w.length w' (by
    unfold Fits; simp only [List.forall_mem_cons]; exact ⟨.inl h1, .inl h2, by simp⟩) (by simp) hn
  rw [this, hsp hl, hsp h1, hsp h2]

/-- **C145: a single weight.** With one (positive) weight and `n` means and widths the values of the components are added, not averaged. -/
theorem C145_one_weight [IsStrictOrderedRing K] (N : K → K → K → K) (means stds weights : List (List K)) (t : MixTabs K) (ht : mixBuild means stds weights = .ok t)
    (i : ℕ) (v : K) (m s : List K) (hw : weights[i]? = some [v]) (hm : means[i]? = some m) (hs : stds[i]? = some s) (hv : v ≠ 0)
    (h : m.length = s.length) (x : K) : mixEvalRow N t i x = .ok (some (List.zipWith (fun μ σ => N μ σ x) m s).sum) := by
  have hn : mixNormRow [v] = some [1] := by
    have hsum : Np.sum [v] = v := by simp [Np.sum]
    unfold mixNormRow
    rw [hsum, if_neg hv]
    simp [hv]
  have hsp : ∀ {l : List K}, l.length = m.length → spread m.length l = l := by
    intro l hl
    unfold spread
    split
    · rename_i a
      rw [← hl]; rfl
    · rfl
  have := (((C145_mix_partial N means stds weights).2 t ht i x).2 [v] m s hw hm hs).1 m.length [1] (by
    unfold Fits; simp only [List.forall_mem_cons]; exact ⟨by simp, .inl h.symm, .inr rfl, by simp⟩) (by simp) hn
  rw [this, hsp rfl, hsp h.symm]
  congr 2
  unfold mixEval spread
  have : ∀ (m s : List K), m.length = s.length → Np.sum (List.zipWith (fun a c => a * c x) (List.replicate m.length (1 : K)) (List.zipWith N m s)) =
      (List.zipWith (fun μ σ => N μ σ x) m s).sum := by
    intro m
    induction m with
    | nil => intro s _; simp [Np.sum]
    | cons a m ih =>
      intro s hs
      cases s with
      | nil => simp at hs
      | cons b s =>
        have := ih s (by simpa using hs)
        simp only [Np.sum] at this ⊢
        simp [List.replicate_succ, this]
  exact this m s h

end

/-- **C145 is violated: densities that integrate to `n`.** A table of one weight per PDF with `n` means and widths is accepted; the PDF is the sum of
the `n` normal densities, its integral is `n`, and its CDF goes to `n`. -/
theorem C145_one_weight_integral (v : ℝ) (hv : 0 < v) (m s : List ℝ) (h : m.length = s.length) (hs : ∀ σ ∈ s, 0 < σ) :
    ∃ t, mixBuild [m] [s] [[v]] = .ok t ∧ ∃ f F : ℝ → ℝ, (∀ x, mixEvalRow normPdf t 0 x = .ok (some (f x))) ∧ (∀ x, mixEvalRow normCdf t 0 x = .ok (some (F x))) ∧
      Integrable f ∧ (∫ x, f x) = m.length ∧ Tendsto F atTop (nhds (m.length : ℝ)) := by
  obtain ⟨t, ht⟩ := (C145_mix_partial normPdf [m] [s] [[v]]).1.2 (by simp [hv.le])
  refine ⟨t, ht, _, _, fun x => C145_one_weight normPdf _ _ _ t ht 0 v m s rfl rfl rfl hv.ne' h x,
    fun x => C145_one_weight normCdf _ _ _ t ht 0 v m s rfl rfl rfl hv.ne' h x, ?_⟩
  clear ht t
  induction m generalizing s with
  | nil => simp
  | cons a m ih =>
    cases s with
    | nil => simp at h
    | cons b s =>
      have hb : 0 < b := hs b List.mem_cons_self
      obtain ⟨h1, h2, h3⟩ := ih s (by simpa using h) fun σ hσ => hs σ (List.mem_cons_of_mem _ hσ)
      simp only [List.zipWith_cons_cons, List.sum_cons, List.length_cons, Nat.cast_add, Nat.cast_one]
      refine ⟨(Verif.Lemmas.Gauss.integrable_normPdf hb a).add h1, ?_, ?_⟩
      · rw [integral_add (Verif.Lemmas.Gauss.integrable_normPdf hb a) h1, Verif.Lemmas.Gauss.integral_normPdf hb, h2, add_comm]
      · rw [add_comm]
        refine Tendsto.add ?_ h3
        have h1 : Tendsto (fun x : ℝ => (x - a) / b) atTop atTop := (tendsto_atTop_add_const_right atTop (-a) tendsto_id).atTop_div_const hb
        have h2 := (tendsto_measure_Iic_atTop (ProbabilityTheory.gaussianReal 0 1)).comp h1
        rw [measure_univ] at h2
        exact (ENNReal.tendsto_toReal ENNReal.one_ne_top).comp h2

example : ∃ t, mixBuild [[0, 5]] [[1, 2]] [[(1 : ℝ)]] = .ok t ∧ ∃ f F : ℝ → ℝ, (∀ x, mixEvalRow normPdf t 0 x = .ok (some (f x))) ∧
    (∀ x, mixEvalRow normCdf t 0 x = .ok (some (F x))) ∧ Integrable f ∧ (∫ x, f x) = (2 : ℕ) ∧ Tendsto F atTop (nhds ((2 : ℕ) : ℝ)) :=
  C145_one_weight_integral 1 one_pos [0, 5] [1, 2] rfl (by simp)

/-- **C145: a single mean.** With `n` widths and weights but one mean, the mean stands for all components: the PDF is a mixture around one centre. (In
the same way a single width stands for all.) -/
theorem C145_one_mean {K : Type} [Field K] [LinearOrder K] (N : K → K → K → K) (means stds weights : List (List K)) (t : MixTabs K)
    (ht : mixBuild means stds weights = .ok t) (i : ℕ) (w s w' : List K) (μ : K) (hw : weights[i]? = some w) (hm : means[i]? = some [μ])
    (hs : stds[i]? = some s) (h : s.length = w.length) (hn : mixNormRow w = some w') (x : K) :
    mixEvalRow N t i x = .ok (some (mixEval w' (s.map (N μ)) x)) := by
  have hl : w'.length = w.length := by
    unfold mixNormRow at hn
    split_ifs at hn
    rw [← Option.some.inj hn]; simp
  have hsp : ∀ {l : List K}, l.length = w.length → spread w.length l = l := by
    intro l hl
    unfold spread
    split
    · rename_i a
      rw [← hl]; rfl
    · rfl
  have := (((C145_mix_partial N means stds weights).2 t ht i x).2 w [μ] s hw hm hs).1 w.length w' (by
    unfold Fits; simp only [List.forall_mem_cons]; exact ⟨.inr rfl, .inl h, by simp⟩) (by simp) hn
  rw [this, hsp hl, hsp h]
  congr 3
  unfold spread
  rw [← h]
  clear this hs h
  induction s with
  | nil => simp
  | cons b s ih => simp [List.replicate_succ, ih]

/-! ## packed PDFs -/

section
variable {K : Type} [Field K] [LinearOrder K] [IsStrictOrderedRing K] [FloorRing K]

theorem unpacked_one (c : List ℕ) (m : List K) (v : K) (hm : m = [v]) :
    ((List.range c.length).mapM fun k => do
      let a ← bget m k
      let b ← bget c k
      some (a * (b : K) / 255)) = some (linearUnpackRow c v) := by
  subst hm
  rw [mapM_some _ (fun k => v * ((c.getD k 0 : ℕ) : K) / 255)]
  · congr 1
    unfold linearUnpackRow
    refine List.ext_getElem (by simp) fun i h1 h2 => ?_
    simp only [List.getElem_map, List.getElem_range]
    rw [List.getD_eq_getElem _ _ (by simpa using h2)]
  · intro k hk
    rw [List.mem_range] at hk
    have h1 : bget [v] k = some v := rfl
    have h2 : bget c k = some (c.getD k 0) := by
      rw [bget_spread (.inl rfl) hk]
      have : spread c.length c = c := by
        unfold spread
        split
        · rfl
        · rfl
      rw [this, List.getElem?_eq_getElem hk, List.getD_eq_getElem _ _ hk]
    simp [h1, h2]

theorem unpack_scale (xs : List K) (c : List ℕ) (hg : XGrid xs c.length) (u v : K) (hu : u ≠ 0) (hv : v ≠ 0) : packedNormRow xs c u = packedNormRow xs c v := by
  unfold packedNormRow
  have e : linearUnpackRow c u = (linearUnpackRow c v).map (· / (v / u)) := by
    unfold linearUnpackRow
    rw [List.map_map]
    refine List.map_congr_left fun c _ => ?_
    simp only [Function.comp_apply]
    field_simp
  rw [e]
  exact InterpPdf.C12_scale_invariant xs _ (by simpa [linearUnpackRow] using hg) _ (div_ne_zero hv hu)

theorem mapM_congr' {α β : Type} (f g : α → Except Err β) : ∀ l : List α, (∀ a ∈ l, f a = g a) → l.mapM f = l.mapM g := by
  intro l
  induction l with
  | nil => intro _; rfl
  | cons a l ih =>
    intro h
    rw [List.mapM_cons, List.mapM_cons, h a List.mem_cons_self, ih fun b hb => h b (List.mem_cons_of_mem _ hb)]

/-- **C145: maxima of packed PDFs.** With one maximum (not zero) per PDF the ensemble is the one of the PDFs; one maximum for all PDFs gives the same
ensemble, and so does any other choice: a maximum is only a scale. Another number of rows is refused (unless there is one PDF, which takes the first). -/
theorem C145_packed (xs : List K) (codes : List (List ℕ)) (hg : ∀ c ∈ codes, XGrid xs c.length) (maxima : List K) (hm : ∀ v ∈ maxima, v ≠ 0) (hne : maxima ≠ []) :
    (maxima.length = codes.length ∨ maxima.length = 1 ∨ codes.length = 1 →
      ∀ v : K, v ≠ 0 → packedBuild xs codes (maxima.map fun m => [m]) = codes.mapM fun c => packedNormRow xs c v) ∧
    (maxima.length ≠ codes.length → maxima.length ≠ 1 → codes.length ≠ 1 → packedBuild xs codes (maxima.map fun m => [m]) = .error .ValueError) := by
  unfold packedBuild
  rw [List.length_map]
  constructor
  · intro h v hv
    have hb : ∃ n, bcast maxima.length codes.length = some n := by
      unfold bcast
      rcases h with h | h | h
      · exact ⟨_, if_pos h⟩
      · split_ifs; exacts [⟨_, rfl⟩, ⟨_, rfl⟩]
      · split_ifs; exacts [⟨_, rfl⟩, ⟨_, rfl⟩, ⟨_, rfl⟩]
    obtain ⟨n, hb⟩ := hb
    simp only [hb]
    have hcs : codes = (List.range codes.length).map fun i => codes.getD i [] := by
      refine List.ext_getElem (by simp) fun i h1 h2 => ?_
      simp only [List.getElem_map, List.getElem_range]
      rw [List.getD_eq_getElem _ _ h1]
    conv_rhs => rw [hcs, List.mapM_map]
    refine mapM_congr' _ _ _ fun i hi => ?_
    rw [List.mem_range] at hi
    have h1 : bget codes i = some (codes.getD i []) := by
      unfold bget
      rw [List.getD_eq_getElem _ _ hi]
      split_ifs with h1
      · have : i = 0 := by omega
        subst this
        exact List.getElem?_eq_getElem hi
      · exact List.getElem?_eq_getElem hi
    have h2 : ∃ m ∈ maxima, bget (maxima.map fun m => [m]) i = some [m] := by
      unfold bget
      rw [List.length_map]
      have hpos := List.length_pos_of_ne_nil hne
      split_ifs with h1
      · refine ⟨maxima[0], List.getElem_mem _, ?_⟩
        rw [List.getElem?_map, List.getElem?_eq_getElem hpos]
        rfl
      · have hi' : i < maxima.length := by omega
        refine ⟨maxima[i], List.getElem_mem _, ?_⟩
        rw [List.getElem?_map, List.getElem?_eq_getElem hi']
        rfl
    obtain ⟨m, hmm, h2⟩ := h2
    have hc : codes.getD i [] ∈ codes := by rw [List.getD_eq_getElem _ _ hi]; exact List.getElem_mem _
    have hgc := hg _ hc
    simp only [h1, h2, Function.comp]
    generalize codes.getD i [] = c at hgc
    rw [if_neg (by rw [not_not]; exact hgc.size.symm)]
    have hb1 : bcast [m].length c.length = some c.length := by
      unfold bcast
      simp only [List.length_singleton]
      split_ifs with h
      · rw [h]
      · rfl
    simp only [hb1]
    have e := unpacked_one c [m] m rfl
    rw [e, Option.getD_some]
    exact unpack_scale xs c hgc m v (hm m hmm) hv
  · intro h1 h2 h3
    have : bcast maxima.length codes.length = none := by
      unfold bcast
      rw [if_neg h1, if_neg h2, if_neg h3]
    simp only [this]

example : packedBuild (K := ℚ) [0, 1, 2] [[0, 255, 0], [255, 255, 255]] [[3], [7]] =
    .ok [some ([0, 1, 0], [0, 1/2, 1]), some ([1/2, 1/2, 1/2], [1/4, 1/2, 1])] := by decide +kernel

example : packedBuild (K := ℚ) [0, 1, 2] [[0, 255, 0], [255, 255, 255]] [[1]] =
    .ok [some ([0, 1, 0], [0, 1/2, 1]), some ([1/2, 1/2, 1/2], [1/4, 1/2, 1])] := by decide +kernel

example : packedBuild (K := ℚ) [0, 1, 2] [[0, 255, 0], [255, 255, 255]] [[3], [7], [1]] = .error .ValueError := by decide +kernel

end

/-! ## splines -/

/-- **C145: orders of splines.** Knots and coefficients of the same shape (and not empty) are accepted with any table of orders. PDF `i` is evaluated
with its own row of orders, if that has one entry; without such a row the evaluation is an `IndexError`, with several orders or none a `ValueError`. -/
theorem C145_spline {K : Type} (ev : List K → List K → ℕ → K → K) (x y : List (List K)) (n : List (List ℕ)) :
    ((∃ t, splineBuild x y n = .ok t) ↔ x.map List.length = y.map List.length ∧ x.flatten ≠ []) ∧
    ∀ t, splineBuild x y n = .ok t → ∀ (i : ℕ) (a b : List K), x[i]? = some a → y[i]? = some b → ∀ p : K,
      (∀ k, n[i]? = some [k] → splineEvalRow ev t i p = .ok (ev a b k p)) ∧
      (n.length ≤ i → splineEvalRow ev t i p = .error .IndexError) ∧
      (∀ r, n[i]? = some r → r.length ≠ 1 → splineEvalRow ev t i p = .error .ValueError) := by
  unfold splineBuild
  constructor
  · split_ifs with h1 h2
    · simp [h1]
    · simp [h2]
    · exact ⟨fun _ => ⟨by simpa using h1, h2⟩, fun _ => ⟨_, rfl⟩⟩
  · intro t ht i a b ha hb p
    split_ifs at ht with h1 h2
    rw [Except.ok.injEq] at ht
    subst ht
    unfold splineEvalRow
    simp only [ha, hb]
    refine ⟨fun k hk => by simp only [hk], fun hl => by simp only [List.getElem?_eq_none hl], fun r hr hl => ?_⟩
    simp only [hr]
    match r, hl with
    | [], _ => rfl
    | [_], hl => exact absurd rfl hl
    | _ :: _ :: _, _ => rfl

example : (splineBuild (K := ℚ) [[0, 1], [2, 3]] [[4, 5], [6, 7]] [[3]]).bind (fun t => splineEvalRow (fun a _ k (x : ℚ) => a.getD 0 0 + k + x) t 0 1) = .ok 4 ∧
    (splineBuild (K := ℚ) [[0, 1], [2, 3]] [[4, 5], [6, 7]] [[3]]).bind (fun t => splineEvalRow (fun a _ k (x : ℚ) => a.getD 0 0 + k + x) t 1 1) = .error .IndexError := by
  decide +kernel

end Verif.Props.Mismatch
