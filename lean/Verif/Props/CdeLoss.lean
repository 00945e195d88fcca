import Mathlib.Algebra.Order.Ring.Rat
import Mathlib.Algebra.BigOperators.Group.List.Basic
import Verif.Props.BrierChunks
import Verif.Props.Shapes
import Verif.Model.PointStats

/-!
# C64: the CDE loss from chunks, C65: the iterator of the point metrics
-/

set_option linter.unusedSectionVars false
set_option autoImplicit false

namespace Verif.Props.Metrics

open Verif Verif.Np Verif.Model

variable {K : Type} [Field K] [LinearOrder K] [IsStrictOrderedRing K]

/-- position `i` of the grid is the nearest to `z`, and the first such position -/
def IsNearest (xs : List K) (z : K) (i : ℕ) : Prop :=
  ∃ x, xs[i]? = some x ∧ (∀ y ∈ xs, |x - z| ≤ |y - z|) ∧ ∀ (j : ℕ) y, j < i → xs[j]? = some y → |x - z| < |y - z|

theorem nearest_ok (xs : List K) (z : K) (h : xs ≠ []) : ∃ i, nearest xs z = .ok i ∧ IsNearest xs z i := by
  obtain ⟨k, hk, v, hv, hmax, hfirst⟩ := Shapes.argmax_spec ((xs.map fun x => |x - z|).map fun v => -v) (by simpa using h)
  refine ⟨k, by simp only [nearest, argmin, hk], ?_⟩
  simp only [List.getElem?_map, Option.map_eq_some_iff, exists_exists_and_eq_and] at hv hmax hfirst
  obtain ⟨x, hx, rfl⟩ := hv
  refine ⟨x, hx, ?_, ?_⟩
  · intro y hy
    obtain ⟨j, hj, rfl⟩ := List.mem_iff_getElem.1 hy
    have := hmax j _ ⟨xs[j], by simp [hj], rfl⟩
    linarith
  · intro j y hj hy
    have := hfirst j _ hj ⟨y, hy, rfl⟩
    linarith

theorem isNearest_unique {xs : List K} {z : K} {i j : ℕ} (hi : IsNearest xs z i) (hj : IsNearest xs z j) : i = j := by
  obtain ⟨x, hx, _, h1⟩ := hi
  obtain ⟨y, hy, hym, h2⟩ := hj
  have mem (l : List K) (k : ℕ) (v : K) (h : l[k]? = some v) : v ∈ l := List.mem_of_getElem? h
  rcases lt_trichotomy i j with h | h | h
  · have := h2 i x h hx
    rename_i hxm
    have := hym x (mem _ _ _ hx)
    have := hxm y (mem _ _ _ hy)
    linarith
  · exact h
  · have := h1 j y h hy
    have := hym x (mem _ _ _ hx)
    linarith

/-- The grid point used for a true value is the nearest one, the first of them in case of a tie; without grid points the search raises. -/
theorem C64_nearest (xs : List K) (z : K) (i : ℕ) : nearest xs z = .ok i ↔ IsNearest xs z i := by
  by_cases h : xs = []
  · subst h
    refine ⟨fun h => by simp [nearest, argmin, argmax] at h, fun ⟨x, hx, _⟩ => by simp at hx⟩
  · obtain ⟨k, hk, hn⟩ := nearest_ok xs z h
    rw [hk]
    refine ⟨fun h => by cases h; exact hn, fun h' => by rw [isNearest_unique hn h']⟩

/-- an ensemble with one index and one true value per PDF -/
structure Matched (c : FnEns K × List K) : Prop where
  shape : c.1.shape = [c.2.length]
  fns : c.1.fns.length = c.2.length

/-- the grid point used for `z` -/
def nearPoint (xs : List K) (z : K) : K := (xs[((nearest xs z).toOption).getD 0]?).getD 0

theorem nearPoint_spec (xs : List K) (z : K) (h : xs ≠ []) : nearPoint xs z ∈ xs ∧ ∀ y ∈ xs, |nearPoint xs z - z| ≤ |y - z| := by
  obtain ⟨i, hi, x, hx, hm, _⟩ := nearest_ok xs z h
  have : nearPoint xs z = x := by simp [nearPoint, hi, Except.toOption, hx]
  rw [this]
  exact ⟨List.mem_of_getElem? hx, hm⟩

theorem mapM_some {α β : Type} (f : α → Option β) (g : α → β) (l : List α) (h : ∀ a ∈ l, f a = some (g a)) : l.mapM f = some (l.map g) := by
  induction l with
  | nil => rfl
  | cons a l ih => simp [List.mapM_cons, h a (by simp), ih fun b hb => h b (by simp [hb])]

/-- integrals of the squared PDFs -/
def cdeSquares (xs : List K) (c : FnEns K × List K) : List K := c.1.fns.map fun f => trapz xs (xs.map fun x => f x ^ 2)

/-- the PDFs at the grid points next to the true values -/
def cdeHits (xs : List K) (c : FnEns K × List K) : List K := List.zipWith (fun f z => f (nearPoint xs z)) c.1.fns c.2

theorem cdeTerms_matched (xs : List K) (c : FnEns K × List K) (hx : xs ≠ []) (h : Matched c) :
    cdeTerms xs c.1 c.2 = .ok (cdeSquares xs c, cdeHits xs c) := by
  obtain ⟨⟨sh, fns⟩, zs⟩ := c
  obtain ⟨hs, hf⟩ := h
  simp only at hs hf
  subst hs
  have h1 : zs.mapM (nearest xs) = .ok (zs.map fun z => ((nearest xs z).toOption).getD 0) := by
    apply Lemmas.mapM_ok_map
    intro z _
    obtain ⟨i, hi, _⟩ := nearest_ok xs z hx
    simp [hi, Except.toOption]
  simp only [cdeTerms, h1, Bind.bind, Except.bind]
  have h2 : fancyPairs (fns.map fun f => xs.map f) (zs.map fun z => ((nearest xs z).toOption).getD 0)
      = .ok (cdeHits xs (⟨[zs.length], fns⟩, zs)) := by
    unfold fancyPairs
    simp only [List.length_map, hf, if_true]
    rw [mapM_some _ (fun p : ℕ × ℕ => (((fns.map fun f => xs.map f)[p.1]?).bind fun r => r[p.2]?).getD 0)]
    · simp only
      congr 1
      apply List.ext_getElem
      · simp [cdeHits, hf]
      · intro i hi hi'
        have hfi : i < fns.length := by simp [hf] at hi ⊢; exact hi
        have hzi : i < zs.length := by omega
        obtain ⟨k, hk, x, hxk, _, _⟩ := nearest_ok xs zs[i] hx
        have hkl : k < xs.length := by by_contra hh; rw [List.getElem?_eq_none (by omega)] at hxk; simp at hxk
        simp [cdeHits, hfi, nearPoint, hk, Except.toOption, hxk]
    · rintro ⟨a, b⟩ hab
      obtain ⟨i, hi, hab'⟩ := List.mem_iff_getElem.1 hab
      simp only [List.getElem_zip, List.getElem_range, List.getElem_map, Prod.mk.injEq] at hab'
      obtain ⟨rfl, rfl⟩ := hab'
      have hzi : i < zs.length := by simp at hi; exact hi
      have hfi : i < fns.length := by omega
      obtain ⟨k, hk, x, hxk, _, _⟩ := nearest_ok xs zs[i] hx
      simp [hfi, hk, Except.toOption, hxk]
  rw [h2]
  simp [cdeSquares, Function.comp_def]

theorem npMean_eq (l : List K) (n : ℕ) (h : l.length = n) : npMean l = npDiv (Np.sum l) (n : K) := by
  unfold npMean npDiv
  by_cases hl : l = []
  · subst hl; simp at h; simp [← h]
  · have : (n : K) ≠ 0 := by
      rw [← h]; simpa using hl
    rw [if_neg hl, if_neg this, h]

/-- **The CDE loss**: the mean of the integrated squared PDFs minus twice the mean of the PDFs at the grid points nearest to the true values. -/
theorem C64_value (xs : List K) (c : FnEns K × List K) (hx : xs ≠ []) (h : Matched c) (hn : c.2 ≠ []) :
    cdeEvaluate xs c.1 c.2 = .ok (some ((c.1.fns.map fun f => trapz xs (xs.map fun x => f x ^ 2)).sum / (c.2.length : K)
      - 2 * ((List.zipWith (fun f z => f (nearPoint xs z)) c.1.fns c.2).sum / (c.2.length : K)))) := by
  have hne : (c.2.length : K) ≠ 0 := by simpa using hn
  have l1 : (cdeSquares xs c).length = c.2.length := by simp [cdeSquares, h.fns]
  have l2 : (cdeHits xs c).length = c.2.length := by simp [cdeHits, h.fns]
  simp only [cdeEvaluate, cdeTerms_matched xs c hx h, Bind.bind, Except.bind]
  rw [npMean_eq _ _ l1, npMean_eq _ _ l2]
  simp only [npDiv, if_neg hne, Option.bind_some, Option.map_some, sum_eq, cdeSquares, cdeHits]

theorem stack_matched (cs : List (FnEns K × List K)) (h : ∀ c ∈ cs, Matched c) : Matched (stackFns cs) := by
  have hlen : (cs.map fun c => c.1.npdf).sum = ((cs.map (·.2)).flatten).length := by
    rw [List.length_flatten, List.map_map]
    congr 1
    apply List.map_congr_left
    intro c hc
    simp [FnEns.npdf, (h c hc).shape]
  refine ⟨by simp only [stackFns, hlen], ?_⟩
  simp only [stackFns, List.length_flatten, List.map_map]
  congr 1
  apply List.map_congr_left
  intro c hc
  simpa using (h c hc).fns

theorem squares_stack (xs : List K) (cs : List (FnEns K × List K)) : cdeSquares xs (stackFns cs) = (cs.map (cdeSquares xs)).flatten := by
  simp only [cdeSquares, stackFns, List.map_flatten, List.map_map]
  rfl

theorem hits_stack (xs : List K) (cs : List (FnEns K × List K)) (h : ∀ c ∈ cs, Matched c) :
    cdeHits xs (stackFns cs) = (cs.map (cdeHits xs)).flatten := by
  induction cs with
  | nil => rfl
  | cons c cs ih =>
    simp only [cdeHits, stackFns, List.map_cons, List.flatten_cons] at ih ⊢
    rw [List.zipWith_append (h c (by simp)).fns, ih fun c hc => h c (by simp [hc])]

theorem finalize_matched (xs : List K) (cs : List (FnEns K × List K)) (hx : xs ≠ []) (hne : cs ≠ []) (h : ∀ c ∈ cs, Matched c) :
    ((cs.mapM fun c => cdeAccumulate xs c.1 c.2) >>= cdeFinalize)
      = .ok ((npDiv (cs.map fun c => (cdeSquares xs c).sum).sum (((cs.map fun c => c.2.length).sum : ℕ) : K)).bind fun t1 =>
          (npDiv (cs.map fun c => (cdeHits xs c).sum).sum (((cs.map fun c => c.2.length).sum : ℕ) : K)).map fun t2 => t1 - 2 * t2) := by
  have h1 : (cs.mapM fun c => cdeAccumulate xs c.1 c.2)
      = .ok (cs.map fun c => (Np.sum (cdeSquares xs c), Np.sum (cdeHits xs c), c.2.length)) := by
    apply Lemmas.mapM_ok_map
    intro c hc
    simp [cdeAccumulate, cdeTerms_matched xs c hx (h c hc), Bind.bind, Except.bind, FnEns.npdf, (h c hc).shape]
  rw [h1]
  simp only [Bind.bind, Except.bind, cdeFinalize]
  rw [if_neg (by simpa using hne)]
  simp only [List.map_map, Function.comp_def]
  have := sum_cast (K := K) (cs.map fun c => c.2.length)
  rw [List.map_map] at this
  simp only [Function.comp_def] at this
  rw [this]
  simp only [sum_eq]

/-- **C64.** However the objects are split into chunks (of any sizes, also empty ones), and in whatever order the chunks come: accumulating
them one by one and finalising gives the loss of the whole. -/
theorem C64_chunks (xs : List K) (cs cs' : List (FnEns K × List K)) (hx : xs ≠ []) (hne : cs ≠ []) (h : ∀ c ∈ cs, Matched c)
    (hp : cs'.Perm cs) :
    ((cs'.mapM fun c => cdeAccumulate xs c.1 c.2) >>= cdeFinalize) = cdeEvaluate xs (stackFns cs).1 (stackFns cs).2 := by
  have hm := stack_matched cs h
  have hne' : cs' ≠ [] := fun hh => hne (by rw [hh] at hp; exact hp.nil_eq.symm)
  rw [finalize_matched xs cs' hx hne' (fun c hc => h c (hp.mem_iff.1 hc))]
  simp only [cdeEvaluate, cdeTerms_matched xs _ hx hm, Bind.bind, Except.bind]
  rw [npMean_eq _ (stackFns cs).2.length (by simp only [cdeSquares, List.length_map]; exact hm.fns),
    npMean_eq _ (stackFns cs).2.length (by simp only [cdeHits, List.length_zipWith, hm.fns, min_self])]
  have e0 : (stackFns cs).2.length = (cs'.map fun c => c.2.length).sum := by
    rw [(hp.map _).sum_eq]
    simp [stackFns, List.length_flatten, List.map_map, Function.comp_def]
  rw [e0, squares_stack, hits_stack xs cs h, sum_flatten, sum_flatten]
  simp only [List.map_map, sum_eq, Function.comp_def]
  rw [(hp.map fun c => (cdeSquares xs c).sum).sum_eq, (hp.map fun c => (cdeHits xs c).sum).sum_eq]

/-- Without grid points, or with a number of true values that is neither the number of PDFs nor broadcast, the loss raises. -/
theorem C64_errors (xs : List K) (e : FnEns K) (zs : List K) (hs : e.shape = [e.fns.length]) :
    (xs = [] → zs ≠ [] → cdeEvaluate xs e zs = .error .ValueError ∧ cdeAccumulate xs e zs = .error .ValueError) ∧
    (xs ≠ [] → e.fns.length ≠ zs.length → e.fns.length ≠ 1 → zs.length ≠ 1 →
      cdeEvaluate xs e zs = .error .IndexError ∧ cdeAccumulate xs e zs = .error .IndexError) := by
  constructor
  · rintro rfl hz
    obtain ⟨z, zs, rfl⟩ := List.exists_cons_of_ne_nil hz
    have : cdeTerms [] e (z :: zs) = .error .ValueError := by
      simp [cdeTerms, hs, List.mapM_cons, nearest, argmin, argmax, Bind.bind, Except.bind]
    simp [cdeEvaluate, cdeAccumulate, this, Bind.bind, Except.bind]
  · intro hx h1 h2 h3
    have hm : zs.mapM (nearest xs) = .ok (zs.map fun z => ((nearest xs z).toOption).getD 0) := by
      apply Lemmas.mapM_ok_map
      intro z _
      obtain ⟨i, hi, _⟩ := nearest_ok xs z hx
      simp [hi, Except.toOption]
    have : cdeTerms xs e zs = .error .IndexError := by
      simp only [cdeTerms, hs, hm, Bind.bind, Except.bind, fancyPairs, List.length_map]
      rw [if_neg h1, if_neg h2]
      match zs, h3 with
      | [], _ => simp
      | [_], h3 => simp at h3
      | _ :: _ :: _, _ => simp
    simp [cdeEvaluate, cdeAccumulate, this, Bind.bind, Except.bind]

/-- The number of true values is not checked: one PDF with two true values is accepted, and then finalising the single chunk differs from
evaluating it. -/
theorem C64_broadcast_differs : ∃ (xs : List ℚ) (e : FnEns ℚ) (zs : List ℚ) (v w : ℚ), e.npdf = 1 ∧ zs.length = 2 ∧
    cdeEvaluate xs e zs = .ok (some v) ∧ ([(e, zs)].mapM (fun c => cdeAccumulate xs c.1 c.2) >>= cdeFinalize) = .ok (some w) ∧ v ≠ w :=
  ⟨[0, 1], ⟨[1], [fun _ => 1]⟩, [0, 1], -1, -3, by decide +kernel, by decide +kernel, by decide +kernel, by decide +kernel, by decide +kernel⟩

/-- two chunks, of two and one PDFs, whose true values fall between grid points; the second chunk is handled first -/
example : (([((⟨[1], [fun x => 2 * x]⟩ : FnEns ℚ), [9/10]), (⟨[2], [fun _ => 1, fun x => 1 - x]⟩, [1/5, 7/10])].mapM
      fun c => cdeAccumulate [0, 1/2, 1] c.1 c.2) >>= cdeFinalize) = .ok (some (-11/8)) ∧
    cdeEvaluate [0, 1/2, 1] (stackFns [((⟨[2], [fun _ => 1, fun x => 1 - x]⟩ : FnEns ℚ), [1/5, 7/10]), (⟨[1], [fun x => 2 * x]⟩, [9/10])]).1
      (stackFns [((⟨[2], [fun _ => 1, fun x => 1 - x]⟩ : FnEns ℚ), [1/5, 7/10]), (⟨[1], [fun x => 2 * x]⟩, [9/10])]).2
      = .ok (some (-11/8)) := by decide +kernel

/-! ## C65 -/

theorem iterAccumulate_append {α γ : Type} (acc : α → Except Err γ) (l m : List α) (c : Option γ) :
    iterAccumulate acc c (l ++ m) = iterAccumulate acc c l >>= fun c' => iterAccumulate acc c' m := by
  induction l generalizing c with
  | nil => rfl
  | cons a l ih =>
    simp only [List.cons_append, iterAccumulate]
    cases acc a with
    | error e => rfl
    | ok v => exact ih (some v)

theorem iterAccumulate_ok {α γ : Type} (acc : α → Except Err γ) (l : List α) (c : Option γ) (h : ∀ a ∈ l, ∃ v, acc a = .ok v) :
    ∃ c', iterAccumulate acc c l = .ok c' := by
  induction l generalizing c with
  | nil => exact ⟨c, rfl⟩
  | cons a l ih =>
    obtain ⟨v, hv⟩ := h a (by simp)
    simp only [iterAccumulate, hv]
    exact ih (some v) fun b hb => h b (by simp [hb])

/-- What the iterator computes, for every metric (accumulation and finalisation arbitrary): when every chunk can be accumulated, the result
is the one for the **last chunk alone**. -/
theorem C65_last_only {α γ δ : Type} (acc : α → Except Err γ) (fin : List γ → Except Err δ) (pre : List α) (x : α)
    (h : ∀ a ∈ pre, ∃ v, acc a = .ok v) : evalFromIterator acc fin (pre ++ [x]) = acc x >>= fun c => fin [c] := by
  obtain ⟨c', hc⟩ := iterAccumulate_ok acc pre none h
  simp only [evalFromIterator, iterAccumulate_append, hc, Bind.bind, Except.bind, iterAccumulate]
  cases acc x <;> rfl

/-- A chunk that cannot be accumulated raises, and an empty iterator raises `UnboundLocalError`. -/
theorem C65_errors {α γ δ : Type} (acc : α → Except Err γ) (fin : List γ → Except Err δ) :
    evalFromIterator acc fin [] = .error .UnboundLocalError ∧
    ∀ (pre post : List α) (x : α) (e : Err), (∀ a ∈ pre, ∃ v, acc a = .ok v) → acc x = .error e →
      evalFromIterator acc fin (pre ++ x :: post) = .error e := by
  refine ⟨rfl, ?_⟩
  intro pre post x e h hx
  obtain ⟨c', hc⟩ := iterAccumulate_ok acc pre none h
  simp [evalFromIterator, iterAccumulate_append, hc, Bind.bind, Except.bind, iterAccumulate, hx]

/-- **C65**, for a single chunk: the iterator gives what finalising all accumulated chunks gives. For two or more chunks the claim is false
of the code (`C65_drops_chunks`); `C65_last_only` says what happens instead. -/
theorem C65_one_chunk_partial {α γ δ : Type} (acc : α → Except Err γ) (fin : List γ → Except Err δ) (x : α) :
    evalFromIterator acc fin [x] = [x].mapM acc >>= fin := by
  simp only [evalFromIterator, iterAccumulate, List.mapM_cons, List.mapM_nil, Bind.bind, Except.bind, pure, Except.pure]
  cases acc x <;> rfl

/-- the iterator agrees with finalising all chunks exactly when the chunks before the last make no difference -/
theorem C65_agree_iff {α γ δ : Type} (acc : α → γ) (fin : List γ → Except Err δ) (pre : List α) (x : α) :
    evalFromIterator (fun a => .ok (acc a)) fin (pre ++ [x]) = ((pre ++ [x]).mapM (fun a => (.ok (acc a) : Except Err γ)) >>= fin) ↔
      fin [acc x] = fin (pre.map acc ++ [acc x]) := by
  rw [C65_last_only _ _ _ _ fun a _ => ⟨acc a, rfl⟩]
  rw [Lemmas.mapM_ok_map (fun a => (.ok (acc a) : Except Err γ)) acc _ fun a _ => rfl]
  simp [Bind.bind, Except.bind]

/-- The earlier chunks are dropped: with a digest that keeps all residuals, the bias of the chunks with residuals 0, 0, 0 and 1 comes out as
1 although the median of all residuals is 0. -/
theorem C65_drops_chunks :
    evalFromIterator (fun c : List ℚ × List ℚ => ezList c.1 c.2) (fun ds => .ok (npMedian ds.flatten)) [([0, 0, 0], [0, 0, 0]), ([1], [0])]
      = .ok (some 1) ∧
    ([(([0, 0, 0] : List ℚ), ([0, 0, 0] : List ℚ)), ([1], [0])].mapM (fun c => ezList c.1 c.2) >>= fun ds => .ok (npMedian ds.flatten))
      = .ok (some 0) ∧
    pointBias (K := ℚ) [0, 0, 0, 1] [0, 0, 0, 0] = .ok (some 0) := by decide +kernel

end Verif.Props.Metrics
