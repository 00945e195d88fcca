import Verif.Props.Stream
import Verif.Props.CdeLoss
import Verif.Props.SliceEval
import Verif.Props.Pit
import Verif.Props.Divergence

/-!
# C119: metrics of a file computed chunk by chunk
-/

set_option linter.unusedSectionVars false
set_option autoImplicit false

namespace Verif.Props.StreamMetrics

open Verif Verif.Np Verif.Model Verif.Spec Verif.Lemmas Verif.Props.ExEns Verif.Props.State Verif.Props.Chunks Verif.Props.Stream
open Verif.Props.Metrics

variable {K : Type} [Field K] [LinearOrder K] [IsStrictOrderedRing K]

/-- the functions of the PDFs of an ensemble: PDF `i` has the function that the class computes from the metadata and from line `i` of the
tables -/
def fnsOf (f : Dict K → (String → List (Elem K)) → K → K) (fr : Frozen K) : FnEns K :=
  ⟨[fr.npdf], (List.range fr.npdf).map fun i => f fr.metadata (tableRow fr i)⟩

/-- entries `s, ..., t - 1` of a list, as `truth[s:t]` -/
def part {α : Type} (l : List α) (s t : ℕ) : List α := (l.drop s).take (t - s)

theorem range'_part (n s t : ℕ) (h : t ≤ n) : List.range' s (t - s) = part (List.range n) s t := by
  unfold part
  apply List.ext_getElem
  · simp; omega
  · intro i h1 h2
    simp

theorem part_map {α β : Type} (l : List α) (F : α → β) (s t : ℕ) : part (l.map F) s t = (part l s t).map F := by
  simp [part, List.map_take, List.map_drop]

theorem part_length {α : Type} (l : List α) (s t : ℕ) (h : t ≤ l.length) : (part l s t).length = t - s := by
  simp [part]; omega

/-- the PDFs of an item -/
theorem item_fns {k : RowKind} {e : Ens K} (h : Reach k e) {s t : ℕ} {e' : Ens K} (h1 : s ≤ t) (h2 : t ≤ e.frozen.npdf)
    (hg : getItem e (.slice (some (s : ℤ)) (some (t : ℤ)) none) = .ok e') {β : Type} (f : Dict K → (String → List (Elem K)) → β) :
    e'.frozen.npdf = t - s ∧ (List.range (t - s)).map (fun i => f e'.frozen.metadata (tableRow e'.frozen i)) =
      part ((List.range e.frozen.npdf).map fun i => f e.frozen.metadata (tableRow e.frozen i)) s t := by
  obtain ⟨sl, hr, hsel, -⟩ := SliceEval.select_ok k h _ hg
  rw [Select.C32_slice_key _ _ _ h1 h2] at hr
  obtain rfl := Except.ok.inj hr
  have hrows : selRows (.many (List.range' s (t - s))) = List.range' s (t - s) := rfl
  rw [hrows] at hsel
  refine ⟨by rw [hsel.npdf]; simp, ?_⟩
  rw [part_map, ← range'_part _ _ _ h2]
  apply List.ext_getElem
  · simp
  · intro j h3 h4
    simp only [List.getElem_map, List.getElem_range, hsel.metadata]
    rw [SliceEval.tableRow_selects h hsel j (by simpa using h4)]

/-- the file read in chunks: what each item of the iterator contains -/
theorem item_parts {r : Reg K} (hr : Registered r) {k : RowKind} {e : Ens K} (h : Reach k e) {t : Tabs K} (ht : Holds t e)
    (ha : FileAncil e.ancil e.frozen.npdf) (c rank size : ℕ) (hc : 0 < c) {β : Type} (f : Dict K → (String → List (Elem K)) → β) :
    ∃ cs st, iterRun r t c rank size (dataRanges e.frozen.npdf c size rank).length = .ok (cs, st) ∧
      cs.map (fun x => (x.start, x.stop)) = dataRanges e.frozen.npdf c size rank ∧
      ∀ x ∈ cs, x.start < x.stop ∧ x.stop ≤ e.frozen.npdf ∧ x.ens.frozen.npdf = x.stop - x.start ∧
        (List.range x.ens.frozen.npdf).map (fun i => f x.ens.frozen.metadata (tableRow x.ens.frozen i)) =
          part ((List.range e.frozen.npdf).map fun i => f e.frozen.metadata (tableRow e.frozen i)) x.start x.stop := by
  obtain ⟨cs, st, h1, h2⟩ := items hr h ht ha c rank size (dataRanges e.frozen.npdf c size rank).length hc
  rw [List.take_length] at h2
  refine ⟨cs, st, h1, ?_, ?_⟩
  · clear h1
    generalize dataRanges e.frozen.npdf c size rank = l at h2
    induction h2 with
    | nil => rfl
    | cons hx _ ih => rw [List.map_cons, ih, hx.1, hx.2.1]
  · intro x hx
    obtain ⟨rg, hm, hs, ht', e', hg, hfr⟩ := forall₂_mem_right h2 hx
    have hb := C48_range_bounds _ _ _ _ _ _ hc hm
    have := item_fns h (by omega) (by omega) hg f
    rw [hs, ht', hfr, this.1]
    exact ⟨hb.1, hb.2.1, rfl, this.2⟩

theorem parts_flatten {α : Type} (l : List α) (c : ℕ) (hc : 0 < c) :
    ((dataRanges l.length c 1 0).map fun rg => part l rg.1 rg.2).flatten = l := by
  cases l with
  | nil => simp [dataRanges, nChunks]
  | cons a l' =>
    obtain ⟨l, hll⟩ : ∃ l, l = a :: l' := ⟨_, rfl⟩
    rw [← hll]
    have hl : l = (List.range l.length).map fun i => l.getD i a := by
      apply List.ext_getElem
      · simp
      · intro i h1 h2
        simp [h1]
    have hp : ∀ rg ∈ dataRanges l.length c 1 0, part l rg.1 rg.2 = (List.range' rg.1 (rg.2 - rg.1)).map fun i => l.getD i a := by
      intro rg hm
      rw [range'_part l.length _ _ (C48_range_bounds _ _ _ _ _ _ hc hm).2.1, ← part_map, ← hl]
    rw [List.map_congr_left hp]
    have h := C48_one_rank l.length c hc
    rw [List.flatMap_def] at h
    conv_rhs => rw [hl, ← h, List.map_flatten, List.map_map]
    rfl

/-- the ranges of all processes together are the ranges of one process -/
theorem ranges_perm (n c size : ℕ) (hc : 0 < c) (hs : 0 < size) :
    ((List.range size).flatMap fun rank => dataRanges n c size rank).Perm (dataRanges n c 1 0) := by
  have hnd : ∀ P r, (dataRanges n c P r).Nodup := by
    intro P r
    apply (C48_in_order n c P r).imp_of_mem
    intro a b ha hb hab heq
    subst heq
    have := (C48_range_bounds _ _ _ _ _ _ hc ha).1
    omega
  rw [List.perm_ext_iff_of_nodup ?_ (hnd 1 0)]
  · rintro ⟨s, t⟩
    simp only [List.mem_flatMap, List.mem_range, mem_dataRanges _ _ _ _ _ _ hc]
    constructor
    · rintro ⟨rank, -, i, -, h⟩
      exact ⟨i, Nat.mod_one _, h⟩
    · rintro ⟨i, -, h⟩
      exact ⟨i % size, Nat.mod_lt _ hs, i, rfl, h⟩
  · rw [List.nodup_flatMap]
    refine ⟨fun r _ => hnd size r, ?_⟩
    apply List.Nodup.pairwise_of_forall_ne List.nodup_range
    intro r hr r' hr' hne
    rintro ⟨s, t⟩ h1 h2
    obtain ⟨i, hi, hs1, -⟩ := (mem_dataRanges _ _ _ _ _ _ hc).1 h1
    obtain ⟨j, hj, hs2, -⟩ := (mem_dataRanges _ _ _ _ _ _ hc).1 h2
    have : i = j := Nat.eq_of_mul_eq_mul_right hc (by rw [← hs1, hs2])
    exact hne (by rw [← hi, ← hj, this])

/-- a list computed PDF by PDF, item by item: the pieces of one process put together -/
theorem whole_flatten {l : List (Chunk K)} {n c : ℕ} (hc : 0 < c) (h : l.map (fun x => (x.start, x.stop)) = dataRanges n c 1 0)
    {β : Type} (vals : List β) (hv : vals.length = n) : (l.map fun x => part vals x.start x.stop).flatten = vals := by
  conv_rhs => rw [← parts_flatten vals c hc, hv, ← h, List.map_map]
  rfl

/-- **C119**, evaluation: evaluating an item of the iterator at increasing points gives the lines of its rows in the evaluation of the whole
file, for every chunk size, number of processes and process; the items of one process that reads alone give all lines in order.
Missing from the full claim: points that are not increasing (`C01_unsorted_points_wrong`: there the result depends on whether a chunk
has one PDF). -/
theorem C119_eval_partial {r : Reg K} (hr : Registered r) {k : RowKind} {e : Ens K} (h : Reach k e) {t : Tabs K} (ht : Holds t e)
    (ha : FileAncil e.ancil e.frozen.npdf) (c size : ℕ) (hc : 0 < c) {β : Type} (f : Dict K → (String → List (Elem K)) → K → β)
    (xs : List K) (hx : xs.Pairwise (· < ·)) :
    ∃ vals, ensEval f e.frozen xs = .ok vals ∧ vals.length = e.frozen.npdf ∧
      (∀ rank, ∃ cs st, iterRun r t c rank size (dataRanges e.frozen.npdf c size rank).length = .ok (cs, st) ∧
        cs.map (fun x => (x.start, x.stop)) = dataRanges e.frozen.npdf c size rank ∧
        ∀ x ∈ cs, ensEval f x.ens.frozen xs = .ok (part vals x.start x.stop)) ∧
      ∃ cs st, iterRun r t c 0 1 (dataRanges e.frozen.npdf c 1 0).length = .ok (cs, st) ∧
        (cs.mapM fun x => ensEval f x.ens.frozen xs).map List.flatten = .ok vals := by
  have hev : ∀ fr : Frozen K, ensEval f fr xs =
      .ok ((List.range fr.npdf).map fun i => xs.map (f fr.metadata (tableRow fr i))) := fun fr =>
    Evaluation.C01_shared_grid_partial _ _ _ (Or.inl hx)
  refine ⟨_, hev e.frozen, by simp, ?_, ?_⟩
  · intro rank
    obtain ⟨cs, st, h1, h2, h3⟩ := item_parts hr h ht ha c rank size hc fun md row => xs.map (f md row)
    exact ⟨cs, st, h1, h2, fun x hxm => by rw [hev, (h3 x hxm).2.2.2]⟩
  · obtain ⟨cs, st, h1, h2, h3⟩ := item_parts hr h ht ha c 0 1 hc fun md row => xs.map (f md row)
    refine ⟨cs, st, h1, ?_⟩
    rw [mapM_ok_map _ (fun x : Chunk K => part ((List.range e.frozen.npdf).map fun i => xs.map (f e.frozen.metadata (tableRow e.frozen i)))
      x.start x.stop) cs fun x hxm => by rw [hev, (h3 x hxm).2.2.2]]
    simp only [Except.map]
    rw [whole_flatten hc h2 _ (by simp)]

/-- the item of the iterator with its true values, as the metrics see it -/
def itemOf (f : Dict K → (String → List (Elem K)) → K → K) (zs : List K) (x : Chunk K) : FnEns K × List K :=
  (fnsOf f x.ens.frozen, part zs x.start x.stop)

/-- rows `s, ..., t - 1` with their true values -/
def partOf (f : Dict K → (String → List (Elem K)) → K → K) (fr : Frozen K) (zs : List K) (rg : ℕ × ℕ) : FnEns K × List K :=
  (⟨[rg.2 - rg.1], part (fnsOf f fr).fns rg.1 rg.2⟩, part zs rg.1 rg.2)

/-- the items of one process -/
theorem items_eq {r : Reg K} (hr : Registered r) {k : RowKind} {e : Ens K} (h : Reach k e) {t : Tabs K} (ht : Holds t e)
    (ha : FileAncil e.ancil e.frozen.npdf) (c size rank : ℕ) (hc : 0 < c) (f : Dict K → (String → List (Elem K)) → K → K)
    (zs : List K) : ∃ cs st, iterRun r t c rank size (dataRanges e.frozen.npdf c size rank).length = .ok (cs, st) ∧
      cs.map (itemOf f zs) = (dataRanges e.frozen.npdf c size rank).map (partOf f e.frozen zs) := by
  obtain ⟨cs, st, h1, h2, h3⟩ := item_parts hr h ht ha c rank size hc f
  refine ⟨cs, st, h1, ?_⟩
  rw [← h2, List.map_map]
  apply List.map_congr_left
  intro x hx
  obtain ⟨-, -, h5, h6⟩ := h3 x hx
  simp only [itemOf, fnsOf, Function.comp, partOf]
  rw [← h6, h5]

/-- the parts put together -/
theorem stack_parts [FloorRing K] (f : Dict K → (String → List (Elem K)) → K → K) (fr : Frozen K) (zs : List K) (hz : zs.length = fr.npdf)
    (c : ℕ) (hc : 0 < c) : stackFns ((dataRanges fr.npdf c 1 0).map (partOf f fr zs)) = (fnsOf f fr, zs) ∧
      ∀ rg ∈ dataRanges fr.npdf c 1 0, Matched (partOf f fr zs rg) := by
  have hfl : (fnsOf f fr).fns.length = fr.npdf := by simp [fnsOf]
  constructor
  · have hz' := parts_flatten zs c hc
    have hf' := parts_flatten (fnsOf f fr).fns c hc
    rw [hz] at hz'
    rw [hfl] at hf'
    have hn : ((dataRanges fr.npdf c 1 0).map fun rg => rg.2 - rg.1).sum = fr.npdf := by
      have := congrArg List.length (C48_one_rank fr.npdf c hc)
      simpa [List.length_flatMap] using this
    simp only [stackFns, List.map_map, Function.comp_def, partOf, FnEns.npdf, List.prod_cons, List.prod_nil, mul_one, hn]
    rw [hf', hz']
    rfl
  · intro rg hm
    have hb := C48_range_bounds _ _ _ _ _ _ hc hm
    have h5 := part_length (fnsOf f fr).fns rg.1 rg.2 (by omega)
    have h6 := part_length zs rg.1 rg.2 (by omega)
    exact ⟨by simp only [partOf, h6], by simp only [partOf, h5, h6]⟩

theorem ranges_ne_nil {n c : ℕ} (hc : 0 < c) (h : n ≠ 0) : dataRanges n c 1 0 ≠ [] := by
  intro h'
  have := C48_one_rank n c hc
  rw [h'] at this
  simp at this
  omega

/-- the accumulated Brier score does not depend on the order of the chunks -/
theorem brier_order [FloorRing K] (cs cs' : List (FnEns K × List K)) (hp : cs'.Perm cs) (l0 l1 dx : K) (hne : cs ≠ [])
    (h : ∀ c ∈ cs, GoodChunk l0 l1 c) (h2 : ∀ c ∈ cs, 2 ≤ c.2.length) :
    ((cs'.mapM fun c => accumulateBrier c.1 c.2 l0 l1 dx) >>= finalizeBrier) =
      ((cs.mapM fun c => accumulateBrier c.1 c.2 l0 l1 dx) >>= finalizeBrier) := by
  cases hgr : gridParams l0 l1 dx with
  | error er =>
    have he : ∀ c ∈ cs, accumulateBrier c.1 c.2 l0 l1 dx = .error er := by
      intro c hc
      have hc := h c hc
      unfold accumulateBrier prepareBrier
      rw [if_neg (by simp [FnEns.npdf, hc.shape]), if_neg (by rw [(inLimits_iff l0 l1 c.2).2 hc.limits]; simp), hgr]
      rfl
    have hall : ∀ l : List (FnEns K × List K), l ≠ [] → (∀ c ∈ l, c ∈ cs) →
        (l.mapM fun c => accumulateBrier c.1 c.2 l0 l1 dx) = .error er := by
      intro l hl hm
      obtain ⟨c, l', rfl⟩ := List.exists_cons_of_ne_nil hl
      rw [List.mapM_cons, he c (hm c (by simp))]
      rfl
    have hne' : cs' ≠ [] := fun hh => hne (by rw [hh] at hp; exact hp.nil_eq.symm)
    rw [hall cs' hne' fun c hc => hp.mem_iff.1 hc, hall cs hne fun c hc => hc]
  | ok g =>
    have hacc : ∀ c ∈ cs, accumulateBrier c.1 c.2 l0 l1 dx = .ok (Np.sum (brierTerms g c), c.2.length) := by
      intro c hc
      obtain ⟨p, t, hp, hs⟩ := brierSums_chunk l0 l1 dx g hgr c (h c hc) (h2 c hc)
      simp [accumulateBrier, hp, brierAccumulate, hs, Bind.bind, Except.bind, Except.map, FnEns.npdf, (h c hc).shape]
    rw [Lemmas.mapM_ok_map _ _ cs hacc, Lemmas.mapM_ok_map _ _ cs' fun c hc => hacc c (hp.mem_iff.1 hc)]
    simp only [Bind.bind, Except.bind, finalizeBrier, List.map_eq_nil_iff, List.map_map, sum_eq]
    have hnil : cs' = [] ↔ cs = [] := by
      constructor
      · rintro rfl; exact hp.nil_eq.symm
      · rintro rfl; exact hp.eq_nil
    simp only [hnil]
    rw [(hp.map _).sum_eq, (hp.map _).sum_eq]

/-- the items of all processes together, in any order, are the parts -/
theorem items_perm {r : Reg K} (hr : Registered r) {k : RowKind} {e : Ens K} (h : Reach k e) {t : Tabs K} (ht : Holds t e)
    (ha : FileAncil e.ancil e.frozen.npdf) (c size : ℕ) (hc : 0 < c) (hs : 0 < size) (f : Dict K → (String → List (Elem K)) → K → K)
    (zs : List K) :
    ∃ cs : ℕ → List (Chunk K),
      (∀ rank, ∃ st, iterRun r t c rank size (dataRanges e.frozen.npdf c size rank).length = .ok (cs rank, st)) ∧
      (((List.range size).flatMap cs).map (itemOf f zs)).Perm ((dataRanges e.frozen.npdf c 1 0).map (partOf f e.frozen zs)) := by
  have hrank := fun rank => items_eq hr h ht ha c size rank hc f zs
  choose cs st h1 h2 using hrank
  refine ⟨cs, fun rank => ⟨st rank, h1 rank⟩, ?_⟩
  have : ((List.range size).flatMap cs).map (itemOf f zs) =
      ((List.range size).flatMap fun rank => dataRanges e.frozen.npdf c size rank).map (partOf f e.frozen zs) := by
    rw [List.map_flatMap, List.map_flatMap]
    exact congrArg (fun F => List.flatMap F (List.range size)) (funext h2)
  rw [this]
  exact (ranges_perm _ c size hc hs).map _

/-- **C119**, CDE loss: for every file of a row class, every chunk size and every number of processes, accumulating the loss over the items of
all processes, in any order, each with its own true values, and finalising gives the loss of the whole file. -/
theorem C119_cde [FloorRing K] {r : Reg K} (hr : Registered r) {k : RowKind} {e : Ens K} (h : Reach k e) {t : Tabs K} (ht : Holds t e)
    (ha : FileAncil e.ancil e.frozen.npdf) (c size : ℕ) (hc : 0 < c) (hs : 0 < size) (f : Dict K → (String → List (Elem K)) → K → K)
    (zs : List K) (hz : zs.length = e.frozen.npdf) (h0 : e.frozen.npdf ≠ 0) (xs : List K) (hx : xs ≠ []) :
    ∃ cs : ℕ → List (Chunk K),
      (∀ rank, ∃ st, iterRun r t c rank size (dataRanges e.frozen.npdf c size rank).length = .ok (cs rank, st)) ∧
      ∀ order : List (Chunk K), order.Perm ((List.range size).flatMap cs) →
        ((order.mapM fun x => cdeAccumulate xs (fnsOf f x.ens.frozen) (part zs x.start x.stop)) >>= cdeFinalize) =
          cdeEvaluate xs (fnsOf f e.frozen) zs := by
  obtain ⟨cs, h1, hperm⟩ := items_perm hr h ht ha c size hc hs f zs
  refine ⟨cs, h1, fun order ho => ?_⟩
  obtain ⟨h3, h4⟩ := stack_parts f e.frozen zs hz c hc
  have := C64_chunks xs _ (order.map (itemOf f zs)) hx (by simpa using ranges_ne_nil hc h0)
    (by
      intro p hp
      obtain ⟨rg, hm, rfl⟩ := List.mem_map.1 hp
      exact h4 rg hm) ((ho.map _).trans hperm)
  rw [h3, List.mapM_map] at this
  exact this

/-- **C119**, Brier score: the same when every chunk has at least two PDFs (chunks of one PDF: `C63_single_fails`) and the true values are
within the limits; also the same exception when the grid cannot be made. -/
theorem C119_brier_partial [FloorRing K] {r : Reg K} (hr : Registered r) {k : RowKind} {e : Ens K} (h : Reach k e) {t : Tabs K} (ht : Holds t e)
    (ha : FileAncil e.ancil e.frozen.npdf) (c size : ℕ) (hc : 2 ≤ c) (hs : 0 < size) (h1 : e.frozen.npdf % c ≠ 1)
    (f : Dict K → (String → List (Elem K)) → K → K)
    (zs : List K) (hz : zs.length = e.frozen.npdf) (h0 : e.frozen.npdf ≠ 0) (l0 l1 dx : K) (hl : InLimits l0 l1 zs) :
    ∃ cs : ℕ → List (Chunk K),
      (∀ rank, ∃ st, iterRun r t c rank size (dataRanges e.frozen.npdf c size rank).length = .ok (cs rank, st)) ∧
      ∀ order : List (Chunk K), order.Perm ((List.range size).flatMap cs) →
      ((order.mapM fun x => accumulateBrier (fnsOf f x.ens.frozen) (part zs x.start x.stop) l0 l1 dx) >>= finalizeBrier) =
        calculateBrier (fnsOf f e.frozen) zs l0 l1 dx := by
  obtain ⟨cs, h2, hperm⟩ := items_perm hr h ht ha c size (by omega) hs f zs
  obtain ⟨h4, h5⟩ := stack_parts f e.frozen zs hz c (by omega)
  refine ⟨cs, h2, fun order ho => ?_⟩
  have hne : (dataRanges e.frozen.npdf c 1 0).map (partOf f e.frozen zs) ≠ [] := by simpa using ranges_ne_nil (by omega) h0
  have hgood : ∀ p ∈ (dataRanges e.frozen.npdf c 1 0).map (partOf f e.frozen zs), GoodChunk l0 l1 p := by
    intro p hp
    obtain ⟨rg, hm, rfl⟩ := List.mem_map.1 hp
    refine ⟨(h5 rg hm).shape, (h5 rg hm).fns, fun z hz' => hl z ?_⟩
    exact List.mem_of_mem_drop (List.mem_of_mem_take hz')
  have hlen : ∀ p ∈ (dataRanges e.frozen.npdf c 1 0).map (partOf f e.frozen zs), 2 ≤ p.2.length := by
    intro p hp
    obtain ⟨⟨s, u⟩, hm, rfl⟩ := List.mem_map.1 hp
    have hb := C48_range_bounds _ _ _ _ _ _ (by omega) hm
    obtain ⟨i, -, rfl, rfl, hi⟩ := (mem_dataRanges _ _ _ _ _ _ (by omega)).1 hm
    simp only [partOf]
    rw [part_length _ _ _ (by omega)]
    by_contra hlt
    apply h1
    have hi1 : (i + 1) * c = i * c + c := by ring
    rw [hi1] at hlt
    have hn : e.frozen.npdf = 1 + c * i := by
      have : c * i = i * c := mul_comm _ _
      omega
    rw [hn, Nat.add_mul_mod_self_left]
    exact Nat.mod_eq_of_lt (by omega)
  have h6 := brier_order _ (order.map (itemOf f zs)) ((ho.map _).trans hperm) l0 l1 dx hne hgood hlen
  rw [C63_chunks_partial _ l0 l1 dx hne hgood hlen, h4, List.mapM_map] at h6
  exact h6

theorem part_zipWith {α β γ : Type} (F : α → β → γ) (l : List α) (m : List β) (s t : ℕ) :
    List.zipWith F (part l s t) (part m s t) = part (List.zipWith F l m) s t := by
  simp only [part, List.drop_zipWith, List.take_zipWith]

/-- **C119**, PIT values: the PIT values of the items of the iterator, each with its own true values, are those of the whole file, for every
chunk size and number of processes. -/
theorem C119_pit {r : Reg K} (hr : Registered r) {k : RowKind} {e : Ens K} (h : Reach k e) {t : Tabs K} (ht : Holds t e)
    (ha : FileAncil e.ancil e.frozen.npdf) (c size : ℕ) (hc : 0 < c) (F : Dict K → (String → List (Elem K)) → K → Option K)
    (zs : List K) (hz : zs.length = e.frozen.npdf) (h0 : e.frozen.npdf ≠ 0) :
    ∃ A, pitSamples ((List.range e.frozen.npdf).map fun i => F e.frozen.metadata (tableRow e.frozen i)) zs = .ok A ∧
      A.data.length = e.frozen.npdf ∧
      ∀ rank, ∃ cs st, iterRun r t c rank size (dataRanges e.frozen.npdf c size rank).length = .ok (cs, st) ∧
        cs.map (fun x => (x.start, x.stop)) = dataRanges e.frozen.npdf c size rank ∧
        ∀ x ∈ cs, (pitSamples ((List.range x.ens.frozen.npdf).map fun i => F x.ens.frozen.metadata (tableRow x.ens.frozen i))
          (part zs x.start x.stop)).map Arr.data = .ok (part A.data x.start x.stop) := by
  have hne : zs ≠ [] := by rintro rfl; simp at hz; omega
  have hp : ∀ (l : List (K → Option K)) (z : List K), z ≠ [] → l.length = z.length →
      pitSamples l z = .ok (Arr.squeeze ⟨[z.length, 1], List.zipWith (fun F z => (F z).getD 0) l z⟩) := by
    intro l z h1 h2
    unfold pitSamples
    rw [if_neg h1, if_neg (by simpa using h2)]
  refine ⟨_, hp _ _ hne (by simp [hz]), by simp [Arr.squeeze, hz], fun rank => ?_⟩
  obtain ⟨cs, st, h1, h2, h3⟩ := item_parts hr h ht ha c rank size hc F
  refine ⟨cs, st, h1, h2, fun x hx => ?_⟩
  obtain ⟨h4, h5, h6, h7⟩ := h3 x hx
  have hl := part_length zs x.start x.stop (by omega)
  rw [hp _ _ (by intro h'; rw [h'] at hl; simp at hl; omega) (by simp [hl, h6])]
  simp only [Except.map, Arr.squeeze]
  rw [h7, part_zipWith]

/-- **C119**, RMSE of two files (estimates and references) read in step: the values of an item are the values of its rows. -/
theorem C119_rmse {r : Reg ℝ} (hr : Registered r) {k k' : RowKind} {e e' : Ens ℝ} (h : Reach k e) (h' : Reach k' e') {t t' : Tabs ℝ}
    (ht : Holds t e) (ht' : Holds t' e') (ha : FileAncil e.ancil e.frozen.npdf) (ha' : FileAncil e'.ancil e'.frozen.npdf)
    (hn : e'.frozen.npdf = e.frozen.npdf) (c size : ℕ) (hc : 0 < c) (f f' : Dict ℝ → (String → List (Elem ℝ)) → ℝ → ℝ) (l0 l1 dx : ℝ)
    (ds : List ℝ) (hd : calculateRmse (fnsOf f e.frozen) (fnsOf f' e'.frozen) l0 l1 dx = .ok ds) (rank : ℕ) :
    ∃ cs cs' st st', iterRun r t c rank size (dataRanges e.frozen.npdf c size rank).length = .ok (cs, st) ∧
      iterRun r t' c rank size (dataRanges e.frozen.npdf c size rank).length = .ok (cs', st') ∧
      List.Forall₂ (fun x y => calculateRmse (fnsOf f x.ens.frozen) (fnsOf f' y.ens.frozen) l0 l1 dx = .ok (part ds x.start x.stop)) cs cs' ∧
      cs.map (fun x => (x.start, x.stop)) = dataRanges e.frozen.npdf c size rank := by
  obtain ⟨cs, st, h1, h2, h3⟩ := item_parts hr h ht ha c rank size hc f
  obtain ⟨cs', st', h4, h5, h6⟩ := item_parts hr h' ht' ha' c rank size hc f'
  rw [hn] at h4 h5 h6
  refine ⟨cs, cs', st, st', h1, h4, ?_, h2⟩
  unfold calculateRmse at hd
  split_ifs at hd with hs
  obtain ⟨g, hg, hd⟩ := bind_ok hd
  obtain rfl := Except.ok.inj hd
  have hlen : cs.length = cs'.length := by
    have := congrArg List.length (h2.trans h5.symm)
    simpa using this
  rw [List.forall₂_iff_get]
  refine ⟨hlen, fun i hi hi' => ?_⟩
  obtain ⟨-, -, h7, h8⟩ := h3 _ (List.get_mem cs ⟨i, hi⟩)
  obtain ⟨-, -, h9, h10⟩ := h6 _ (List.get_mem cs' ⟨i, hi'⟩)
  have heq : ((cs'.get ⟨i, hi'⟩).start, (cs'.get ⟨i, hi'⟩).stop) = ((cs.get ⟨i, hi⟩).start, (cs.get ⟨i, hi⟩).stop) := by
    have := congrArg (fun l => l[i]?) (h5.trans h2.symm)
    simpa [hi, hi'] using this
  simp only [Prod.mk.injEq] at heq
  unfold calculateRmse
  rw [if_neg (by simp only [fnsOf, h7, h9, heq.1, heq.2]; simp)]
  simp only [Bind.bind, Except.bind, hg]
  simp only [fnsOf]
  rw [h8, h10, heq.1, heq.2, part_zipWith, ← hn]

/-- **C119**, KL divergence of two files read in step: if some value reported for the whole files is not the machine epsilon, the values of an item are the values of its rows. Missing: if a single
PDF has a negative sum, the code replaces the values of all PDFs by the machine epsilon, and those of an item only if that PDF is in it (`C68_depends_on_others`). -/
theorem C119_kld_partial {r : Reg ℝ} (hr : Registered r) {k k' : RowKind} {e e' : Ens ℝ} (h : Reach k e) (h' : Reach k' e') {t t' : Tabs ℝ}
    (ht : Holds t e) (ht' : Holds t' e') (ha : FileAncil e.ancil e.frozen.npdf) (ha' : FileAncil e'.ancil e'.frozen.npdf)
    (hn : e'.frozen.npdf = e.frozen.npdf) (c size : ℕ) (hc : 0 < c) (f f' : Dict ℝ → (String → List (Elem ℝ)) → ℝ → ℝ) (l0 l1 dx : ℝ)
    (ds : List ℝ) (hd : calculateKld (fnsOf f e.frozen) (fnsOf f' e'.frozen) l0 l1 dx = .ok ds) (heps : ∃ d ∈ ds, d ≠ machEps) (rank : ℕ) :
    ∃ cs cs' st st', iterRun r t c rank size (dataRanges e.frozen.npdf c size rank).length = .ok (cs, st) ∧
      iterRun r t' c rank size (dataRanges e.frozen.npdf c size rank).length = .ok (cs', st') ∧
      List.Forall₂ (fun x y => calculateKld (fnsOf f x.ens.frozen) (fnsOf f' y.ens.frozen) l0 l1 dx = .ok (part ds x.start x.stop)) cs cs' ∧
      cs.map (fun x => (x.start, x.stop)) = dataRanges e.frozen.npdf c size rank := by
  obtain ⟨cs, st, h1, h2, h3⟩ := item_parts hr h ht ha c rank size hc f
  obtain ⟨cs', st', h4, h5, h6⟩ := item_parts hr h' ht' ha' c rank size hc f'
  rw [hn] at h4 h5 h6
  refine ⟨cs, cs', st, st', h1, h4, ?_, h2⟩
  unfold calculateKld at hd
  split_ifs at hd with hs
  obtain ⟨g, hg, hd⟩ := bind_ok hd
  obtain rfl := Except.ok.inj hd
  have hany : ¬ (List.zipWith (fun f h => quickKld (g.values.map f) (g.values.map h) g.resolution) (fnsOf f e.frozen).fns (fnsOf f' e'.frozen).fns).any (fun v => decide (v < 0)) = true := by
    intro hc
    obtain ⟨d, h7, h8⟩ := heps
    rw [if_pos hc] at h7
    obtain ⟨_, -, rfl⟩ := List.mem_map.1 h7
    exact h8 rfl
  rw [if_neg hany]
  have hlen : cs.length = cs'.length := by
    have := congrArg List.length (h2.trans h5.symm)
    simpa using this
  rw [List.forall₂_iff_get]
  refine ⟨hlen, fun i hi hi' => ?_⟩
  obtain ⟨-, -, h7, h8⟩ := h3 _ (List.get_mem cs ⟨i, hi⟩)
  obtain ⟨-, -, h9, h10⟩ := h6 _ (List.get_mem cs' ⟨i, hi'⟩)
  have heq : ((cs'.get ⟨i, hi'⟩).start, (cs'.get ⟨i, hi'⟩).stop) = ((cs.get ⟨i, hi⟩).start, (cs.get ⟨i, hi⟩).stop) := by
    have := congrArg (fun l => l[i]?) (h5.trans h2.symm)
    simpa [hi, hi'] using this
  simp only [Prod.mk.injEq] at heq
  unfold calculateKld
  rw [if_neg (by simp only [fnsOf, h7, h9, heq.1, heq.2]; simp)]
  simp only [Bind.bind, Except.bind, hg]
  have hz : List.zipWith (fun f h => quickKld (g.values.map f) (g.values.map h) g.resolution) (fnsOf f (cs.get ⟨i, hi⟩).ens.frozen).fns (fnsOf f' (cs'.get ⟨i, hi'⟩).ens.frozen).fns =
      part (List.zipWith (fun f h => quickKld (g.values.map f) (g.values.map h) g.resolution) (fnsOf f e.frozen).fns (fnsOf f' e'.frozen).fns) (cs.get ⟨i, hi⟩).start (cs.get ⟨i, hi⟩).stop := by
    simp only [fnsOf]
    rw [h8, h10, heq.1, heq.2, part_zipWith, ← hn]
  rw [hz, if_neg]
  intro hc
  apply hany
  rw [List.any_eq_true] at hc ⊢
  obtain ⟨v, hv, hv'⟩ := hc
  exact ⟨v, List.mem_of_mem_drop (List.mem_of_mem_take hv), hv'⟩

/-- three histograms with an ancillary column in a file, read in chunks of two by two processes: evaluation and CDE loss -/
example : Reach .hist (histEns (some narrow)) ∧ Holds (buildTables (histEns (some narrow))) (histEns (some narrow)) ∧
    (do
      let (cs0, _) ← iterRun stdReg (buildTables (histEns (some narrow))) 2 0 2 1
      let (cs1, _) ← iterRun stdReg (buildTables (histEns (some narrow))) 2 1 2 1
      let ts ← (cs1 ++ cs0).mapM fun (x : Chunk ℚ) => cdeAccumulate [1/2, 2]
        (fnsOf (fun md row x => (((histEval md row x).bind fun v => v.toOption)).getD 0) x.ens.frozen) (part [0, 1, 2] x.start x.stop)
      cdeFinalize ts) =
    cdeEvaluate [1/2, 2] (fnsOf (fun md row x => (((histEval md row x).bind fun v => v.toOption)).getD 0) (histEns (some narrow)).frozen) [0, 1, 2] ∧
    cdeEvaluate [1/2, 2] (fnsOf (fun md row x => (((histEval md row x).bind fun v => v.toOption)).getD 0) (histEns (some narrow)).frozen) [0, 1, 2] =
      .ok (some (-41/48)) := by
  refine ⟨histReach _ (by decide +kernel), Tables.holds_buildTables _, by decide +kernel, by decide +kernel⟩

end Verif.Props.StreamMetrics
