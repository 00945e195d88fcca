import Verif.Props.ConvertParts
import Verif.Props.Writing

/-!
# C118: converting a file chunk by chunk
-/

set_option linter.unusedSectionVars false
set_option autoImplicit false

namespace Verif.Props.Stream

open Verif Verif.Np Verif.Model Verif.Spec Verif.Lemmas Verif.Props.ExEns Verif.Props.State Verif.Props.Chunks Verif.Props.Writing
open Verif.Props.ConvertSelect Verif.Props.ConvertParts

variable {K : Type} [Field K] [LinearOrder K] [IsStrictOrderedRing K]

/-- the items of the iterator, with or without ancillary data in the file -/
theorem items {r : Reg K} (hr : Registered r) {k : RowKind} {e : Ens K} (h : Reach k e) {t : Tabs K} (ht : Holds t e)
    (ha : FileAncil e.ancil e.frozen.npdf) (c rank size steps : ℕ) (hc : 0 < c) :
    ∃ cs st, iterRun r t c rank size steps = .ok (cs, st) ∧
      List.Forall₂ (fun rg x => x.start = rg.1 ∧ x.stop = rg.2 ∧
        ∃ e', getItem e (.slice (some (rg.1 : ℤ)) (some (rg.2 : ℤ)) none) = .ok e' ∧ x.ens.frozen = e'.frozen)
        ((dataRanges e.frozen.npdf c size rank).take steps) cs := by
  cases hea : e.ancil with
  | none =>
    obtain ⟨cs, st, h1, h2⟩ := C48_without_ancil_partial hr h ht hea c rank size steps hc
    exact ⟨cs, st, h1, h2.imp fun rg x hx => ⟨hx.1, hx.2.1, _, hx.2.2.2, rfl⟩⟩
  | some a =>
    obtain ⟨cs, st, h1, h2⟩ := C48_chunks hr h ht hea (ha a hea).1 (ha a hea).2 c rank size steps hc
    exact ⟨cs, st, h1, h2.imp fun rg x hx => ⟨hx.1, hx.2.1, _, hx.2.2, rfl⟩⟩

theorem zip_flatMap {α β γ : Type} (l : List α) (f : α → List β) (g : α → List γ) (h : ∀ a ∈ l, (f a).length = (g a).length) :
    (l.flatMap f).zip (l.flatMap g) = l.flatMap fun a => (f a).zip (g a) := by
  induction l with
  | nil => rfl
  | cons a t ih =>
    simp only [List.flatMap_cons]
    rw [List.zip_append (h a (by simp)), ih fun b hb => h b (by simp [hb])]

theorem forall₂_flatMap {α β γ : Type} {R : β → γ → Prop} (l : List α) (f : α → List β) (g : α → List γ)
    (h : ∀ a ∈ l, List.Forall₂ R (f a) (g a)) : List.Forall₂ R (l.flatMap f) (l.flatMap g) := by
  induction l with
  | nil => exact .nil
  | cons a t ih =>
    simp only [List.flatMap_cons]
    exact List.rel_append (h a (by simp)) (ih fun b hb => h b (by simp [hb]))

/-- **C118.** Converting a file chunk by chunk: let a file hold an ensemble of a row class, with or without ancillary data, that converts as
a whole on an increasing grid. Then for every chunk size and every number of parallel processes, each process can convert every item that
the iterator hands it; and if the items are written at their own row ranges into one new file, in any order and by any interleaving of
the processes, then the finished file holds exactly the tables of the converted whole and reads back as the converted whole.
Missing from the full claim: the sparse class and grids that are not increasing (`C114_sparse_differs`, `C114_unsorted_differs`); the
ancillary data are not carried over by a conversion (C60). -/
theorem C118_stream_partial {r : Reg K} (hr : Registered r) (k : RowKind) {e ce : Ens K} (h : Reach k e) {t : Tabs K} (ht : Holds t e)
    (ha : FileAncil e.ancil e.frozen.npdf)
    (f fc fp : Dict K → (String → List (Elem K)) → K → Elem K)
    (pack : Val K → List (Elem K) → Except Err (List (Elem K) × Elem K)) (hpk : KeepsLength pack) (ev : Evals K)
    (hev : ev = ⟨ensArr f, ensArr fc, ensArr fp⟩) (c : PyCls K) (arg : String)
    (hc : (c, arg) ∈ [(histPy ev, "bins"), (interpPy ev, "xvals"), (irrPy ev, "xvals"), (quantPy ev, "quants"), (packedPy pack ev, "xvals")])
    (method : Option String) (kwds : Dict K) (hkw : ArraysWf kwds) (g : List K) (hinc : g.Pairwise (· < ·)) (h2 : 2 ≤ g.length)
    (hk : Dict.get? kwds arg = some (.arr (vec g))) (hce : convertTo c e method kwds = .ok ce)
    (chunk size : ℕ) (hchunk : 0 < chunk) (hsize : 0 < size) (fill : Elem K) :
    ∃ (cs : ℕ → List (Chunk K)) (conv : ℕ → List (Ens K)),
      (∀ rank < size, ∃ st, iterRun r t chunk rank size (dataRanges e.frozen.npdf chunk size rank).length = .ok (cs rank, st) ∧
        List.Forall₂ (fun x y => convertTo c x.ens method kwds = .ok y) (cs rank) (conv rank)) ∧
      ∀ os : List (Put K), (∀ o, o ∈ os ↔ ∃ rank < size, ∃ p ∈ (cs rank).zip (conv rank), o ∈ chunkOps p.2 p.1.start p.1.stop) →
        ∀ rank0 < size, ∀ rank1 < size, ∀ e0 ∈ conv rank0, ∀ e1 ∈ conv rank1,
          ∃ f0 f1, initWrite fill e0 e.frozen.npdf = .ok f0 ∧ runOps f0 os = .ok f1 ∧
            finalizeWrite f1 e1 = .ok (dataTabs ce ++ [("meta", ce.frozen.metadata)]) ∧
            fromTables r (dataTabs ce ++ [("meta", ce.frozen.metadata)]) = .ok (flatEns ce) := by
  have hn := (Convert.C56_npdf ev (by rw [hev]; exact Convert.shaped_rows f fc fp) pack c arg hc e ce (reach_shape h) method kwds _ g.length hk
    (by simp [Val.toArr, vec]) hce).1
  have hanc := Convert.C56_no_ancil c e ce method kwds hce
  have hreach : e.frozen.npdf ≠ 0 → ∃ k', Reach k' ce := fun h0 =>
    convert_reach k h h0 f fc fp pack hpk ev hev c arg hc method kwds hkw g hinc h2 hk hce
  -- one range
  have hone : ∀ (rg : ℕ × ℕ) (e' : Ens K), rg.1 < rg.2 → rg.2 ≤ e.frozen.npdf →
      getItem e (.slice (some (rg.1 : ℤ)) (some (rg.2 : ℤ)) none) = .ok e' →
      ∃ y, convertTo c e' method kwds = .ok y ∧ getItem ce (.slice (some (rg.1 : ℤ)) (some (rg.2 : ℤ)) none) = .ok y := by
    intro rg e' h1 h3 hg
    obtain ⟨k', hr'⟩ := hreach (by omega)
    obtain ⟨mo, ws, out, hs⟩ := reach_stored hr'
    have hl : ce.frozen.npdf = out.length := by rw [hs.frozen]; rfl
    obtain ⟨y, hy, -, -⟩ := cut_item hs hanc (rg.1, rg.2 - rg.1) (by simp only; omega) (by simp only; omega)
    have hkey : cutKey (rg.1, rg.2 - rg.1) = .slice (some (rg.1 : ℤ)) (some (rg.2 : ℤ)) none := by
      have : rg.1 + (rg.2 - rg.1) = rg.2 := by omega
      simp only [cutKey, this]
    rw [hkey] at hy
    refine ⟨y, ?_, hy⟩
    rw [C114_convert_select_partial k h _ hg f fc fp pack hpk ev hev c arg hc method kwds hkw g hinc h2 hk hce, hy]
  -- one process
  have hrank : ∀ rank, ∃ (cs : List (Chunk K)) (conv : List (Ens K)) (st : IterState K),
      iterRun r t chunk rank size (dataRanges e.frozen.npdf chunk size rank).length = .ok (cs, st) ∧
      List.Forall₂ (fun x y => convertTo c x.ens method kwds = .ok y) cs conv ∧
      (dataRanges e.frozen.npdf chunk size rank) = cs.map (fun x => (x.start, x.stop)) ∧
      List.Forall₂ (fun rg y => getItem ce (.slice (some (rg.1 : ℤ)) (some (rg.2 : ℤ)) none) = .ok y)
        (dataRanges e.frozen.npdf chunk size rank) conv := by
    intro rank
    obtain ⟨cs, st, hrun, hcs⟩ := items hr h ht ha chunk rank size (dataRanges e.frozen.npdf chunk size rank).length hchunk
    rw [List.take_length] at hcs
    have hb : ∀ rg ∈ dataRanges e.frozen.npdf chunk size rank, rg.1 < rg.2 ∧ rg.2 ≤ e.frozen.npdf := fun rg hrg =>
      ⟨(C48_range_bounds _ _ _ _ _ _ hchunk hrg).1, (C48_range_bounds _ _ _ _ _ _ hchunk hrg).2.1⟩
    suffices ∀ (l : List (ℕ × ℕ)) (cs : List (Chunk K)), (∀ rg ∈ l, rg.1 < rg.2 ∧ rg.2 ≤ e.frozen.npdf) →
        List.Forall₂ (fun rg x => x.start = rg.1 ∧ x.stop = rg.2 ∧
          ∃ e', getItem e (.slice (some (rg.1 : ℤ)) (some (rg.2 : ℤ)) none) = .ok e' ∧ x.ens.frozen = e'.frozen) l cs →
        ∃ conv, List.Forall₂ (fun x y => convertTo c x.ens method kwds = .ok y) cs conv ∧ l = cs.map (fun x => (x.start, x.stop)) ∧
          List.Forall₂ (fun rg y => getItem ce (.slice (some (rg.1 : ℤ)) (some (rg.2 : ℤ)) none) = .ok y) l conv by
      obtain ⟨conv, h3, h4, h5⟩ := this _ cs hb hcs
      exact ⟨cs, conv, st, hrun, h3, h4, h5⟩
    intro l cs hb hcs
    induction hcs with
    | nil => exact ⟨[], .nil, rfl, .nil⟩
    | cons hx _ ih =>
      obtain ⟨conv, h3, h4, h5⟩ := ih fun rg hrg => hb rg (by simp [hrg])
      obtain ⟨hs1, hs2, e', hg, hfr⟩ := hx
      obtain ⟨y, hy, hgy⟩ := hone _ e' (hb _ (by simp)).1 (hb _ (by simp)).2 hg
      refine ⟨y :: conv, .cons ?_ h3, ?_, .cons hgy h5⟩
      · rw [← hy]
        exact convert_frozen ev pack c arg hc _ _ hfr method kwds
      · rw [List.map_cons, ← h4, hs1, hs2]
  choose cs conv st hrun hconv hrg hget using hrank
  refine ⟨cs, conv, fun rank _ => ⟨st rank, hrun rank, hconv rank⟩, ?_⟩
  intro os hos rank0 hr0 rank1 hr1 e0 he0 e1 he1
  have h0 : e.frozen.npdf ≠ 0 := by
    obtain ⟨rg, hm, -⟩ := forall₂_mem_right (hget rank0) he0
    have := C48_range_bounds _ _ _ _ _ _ hchunk hm
    omega
  obtain ⟨k', hr'⟩ := hreach h0
  have hmem : ∀ {α : Type} (F : ℕ → List α) (rank : ℕ) (a : α), rank < size → a ∈ F rank → a ∈ (List.range size).flatMap F := by
    intro α F rank a h3 h4
    exact List.mem_flatMap.2 ⟨rank, List.mem_range.2 h3, h4⟩
  have key := C50_any_schedule_partial hr fill hr' (by intro a ha; rw [hanc] at ha; simp at ha)
    (rs := (List.range size).flatMap fun rank => dataRanges e.frozen.npdf chunk size rank) (es := (List.range size).flatMap conv)
    (by
      intro rg hm
      obtain ⟨rank, -, hm⟩ := List.mem_flatMap.1 hm
      have := C48_range_bounds _ _ _ _ _ _ hchunk hm
      rw [hn]
      omega)
    (forall₂_flatMap _ _ _ fun rank _ => hget rank)
    (by
      intro i hi
      rw [hn] at hi
      obtain ⟨⟨rank, s, u⟩, ⟨h3, h4, h5, h6⟩, -⟩ := C48_every_row_once e.frozen.npdf chunk size hchunk hsize i hi
      exact ⟨(s, u), hmem _ rank _ h3 h4, h5, h6⟩)
    (os := os)
    (by
      intro o
      rw [hos, zip_flatMap _ _ _ fun rank _ => (hget rank).length_eq]
      simp only [List.mem_flatMap, List.mem_range]
      constructor
      · rintro ⟨rank, h3, ⟨x, y⟩, hp, ho⟩
        refine ⟨((x.start, x.stop), y), ⟨rank, h3, ?_⟩, ho⟩
        rw [hrg rank, List.zip_map_left]
        exact List.mem_map.2 ⟨(x, y), hp, rfl⟩
      · rintro ⟨⟨rg, y⟩, ⟨rank, h3, hp⟩, ho⟩
        rw [hrg rank, List.zip_map_left] at hp
        obtain ⟨⟨x, y'⟩, hp', heq⟩ := List.mem_map.1 hp
        simp only [Prod.map_apply, id_eq, Prod.mk.injEq] at heq
        obtain ⟨rfl, rfl⟩ := heq
        exact ⟨rank, h3, (x, y'), hp', ho⟩)
    (hmem conv rank0 e0 hr0 he0) (hmem conv rank1 e1 hr1 he1)
  rw [hn] at key
  exact key

/-- the file of three histograms with an ancillary column, converted to coarser bins in chunks of two by two processes: the second process
writes its chunk (row 2) first -/
example : Reach .hist (histEns (some narrow)) ∧ Holds (buildTables (histEns (some narrow))) (histEns (some narrow)) ∧
    FileAncil (some narrow) (histEns (some narrow)).frozen.npdf ∧ dataRanges 3 2 2 0 = [(0, 2)] ∧ dataRanges 3 2 2 1 = [(2, 3)] ∧
    (do
      let (cs0, _) ← iterRun stdReg (buildTables (histEns (some narrow))) 2 0 2 1
      let (cs1, _) ← iterRun stdReg (buildTables (histEns (some narrow))) 2 1 2 1
      let y0 ← cs0.mapM fun (x : Chunk ℚ) => convertTo (histPy exEv) x.ens none [("bins", qarr [3] [0, 1/2, 2])]
      let y1 ← cs1.mapM fun (x : Chunk ℚ) => convertTo (histPy exEv) x.ens none [("bins", qarr [3] [0, 1/2, 2])]
      let f0 ← (y0.head?.elim (.error .Unmodelled) fun y => initWrite (.num (some 0)) y 3)
      let f1 ← runOps f0 ((y1.flatMap fun y => chunkOps y 2 3) ++ y0.flatMap fun y => chunkOps y 0 2)
      let f2 ← (y1.head?.elim (.error .Unmodelled) fun y => finalizeWrite f1 y)
      fromTables stdReg f2).map Ens.frozen =
    (convertTo (histPy exEv) (histEns (some narrow)) none [("bins", qarr [3] [0, 1/2, 2])]).map Ens.frozen ∧
    (convertTo (histPy exEv) (histEns (some narrow)) none [("bins", qarr [3] [0, 1/2, 2])]).map (fun e => e.frozen.objdata) =
      .ok [("pdfs", qarr [3, 2] [1/5, 3/5, 1/2, 1/2, 0, 2/3])] := by
  refine ⟨histReach _ (by decide +kernel), Tables.holds_buildTables _, ?_, by decide, by decide, by decide +kernel, by decide +kernel⟩
  intro a ha
  obtain rfl := Option.some.inj ha
  exact ⟨narrow_cols, by decide⟩

end Verif.Props.Stream
