import Verif.Model.DTypes
import Verif.Props.Writing
import Verif.Lemmas.FloatRound
import Mathlib.Data.Rat.Floor

/-!
# C124: element types of files written in chunks

`/repo/src/qp/ensemble.py` 632-687. The data sets get the element types of the ensemble that allocates the file. Values of other chunks are converted
to these types without an error.
-/

set_option linter.unusedSectionVars false
set_option autoImplicit false

namespace Verif.Props.DTypes

open Verif Verif.Np Verif.Model Verif.Spec Verif.Lemmas Verif.Props.State Verif.Props.ExEns Verif.Props.Chunks Verif.Props.Writing

/-! ## what is stored -/

section
variable {K : Type} [Field K] [LinearOrder K] [FloorRing K]

/-- `v'` is what a data set of type `t` holds after `v` has been assigned to it -/
def StoredCol (t : DType) (v v' : Val K) : Prop :=
  ∃ a b : Arr (Elem K), v = .arr a ∧ v' = .arr b ∧ b.shape = a.shape ∧ List.Forall₂ (fun x y => castElem t x = .ok y) a.data b.data

/-- the tables `D'` are the tables `D` with every element converted to the type of its column -/
def StoredTabs (ty : Types) (D D' : Tabs K) : Prop :=
  List.Forall₂ (fun g g' => g'.1 = g.1 ∧ List.Forall₂ (fun p p' => p'.1 = p.1 ∧ StoredCol (ty g.1 p.1) p.2 p'.2) g.2 g'.2) D D'

/-- every element of the tables is one of the type of its column -/
def OfTypes (ty : Types) (D : Tabs K) : Prop :=
  ∀ g ∈ D, ∀ p ∈ g.2, ∀ x ∈ p.2.toArr.data, castElem (ty g.1 p.1) x = .ok x

/-! ## helpers -/

/-- the converted element, or the element itself if there is no conversion -/
def castTot (t : DType) (x : Elem K) : Elem K := match castElem t x with
  | .ok y => y
  | .error _ => x

def castArr (t : DType) (a : Arr (Elem K)) : Arr (Elem K) := ⟨a.shape, a.data.map (castTot t)⟩

def castV (t : DType) : Val K → Val K
  | .arr a => .arr (castArr t a)
  | v => v

def castTabs (ty : Types) (D : Tabs K) : Tabs K := D.map fun g => (g.1, g.2.map fun p => (p.1, castV (ty g.1 p.1) p.2))

/-- every element of the value has a conversion -/
def Castable (t : DType) (v : Val K) : Prop := ∃ a : Arr (Elem K), v = .arr a ∧ ∀ x ∈ a.data, castElem t x = .ok (castTot t x)

theorem castTot_of {t : DType} {x y : Elem K} (h : castElem t x = .ok y) : castTot t x = y := by simp [castTot, h]

theorem storedCol_iff {t : DType} {v v' : Val K} : StoredCol t v v' ↔ Castable t v ∧ v' = castV t v := by
  constructor
  · rintro ⟨a, b, rfl, rfl, hs, hd⟩
    have h1 : b.data = a.data.map (castTot t) := by
      clear hs
      generalize a.data = l at hd
      generalize b.data = l' at hd
      induction hd with
      | nil => rfl
      | cons h _ ih => rw [List.map_cons, castTot_of h, ← ih]
    have h2 : ∀ x ∈ a.data, castElem t x = .ok (castTot t x) := by
      intro x hx
      obtain ⟨y, -, hy⟩ : ∃ y ∈ b.data, castElem t x = .ok y := by
        clear h1 hs
        generalize a.data = l at hd hx
        generalize b.data = l' at hd
        induction hd with
        | nil => simp at hx
        | @cons x0 y0 _ _ h _ ih =>
          rcases List.mem_cons.1 hx with rfl | hx
          · exact ⟨y0, by simp, h⟩
          · obtain ⟨y, hy, hh⟩ := ih hx
            exact ⟨y, List.mem_cons_of_mem _ hy, hh⟩
      rw [hy, castTot_of hy]
    refine ⟨⟨a, rfl, h2⟩, ?_⟩
    obtain ⟨bs, bd⟩ := b
    simp only at hs h1
    simp [castV, castArr, hs, h1]
  · rintro ⟨⟨a, rfl, h⟩, rfl⟩
    refine ⟨a, castArr t a, rfl, rfl, rfl, ?_⟩
    unfold castArr
    simp only
    generalize a.data = l at h
    induction l with
    | nil => exact .nil
    | cons x l ih => exact .cons (h x (by simp)) (ih fun y hy => h y (by simp [hy]))

theorem storedTabs_eq {ty : Types} {D D' : Tabs K} (h : StoredTabs ty D D') :
    D' = castTabs ty D ∧ ∀ g ∈ D, ∀ p ∈ g.2, Castable (ty g.1 p.1) p.2 := by
  unfold StoredTabs at h
  unfold castTabs
  induction h with
  | nil => simp
  | @cons g g' D D' hg _ ih =>
    obtain ⟨hn, hc⟩ := hg
    obtain ⟨h1, h2⟩ := ih
    have hd : g'.2 = g.2.map (fun p => (p.1, castV (ty g.1 p.1) p.2)) ∧ ∀ p ∈ g.2, Castable (ty g.1 p.1) p.2 := by
      clear h1 h2 hn
      generalize g.2 = d at hc
      generalize g'.2 = d' at hc
      induction hc with
      | nil => simp
      | @cons p p' d d' hp _ ih =>
        obtain ⟨hk, hs⟩ := hp
        rw [storedCol_iff] at hs
        refine ⟨?_, ?_⟩
        · rw [List.map_cons, ← ih.1, ← hs.2, ← hk]
        · intro q hq
          rcases List.mem_cons.1 hq with rfl | hq
          · exact hs.1
          · exact ih.2 q hq
    refine ⟨?_, ?_⟩
    · rw [List.map_cons, ← h1, ← hd.1, ← hn]
    · intro q hq
      rcases List.mem_cons.1 hq with rfl | hq
      · exact hd.2
      · exact h2 q hq

theorem row_castArr (t : DType) (a : Arr (Elem K)) (i : ℕ) : (castArr t a).row i = (a.row i).map (castTot t) := by
  simp [castArr, Arr.row, Arr.rowSize, List.map_take, List.map_drop]

theorem castV_chunk (t : DType) (s e : ℕ) (v : Val K) : chunkCol s e (castV t v) = castV t (chunkCol s e v) := by
  cases v with
  | arr a =>
    simp only [castV, chunkCol, Val.arr.injEq]
    unfold Arr.takeRows Arr.ofRows
    simp only [castArr, List.map_flatten, List.map_map, Arr.mk.injEq, List.length_map, true_and]
    congr 1
    apply List.map_congr_left
    intro i _
    exact row_castArr t a i
  | py e => rfl
  | lst l => rfl

theorem castable_chunk {t : DType} {v : Val K} (h : Castable t v) (s e : ℕ) : Castable t (chunkCol s e v) := by
  obtain ⟨a, rfl, h⟩ := h
  refine ⟨a.takeRows (List.range' s (e - s)), rfl, ?_⟩
  intro x hx
  apply h
  simp only [Arr.takeRows, Arr.ofRows, List.mem_flatten, List.mem_map] at hx
  obtain ⟨_, ⟨i, _, rfl⟩, hx⟩ := hx
  exact List.mem_of_mem_drop (List.mem_of_mem_take hx)

theorem castVal_ok {t : DType} {v : Val K} (h : Castable t v) : castVal t v = .ok (castV t v) := by
  obtain ⟨a, rfl, h⟩ := h
  simp only [castVal, castV, castArr]
  rw [mapM_ok_map _ (castTot t) a.data h]
  rfl

theorem tabsOk_cast {ty : Types} {D : Tabs K} {n : ℕ} (hD : TabsOk D n) : TabsOk (castTabs ty D) n where
  groups := by
    have : (castTabs ty D).map (·.1) = D.map (·.1) := by simp [castTabs, Function.comp_def]
    rw [this]
    exact hD.groups
  cols := by
    intro g hg
    obtain ⟨g0, hg0, rfl⟩ := List.mem_map.1 hg
    have : Dict.keys (g0.2.map fun p => (p.1, castV (ty g0.1 p.1) p.2)) = Dict.keys g0.2 := by simp [Dict.keys, Function.comp_def]
    simp only
    rw [this]
    exact hD.cols g0 hg0
  arrs := by
    intro g hg
    obtain ⟨g0, hg0, rfl⟩ := List.mem_map.1 hg
    intro p hp
    obtain ⟨p0, hp0, rfl⟩ := List.mem_map.1 hp
    obtain ⟨c, hc, hw, hh⟩ := hD.arrs g0 hg0 p0 hp0
    refine ⟨castArr (ty g0.1 p0.1) c, by simp [hc, castV], ?_, hh⟩
    simpa [Arr.Wf, castArr] using hw

/-- one assignment with its value converted -/
def castOp (ty : Types) (o : Put K) : Put K := { o with val := castV (ty o.group o.col) o.val }

theorem runOpsT_eq {ty : Types} (os : List (Put K)) (h : ∀ o ∈ os, Castable (ty o.group o.col) o.val) (f : Tabs K) :
    runOpsT ty f os = runOps f (os.map (castOp ty)) := by
  induction os generalizing f with
  | nil => rfl
  | cons o os ih =>
    unfold runOpsT writeOpT
    rw [castVal_ok (h o (by simp)), List.map_cons]
    conv_rhs => unfold runOps
    simp only [castOp]
    cases writeOp f { o with val := castV (ty o.group o.col) o.val } with
    | error e => rfl
    | ok f' => exact ih (fun o ho => h o (by simp [ho])) f'

/-! ## C124 -/

/-- **C124: what a file written in chunks holds.** `D` are tables with `n` rows; `e0`, an ensemble that holds some of the rows, allocates the file with
its element types `ty`; the chunks hold rows of `D`, and together all of them. Whatever the order of the assignments, the file holds the
tables with every element converted to the type that `e0` had in that column, and no error is raised.
Missing: that the file holds `D` itself, which needs types wide enough (`C124_exact_iff`, `C124_names_cut`, `C124_fractions_lost`). -/
theorem C124_file_partial (ty : Types) (fill : Elem K) {D D' : Tabs K} {n : ℕ} (hD : TabsOk D n) (hs : StoredTabs ty D D')
    {e0 : Ens K} {s0 t0 : ℕ} (h0 : dataTabs e0 = chunkTabs D s0 t0) {rs : List (ℕ × ℕ)} {es : List (Ens K)}
    (hes : List.Forall₂ (fun rg x => rg.1 ≤ rg.2 ∧ rg.2 ≤ n ∧ dataTabs x = chunkTabs D rg.1 rg.2) rs es)
    (hcov : ∀ i < n, ∃ rg ∈ rs, rg.1 ≤ i ∧ i < rg.2) {os : List (Put K)}
    (hos : ∀ o, o ∈ os ↔ o ∈ (rs.zip es).flatMap fun p => chunkOps p.2 p.1.1 p.1.2) :
    ∃ f0, initWrite fill e0 n = .ok f0 ∧ runOpsT ty f0 os = .ok D' := by
  obtain ⟨rfl, hc⟩ := storedTabs_eq hs
  have hzip : ∀ p ∈ rs.zip es, p.1.1 ≤ p.1.2 ∧ p.1.2 ≤ n ∧ dataTabs p.2 = chunkTabs D p.1.1 p.1.2 := by
    intro p hp
    clear hcov hos
    induction hes with
    | nil => simp at hp
    | cons h _ ih =>
      rw [List.zip_cons_cons] at hp
      rcases List.mem_cons.1 hp with rfl | hp
      · exact h
      · exact ih hp
  have hmem : ∀ o ∈ os, ∃ s t, s ≤ t ∧ t ≤ n ∧ ∃ g ∈ D, ∃ p ∈ g.2, o = ⟨g.1, p.1, s, t, chunkCol s t p.2⟩ := by
    intro o ho
    obtain ⟨p, hp, ho'⟩ := List.mem_flatMap.1 ((hos o).1 ho)
    obtain ⟨h1, h2, h3⟩ := hzip p hp
    unfold chunkOps at ho'
    rw [h3, mem_tabOps] at ho'
    exact ⟨_, _, h1, h2, ho'⟩
  refine ⟨masked fill D [], ?_, ?_⟩
  · unfold initWrite allocKwds
    rw [h0, mapM_alloc n hD.arrs]
    simp only [Except.map]
    rw [alloc_masked fill hD.arrs]
  · rw [runOpsT_eq os (by
      intro o ho
      obtain ⟨s, t, _, _, g, hg, p, hp, rfl⟩ := hmem o ho
      exact castable_chunk (hc g hg p hp) s t)]
    have hmask : masked fill D [] = masked fill (castTabs ty D) [] := by
      rw [← alloc_masked fill hD.arrs, ← alloc_masked fill (tabsOk_cast hD).arrs]
      congr 1
      unfold castTabs
      rw [List.map_map]
      apply List.map_congr_left
      rintro ⟨g, d⟩ hg
      simp only [Function.comp, List.map_map, Prod.mk.injEq, true_and]
      apply List.map_congr_left
      rintro ⟨c, v⟩ hp
      obtain ⟨a, rfl, -, -⟩ := hD.arrs _ hg _ hp
      rfl
    rw [hmask, run_masked (tabsOk_cast hD) [] _, List.nil_append, masked_all (tabsOk_cast hD)]
    · intro g hg p hp i hi
      obtain ⟨g0, hg0, rfl⟩ := List.mem_map.1 hg
      obtain ⟨p0, hp0, rfl⟩ := List.mem_map.1 hp
      obtain ⟨rg, hrg, h1, h2⟩ := hcov i hi
      obtain ⟨x, hx⟩ : ∃ x, (rg, x) ∈ rs.zip es := by
        clear hos hzip hcov hmem
        induction hes with
        | nil => simp at hrg
        | @cons a b l l' h _ ih =>
          rcases List.mem_cons.1 hrg with rfl | hrg
          · exact ⟨b, by simp⟩
          · obtain ⟨x, hx⟩ := ih hrg
            exact ⟨x, by rw [List.zip_cons_cons]; exact List.mem_cons_of_mem _ hx⟩
      obtain ⟨-, -, h3⟩ := hzip _ hx
      unfold covered
      rw [List.any_eq_true]
      refine ⟨castOp ty ⟨g0.1, p0.1, rg.1, rg.2, chunkCol rg.1 rg.2 p0.2⟩, List.mem_map.2 ⟨_, (hos _).2 ?_, rfl⟩, by simp [castOp, h1, h2]⟩
      rw [List.mem_flatMap]
      refine ⟨_, hx, ?_⟩
      unfold chunkOps
      simp only at h3 ⊢
      rw [h3, mem_tabOps]
      exact ⟨g0, hg0, p0, hp0, rfl⟩
    · intro o ho
      obtain ⟨o', ho', rfl⟩ := List.mem_map.1 ho
      obtain ⟨s, t, h1, h2, g, hg, p, hp, rfl⟩ := hmem o' ho'
      refine ⟨s, t, h1, h2, ?_⟩
      rw [mem_tabOps]
      refine ⟨(g.1, g.2.map fun p => (p.1, castV (ty g.1 p.1) p.2)), List.mem_map.2 ⟨g, hg, rfl⟩, (p.1, castV (ty g.1 p.1) p.2),
        List.mem_map.2 ⟨p, hp, rfl⟩, ?_⟩
      simp only [castOp, castV_chunk]

/-- **C124: the file holds the tables themselves exactly when every element is one of the allocated type.** -/
theorem C124_exact_iff (ty : Types) {D : Tabs K} (ha : ∀ g ∈ D, ∀ p ∈ g.2, ∃ a : Arr (Elem K), p.2 = .arr a) :
    StoredTabs ty D D ↔ OfTypes ty D := by
  constructor
  · intro h g hg p hp x hx
    obtain ⟨h1, h2⟩ := storedTabs_eq h
    obtain ⟨a, hpa, hc⟩ := h2 g hg p hp
    have hcol : StoredCol (ty g.1 p.1) p.2 p.2 := by
      unfold StoredTabs at h
      have key : ∀ {D D' : Tabs K}, List.Forall₂ (fun g g' : String × Dict K => g'.1 = g.1 ∧ List.Forall₂ (fun p p' => p'.1 = p.1 ∧ StoredCol (ty g.1 p.1) p.2 p'.2) g.2 g'.2) D D' →
          D = D' → ∀ g ∈ D, List.Forall₂ (fun p p' => p'.1 = p.1 ∧ StoredCol (ty g.1 p.1) p.2 p'.2) g.2 g.2 := by
        intro D D' hf
        induction hf with
        | nil => simp
        | cons hh _ ih =>
          intro he g hg
          obtain ⟨rfl, rfl⟩ := List.cons.inj he
          rcases List.mem_cons.1 hg with rfl | hg
          · exact hh.2
          · exact ih rfl g hg
      have key2 : ∀ {d d' : Dict K}, List.Forall₂ (fun p p' => p'.1 = p.1 ∧ StoredCol (ty g.1 p.1) p.2 p'.2) d d' → d = d' →
          ∀ p ∈ d, StoredCol (ty g.1 p.1) p.2 p.2 := by
        intro d d' hf
        induction hf with
        | nil => simp
        | cons hh _ ih =>
          intro he q hq
          obtain ⟨rfl, rfl⟩ := List.cons.inj he
          rcases List.mem_cons.1 hq with rfl | hq
          · exact hh.2
          · exact ih rfl q hq
      exact key2 (key h rfl g hg) rfl p hp
    rw [storedCol_iff] at hcol
    have e := hcol.2
    rw [hpa] at e hx
    simp only [castV, castArr, Val.arr.injEq] at e
    have e2 : a.data = a.data.map (castTot (ty g.1 p.1)) := congrArg Arr.data e
    simp only [Val.toArr] at hx
    rw [hc x hx]
    obtain ⟨i, hi, rfl⟩ := List.mem_iff_getElem.1 hx
    have e3 := congrArg (fun l => l[i]?) e2
    simp only [List.getElem?_map, List.getElem?_eq_getElem hi, Option.map_some, Option.some.injEq] at e3
    rw [← e3]
  · intro h
    unfold StoredTabs
    rw [List.forall₂_same]
    intro g hg
    refine ⟨rfl, ?_⟩
    rw [List.forall₂_same]
    intro p hp
    obtain ⟨a, hpa⟩ := ha g hg p hp
    refine ⟨rfl, a, a, hpa, hpa, rfl, ?_⟩
    rw [List.forall₂_same]
    intro x hx
    exact h g hg p hp x (by rw [hpa]; exact hx)

end

section
variable {K : Type} [Field K] [LinearOrder K] [IsStrictOrderedRing K] [FloorRing K]

theorem forall₂_zip {α β : Type} {R : α → β → Prop} {l : List α} {l' : List β} (h : List.Forall₂ R l l') : ∀ q ∈ l.zip l', R q.1 q.2 := by
  induction h with
  | nil => simp
  | cons hh _ ih =>
    intro q hq
    rw [List.zip_cons_cons] at hq
    rcases List.mem_cons.1 hq with rfl | hq
    · exact hh
    · exact ih q hq

/-- **C124: chunks of one ensemble.** Slices of an ensemble have its element types. For any reachable ensemble of a row class with array
ancillary data, written in slices in any order after an allocation by any slice, the file reads back as the ensemble. -/
theorem C124_slices {r : Reg K} (hr : Registered r) (fill : Elem K) {k : RowKind} {e : Ens K} (h : Reach k e)
    (ha : FileAncil e.ancil e.frozen.npdf) (ty : Types) (hty : OfTypes ty (dataTabs e)) {rs : List (ℕ × ℕ)} {es : List (Ens K)}
    (hrs : ∀ rg ∈ rs, rg.1 < rg.2 ∧ rg.2 ≤ e.frozen.npdf)
    (hes : List.Forall₂ (fun rg x => getItem e (.slice (some (rg.1 : ℤ)) (some (rg.2 : ℤ)) none) = .ok x) rs es)
    (hcov : ∀ i < e.frozen.npdf, ∃ rg ∈ rs, rg.1 ≤ i ∧ i < rg.2) {os : List (Put K)}
    (hos : ∀ o, o ∈ os ↔ o ∈ (rs.zip es).flatMap fun p => chunkOps p.2 p.1.1 p.1.2) {e0 e1 : Ens K} (h0 : e0 ∈ es) (h1 : e1 ∈ es) :
    ∃ f0 f1 f2, initWrite fill e0 e.frozen.npdf = .ok f0 ∧ runOpsT ty f0 os = .ok f1 ∧ finalizeWrite f1 e1 = .ok f2 ∧
      fromTables r f2 = .ok (flatEns e) := by
  obtain ⟨f0, f1, hi, hrun, hfin, hread⟩ := C50_any_schedule_partial hr fill h ha hrs hes hcov hos h0 h1
  refine ⟨f0, f1, _, hi, ?_, hfin, hread⟩
  obtain ⟨mo, ws, out, hst⟩ := reach_stored h
  have hn : e.frozen.npdf = out.length := by rw [hst.frozen]; rfl
  have hok := dataTabs_ok hst (by rw [← hn]; exact ha)
  have hop : ∀ o ∈ os, Castable (ty o.group o.col) o.val ∧ castOp ty o = o := by
    intro o ho
    obtain ⟨⟨rg, x⟩, hp, ho'⟩ := List.mem_flatMap.1 ((hos o).1 ho)
    have hg0 := forall₂_zip hes (rg, x) hp
    have hb := hrs rg (List.of_mem_zip hp).1
    rw [hn] at hb
    have hx : (rg.1 < rg.2 ∧ rg.2 ≤ out.length) ∧ dataTabs x = chunkTabs (dataTabs e) rg.1 rg.2 := ⟨hb, (dataTabs_chunk hst (hn ▸ ha) hb.1 hb.2 hg0).1⟩
    unfold chunkOps at ho'
    simp only at ho'
    rw [hx.2, mem_tabOps] at ho'
    obtain ⟨g, hg, p, hpg, rfl⟩ := ho'
    obtain ⟨a, hpa, -, -⟩ := hok.arrs g hg p hpg
    have hel : ∀ x ∈ a.data, castElem (ty g.1 p.1) x = .ok x := fun x hx => hty g hg p hpg x (by rw [hpa]; exact hx)
    have hid : ∀ x ∈ a.data, castTot (ty g.1 p.1) x = x := fun x hx => castTot_of (hel x hx)
    have hc : Castable (ty g.1 p.1) p.2 := ⟨a, hpa, fun x hx => by rw [hel x hx, hid x hx]⟩
    refine ⟨castable_chunk hc _ _, ?_⟩
    have hv : castV (ty g.1 p.1) p.2 = p.2 := by
      rw [hpa]
      simp only [castV, castArr, Val.arr.injEq]
      rw [List.map_congr_left hid]
      simp
    simp only [castOp]
    rw [← castV_chunk, hv]
  rw [runOpsT_eq os fun o ho => (hop o ho).1, List.map_congr_left fun o ho => (hop o ho).2]
  simpa using hrun

/-! ### the conversions -/

open Verif.Lemmas.FloatRound Verif.Lemmas.RoundDigits

/-- types that numpy has: the range of integers is not empty -/
def DTypeOk : DType → Prop
  | .int lo hi => lo ≤ hi
  | _ => True

theorem truncate_int (n : ℤ) : truncate (n : K) = n := by
  unfold truncate
  rw [← Int.cast_neg, Int.floor_intCast, Int.floor_intCast]
  split <;> ring

/-- **C124: what has been stored can be stored again** without a change: writing a file that was read changes nothing. -/
theorem C124_again {t : DType} (ht : DTypeOk t) {x y : Elem K} (h : castElem t x = .ok y) : castElem t y = .ok y := by
  cases t with
  | flt p emin emax =>
    cases x with
    | num v =>
      cases v with
      | none => obtain rfl := Except.ok.inj h; rfl
      | some v =>
        simp only [castElem] at h
        obtain rfl := Except.ok.inj h
        split_ifs with hb
        · simp only [castElem, floatRound_idem, if_pos hb]
        · rfl
    | bool b => simp [castElem] at h
    | str b => simp [castElem] at h
    | bytes b => simp [castElem] at h
  | int lo hi =>
    cases x with
    | num v =>
      cases v with
      | none => simp [castElem] at h
      | some v =>
        simp only [castElem] at h
        obtain rfl := Except.ok.inj h
        simp only [castElem, truncate_int]
        have : lo ≤ hi := ht
        have e : max lo (min hi (max lo (min hi (truncate v)))) = max lo (min hi (truncate v)) := by omega
        rw [e]
    | bool b => simp [castElem] at h
    | str b => simp [castElem] at h
    | bytes b => simp [castElem] at h
  | bytes n =>
    cases x with
    | num v => cases v <;> simp [castElem] at h
    | bool b => simp [castElem] at h
    | str b => simp [castElem] at h
    | bytes b =>
      simp only [castElem] at h
      obtain rfl := Except.ok.inj h
      simp only [castElem, String.toList_ofList, List.take_take, min_self]

/-- **C124: floats.** A number stored as a float keeps its place among the others, with an error of at most half a unit in the last place (or half the
smallest float); it is not finite only if it is too large. -/
theorem C124_float (p : ℕ) (emin emax : ℤ) (x : K) :
    (∃ v, castElem (.flt p emin emax) (.num (some x)) = .ok (.num v) ∧ (v = none ↔ 2 ^ emax ≤ |floatRound p emin x|)) ∧
    (∀ y, castElem (.flt p emin emax) (.num (some x)) = .ok (.num (some y)) → |y - x| ≤ max (|x| / 2 ^ (p + 1)) (2 ^ emin / 2)) ∧
    ∀ x' y y', castElem (.flt p emin emax) (.num (some x)) = .ok (.num (some y)) →
      castElem (.flt p emin emax) (.num (some x')) = .ok (.num (some y')) → x ≤ x' → y ≤ y' := by
  have hv : ∀ x y : K, castElem (.flt p emin emax) (.num (some x)) = .ok (.num (some y)) → y = floatRound p emin x := by
    intro x y h
    simp only [castElem, Except.ok.injEq, Elem.num.injEq] at h
    split_ifs at h
    exact (Option.some.inj h).symm
  refine ⟨⟨_, rfl, ?_⟩, ?_, ?_⟩
  · split_ifs with h
    · simpa using h
    · simpa using h
  · intro y hy
    rw [hv x y hy]
    exact floatRound_err p emin x
  · intro x' y y' h h' hx
    rw [hv x y h, hv x' y' h']
    exact floatRound_mono p emin hx

/-- **C124: integers.** An integer data set keeps exactly the integers in its range. -/
theorem C124_int_iff {lo hi : ℤ} (h : lo ≤ hi) (x : K) :
    castElem (.int lo hi) (.num (some x)) = .ok (.num (some x)) ↔ ∃ n : ℤ, x = n ∧ lo ≤ n ∧ n ≤ hi := by
  simp only [castElem, Except.ok.injEq, Elem.num.injEq, Option.some.injEq]
  constructor
  · intro hx
    exact ⟨_, hx.symm, by omega, by omega⟩
  · rintro ⟨n, rfl, h1, h2⟩
    rw [truncate_int]
    congr 1
    omega

/-- **C124: byte strings.** A data set for strings of `n` bytes keeps exactly the strings that are not longer. -/
theorem C124_bytes_iff (n : ℕ) (s : String) : castElem (K := K) (.bytes n) (.bytes s) = .ok (.bytes s) ↔ s.length ≤ n := by
  simp only [castElem, Except.ok.injEq, Elem.bytes.injEq]
  constructor
  · intro h
    have h2 := congrArg String.toList h
    rw [String.toList_ofList] at h2
    have h3 := congrArg List.length h2
    rw [List.length_take] at h3
    simp only [String.length_toList] at h3
    omega
  · intro h
    rw [List.take_of_length_le (by rw [String.length_toList]; exact h), String.ofList_toList]

/-- the numbers of `t` are numbers of `t'` -/
def Wider : DType → DType → Prop
  | .flt p e m, .flt p' e' m' => p ≤ p' ∧ e' ≤ e ∧ m ≤ m'
  | .int lo hi, .int lo' hi' => lo' ≤ lo ∧ hi ≤ hi'
  | .bytes n, .bytes n' => n ≤ n'
  | .int lo hi, .flt p e m => -2 ^ (p + 1) < lo ∧ hi < 2 ^ (p + 1) ∧ e ≤ 0 ∧ (p + 1 : ℤ) ≤ m
  | _, _ => False

theorem floatRound_multiple (p : ℕ) (emin : ℤ) {x : K} {N q : ℤ} (hx : x = N * 2 ^ q) (hq : spacing p emin x ≤ q) : floatRound p emin x = x := by
  unfold floatRound
  obtain ⟨d, hd⟩ := Int.eq_ofNat_of_zero_le (sub_nonneg.2 hq)
  have hs := two_zpow_pos (K := K) (spacing p emin x)
  have e : x / 2 ^ spacing p emin x = ((N * 2 ^ d : ℤ) : K) := by
    rw [div_eq_iff hs.ne', Int.cast_mul, Int.cast_pow, Int.cast_ofNat, mul_assoc, ← zpow_natCast, ← zpow_add₀ (by norm_num), ← hd]
    rw [sub_add_cancel]
    exact hx
  rw [e, roundEven_round.int, ← e, div_mul_cancel₀ _ hs.ne']

/-- **C124: allocation by a chunk with a wider type** is harmless -/
theorem C124_wider {t t' : DType} (ht : DTypeOk t) (h : Wider t t') {x : Elem K} (hx : castElem t x = .ok x) : castElem t' x = .ok x := by
  cases t with
  | flt p e m =>
    cases t' with
    | flt p' e' m' =>
      obtain ⟨h1, h2, h3⟩ := h
      cases x with
      | num v =>
        cases v with
        | none => rfl
        | some v =>
          simp only [castElem, Except.ok.injEq, Elem.num.injEq] at hx ⊢
          split_ifs at hx with hb
          have hv := Option.some.inj hx
          rw [hv] at hb
          have hsp : spacing p' e' v ≤ spacing p e v := by unfold spacing; omega
          have hr : floatRound p' e' v = v := floatRound_multiple p' e' (N := roundEven (v / 2 ^ spacing p e v)) (q := spacing p e v) hv.symm hsp
          rw [hr, if_pos]
          exact lt_of_lt_of_le hb (zpow_le_zpow_right₀ (by norm_num) h3)
      | bool b => simp [castElem] at hx
      | str b => simp [castElem] at hx
      | bytes b => simp [castElem] at hx
    | int lo hi => exact absurd h (by simp [Wider])
    | bytes n => exact absurd h (by simp [Wider])
  | int lo hi =>
    cases x with
    | bool b => simp [castElem] at hx
    | str b => simp [castElem] at hx
    | bytes b => simp [castElem] at hx
    | num v =>
      cases v with
      | none => simp [castElem] at hx
      | some v =>
        obtain ⟨n, rfl, h1, h2⟩ := (C124_int_iff ht v).1 hx
        cases t' with
        | int lo' hi' =>
          obtain ⟨h3, h4⟩ := h
          exact (C124_int_iff (by omega) _).2 ⟨n, rfl, by omega, by omega⟩
        | flt p e m =>
          obtain ⟨h3, h4, h5, h6⟩ := h
          have ha : |(n : K)| < 2 ^ ((p : ℤ) + 1) := by
            have : |n| < 2 ^ (p + 1) := by rw [abs_lt]; constructor <;> omega
            have h7 : ((|n| : ℤ) : K) < ((2 ^ (p + 1) : ℤ) : K) := Int.cast_lt.2 this
            rw [Int.cast_abs] at h7
            push_cast at h7
            rwa [← zpow_natCast, Nat.cast_add, Nat.cast_one] at h7
          have hsp : spacing p e (n : K) ≤ 0 := by
            unfold spacing
            by_cases h0 : n = 0
            · subst h0; simp [h5]
            · have hp : 0 < |(n : K)| := abs_pos.2 (by exact_mod_cast h0)
              have := (zpow_lt_zpow_iff_right₀ (by norm_num : (1 : K) < 2)).1 (lt_of_le_of_lt (log_bounds hp).1 ha)
              omega
          have hr : floatRound p e (n : K) = n := floatRound_multiple p e (N := n) (q := 0) (by simp) hsp
          simp only [castElem, hr]
          rw [if_pos]
          exact lt_of_lt_of_le ha (zpow_le_zpow_right₀ (by norm_num) h6)
        | bytes n => exact absurd h (by simp [Wider])
  | bytes n =>
    cases t' with
    | bytes n' =>
      cases x with
      | num v => cases v <;> simp [castElem] at hx
      | bool b => simp [castElem] at hx
      | str b => simp [castElem] at hx
      | bytes b => exact (C124_bytes_iff n' b).2 (((C124_bytes_iff n b).1 hx).trans h)
    | flt p e m => exact absurd h (by simp [Wider])
    | int lo hi => exact absurd h (by simp [Wider])

example : Wider .f4 .f8 ∧ Wider .u1 .f4 ∧ Wider .i4 .f8 ∧ Wider .i4 .i8 := by simp [Wider, DType.f4, DType.f8, DType.i4, DType.i8, DType.u1]

end

/-! ### concrete files -/

/-- two histograms on the edges 0, 1, 2 -/
def dyData : Dict ℚ := [("bins", qarr [3] [0, 1, 2]), ("pdfs", qarr [2, 2] [1/4, 3/4, 1/2, 1/2])]

def dyEns (anc : Dict ℚ) : Except Err (Ens ℚ) := mkEns (rowCreate histCls) (rowCreate histCls) dyData (some anc)

/-- object names as byte strings -/
def names (l : List String) : Dict ℚ := [("name", .arr ⟨[l.length], l.map .bytes⟩)]

/-- the ancillary data after both chunks are written, in a file allocated by the first -/
def twoChunks (ty : Types) (a0 a1 : Dict ℚ) : Except Err (Option (Dict ℚ)) := do
  let e0 ← dyEns a0
  let e1 ← dyEns a1
  let f0 ← initWrite (.num (some 0)) e0 4
  let f1 ← runOpsT ty f0 (chunkOps e0 0 2 ++ chunkOps e1 2 4)
  let f2 ← finalizeWrite f1 e0
  let e ← fromTables stdReg f2
  .ok e.ancil

/-- **C124 is false for chunks with different types.** The first chunk has names of two bytes, the second of four: the names of the second chunk are cut
off, and two objects get the same name. -/
theorem C124_names_cut :
    twoChunks (fun _ c => if c = "name" then .bytes 2 else .f8) (names ["g1", "g2"]) (names ["g100", "g101"]) =
      .ok (some (names ["g1", "g2", "g1", "g1"])) := by
  decide +kernel

/-- **C124 is false for chunks with different types.** The redshifts in the first chunk happen to be given as integers; those of the second
lose their fractions. -/
theorem C124_fractions_lost :
    twoChunks (fun _ c => if c = "z" then .i8 else .f8) [("z", qarr [2] [0, 1])] [("z", qarr [2] [1/2, 7/4])] =
      .ok (some [("z", qarr [4] [0, 1, 0, 1])]) := by
  decide +kernel

/-- the other way round nothing is lost -/
example : twoChunks (fun _ _ => .f8) [("z", qarr [2] [1/2, 7/4])] [("z", qarr [2] [0, 1])] = .ok (some [("z", qarr [4] [1/2, 7/4, 0, 1])]) := by
  decide +kernel

example : OfTypes (fun _ _ => .f8) ([("data", [("pdfs", qarr [2, 2] [1/4, 3/4, 1/2, 1/2])])] : Tabs ℚ) := by
  unfold OfTypes
  decide +kernel

end Verif.Props.DTypes
