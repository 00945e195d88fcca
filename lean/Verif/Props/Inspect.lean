import Verif.Props.Chunks

/-!
# C94: inspecting a file without reading it
-/

set_option linter.unusedSectionVars false
set_option autoImplicit false

namespace Verif.Props.Inspect

open Verif Verif.Np Verif.Model Verif.Spec Verif.Lemmas Verif.Props.State Verif.Props.ExEns Verif.Props.Select Verif.Props.Stack Verif.Props.Chunks Verif.Props.Tables

section
variable {K : Type} [Field K] [LinearOrder K] [IsStrictOrderedRing K]

/-- **C94, length**: the length reported for a file that holds an ensemble of a row class is its number of PDFs, after any history of operations and whatever the
order of the columns in the file.
Missing: analytic classes with flat parameter arrays (false, `C94_flat_parameters_wrong`). -/
theorem C94_length_partial {k : RowKind} {e : Ens K} (h : Reach k e) {t : Tabs K} (ht : Holds t e) : fileLength t = .ok e.frozen.npdf := by
  obtain ⟨mo, ws, out, hs⟩ := reach_stored h
  have hf := hs.fixed
  obtain ⟨f, hf', hpf⟩ := ht.data
  have hn : e.frozen.npdf = out.length := by rw [hs.frozen]; rfl
  rw [hn]
  have hsh : ∀ p ∈ f, p.2.shape.head? = some out.length := by
    intro p hp
    have := hpf.mem_iff.1 hp
    rw [hs.frozen] at this
    have : p ∈ storeRows (k.cls (K := K)).rowArgs ws out := this
    rw [storeRows_eq] at this
    obtain ⟨q, -, rfl⟩ := List.mem_map.1 this
    simp [Val.shape, Val.toArr, tab_shape]
  have hlen : dataLength f = .ok out.length := by
    cases hff : f with
    | nil =>
      rw [hff] at hpf
      have hl := hpf.symm.eq_nil
      rw [hs.frozen] at hl
      have hk := keys_storeRows (k.cls (K := K)).rowArgs ws out hf.wl
      have hl' : storeRows (k.cls (K := K)).rowArgs ws out = [] := hl
      rw [hl'] at hk
      exact absurd hk.symm hf.names.rne
    | cons p t =>
      have h1 := hsh p (by rw [hff]; simp)
      unfold dataLength
      cases hps : p.2.shape with
      | nil => rw [hps] at h1; simp at h1
      | cons m s =>
        rw [hps] at h1
        obtain rfl := Option.some.inj h1
        have hall : (t.all fun q => decide (q.2.shape.head? = some out.length)) = true := by
          rw [List.all_eq_true]
          intro q hq
          simpa using hsh q (by rw [hff]; simp [hq])
        simp only [hps, hall, if_true]
  simp only [fileLength, Tabs.get, hf', hlen, Bind.bind, Except.bind]

/-- **C94, length and reading**: it is also the number of PDFs of the ensemble that `read` returns. -/
theorem C94_length_of_read {r : Reg K} (hr : Registered r) {k : RowKind} {e : Ens K} (h : Reach k e) (ha : AncilOk e) {t : Tabs K} (ht : Holds t e) :
    fileLength t = (fromTables r t).map fun e' => e'.frozen.npdf := by
  rw [C94_length_partial h ht, C46_round_trip_partial hr h ha ht]
  rfl

/-- **C94, metadata**: the metadata read on their own have, name by name, the values that the ensemble has and that the ensemble returned by `read` has. -/
theorem C94_metadata {r : Reg K} (hr : Registered r) {k : RowKind} {e : Ens K} (h : Reach k e) (ha : AncilOk e) {t : Tabs K} (ht : Holds t e) :
    ∃ md e', fileMetadata t = .ok md ∧ fromTables r t = .ok e' ∧ ∀ x, Dict.get? md x = Dict.get? e.frozen.metadata x ∧ Dict.get? md x = Dict.get? e'.frozen.metadata x := by
  obtain ⟨mo, ws, out, hs⟩ := reach_stored h
  obtain ⟨md, hmd, hpm⟩ := ht.metadata
  refine ⟨md, flatEns e, by simp only [fileMetadata, Tabs.get, hmd], C46_round_trip_partial hr h ha ht, fun x => ?_⟩
  have hkm : (Dict.keys md).Nodup := (hpm.map _).nodup_iff.2 (by rw [hs.frozen]; exact metadata_keys hs.fixed _)
  have := get?_perm hpm hkm x
  exact ⟨this, this⟩

/-- A file without a data table has no length. -/
theorem C94_no_data (t : Tabs K) (h : t.lookup "data" = none) : fileLength t = .error .KeyError := by
  simp only [fileLength, Tabs.get, h, Bind.bind, Except.bind]

end

/-- **C94, a wrong outcome**: an analytic ensemble with parameters in flat arrays has one PDF, but the file it is written to reports three. -/
theorem C94_flat_parameters_wrong : (mkEns (analyticCreate "norm" 0) (analyticCreate "norm" 0) [("loc", qarr [3] [0, 1, 2]), ("scale", qarr [3] [1, 1, 2])] none).map (fun e => (e.frozen.npdf, fileLength (buildTables e))) =
    .ok (1, .ok 3) := by
  decide +kernel

example : fileLength (buildTables (histEns (some narrow))) = .ok 3 := C94_length_partial (histReach _ (by decide +kernel)) (holds_buildTables _)

example : fileLength (buildTables (histEns (some narrow))) = .ok 3 := by decide +kernel

end Verif.Props.Inspect
