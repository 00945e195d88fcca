import Verif.Props.Tables
import Verif.Props.Select
import Verif.Props.Stack

/-!
# Reading in chunks: C48, C49
-/

set_option linter.unusedSectionVars false
set_option autoImplicit false

namespace Verif.Props.Chunks

open Verif Verif.Np Verif.Model Verif.Spec Verif.Lemmas Verif.Props.State Verif.Props.ExEns Verif.Props.Select Verif.Props.Stack

/-! ### which rows each rank reads -/

theorem lt_nChunks (n c i : ℕ) (hc : 0 < c) : i < nChunks n c ↔ i * c < n := by
  have h1 : n / c * c ≤ n := Nat.div_mul_le_self n c
  have h2 : n < (n / c + 1) * c := by
    have := Nat.lt_succ_self (n / c)
    exact (Nat.div_lt_iff_lt_mul hc).1 this
  unfold nChunks
  split_ifs with h
  · rw [Nat.lt_succ_iff]
    constructor
    · intro hi
      exact lt_of_le_of_lt (Nat.mul_le_mul_right c hi) h
    · intro hi
      by_contra hcon
      have : (n / c + 1) * c ≤ i * c := Nat.mul_le_mul_right c (by omega)
      omega
  · have he : n / c * c = n := by omega
    constructor
    · intro hi
      have : i * c < n / c * c := Nat.mul_lt_mul_of_pos_right hi hc
      omega
    · intro hi
      rw [← he] at hi
      exact lt_of_mul_lt_mul_right hi (Nat.zero_le c)

theorem mem_dataRanges (n c P r s t : ℕ) (hc : 0 < c) :
    (s, t) ∈ dataRanges n c P r ↔ ∃ i, i % P = r ∧ s = i * c ∧ t = min ((i + 1) * c) n ∧ i * c < n := by
  unfold dataRanges
  simp only [List.mem_map, List.mem_filter, List.mem_range, decide_eq_true_eq, Prod.mk.injEq]
  constructor
  · rintro ⟨i, ⟨h1, h2⟩, rfl, rfl⟩
    exact ⟨i, h2, rfl, rfl, (lt_nChunks n c i hc).1 h1⟩
  · rintro ⟨i, h1, rfl, rfl, h2⟩
    exact ⟨i, ⟨(lt_nChunks n c i hc).2 h2, h1⟩, rfl, rfl⟩

/-- ranges are non-empty, within the file and no longer than the chunk size -/
theorem C48_range_bounds (n c P r s t : ℕ) (hc : 0 < c) (h : (s, t) ∈ dataRanges n c P r) : s < t ∧ t ≤ n ∧ t - s ≤ c := by
  obtain ⟨i, -, rfl, rfl, h2⟩ := (mem_dataRanges n c P r s t hc).1 h
  have : (i + 1) * c = i * c + c := by ring
  rw [this]
  omega

/-- **C48**, coverage: every row of the file belongs to exactly one range of exactly one rank, whatever the number of rows, the chunk
size and the number of ranks -/
theorem C48_every_row_once (n c P : ℕ) (hc : 0 < c) (hP : 0 < P) (row : ℕ) (hrow : row < n) :
    ∃! x : ℕ × ℕ × ℕ, x.1 < P ∧ (x.2.1, x.2.2) ∈ dataRanges n c P x.1 ∧ x.2.1 ≤ row ∧ row < x.2.2 := by
  have hd : row / c * c ≤ row := Nat.div_mul_le_self row c
  have hd2 : row < (row / c + 1) * c := (Nat.div_lt_iff_lt_mul hc).1 (Nat.lt_succ_self _)
  refine ⟨(row / c % P, row / c * c, min ((row / c + 1) * c) n), ⟨Nat.mod_lt _ hP, ?_, hd, by simp only [lt_min_iff]; exact ⟨hd2, hrow⟩⟩, ?_⟩
  · rw [mem_dataRanges _ _ _ _ _ _ hc]
    exact ⟨row / c, rfl, rfl, rfl, by omega⟩
  · rintro ⟨r, s, t⟩ ⟨hr, hm, hs, ht⟩
    simp only at hr hm hs ht
    obtain ⟨i, h1, rfl, rfl, h2⟩ := (mem_dataRanges n c P r s t hc).1 hm
    have hi : i = row / c := by
      symm
      apply Nat.div_eq_of_lt_le
      · exact hs
      · exact (lt_min_iff.1 ht).1
    subst hi
    rw [h1]

/-- no rank gets the same range twice, and its ranges come in increasing order -/
theorem C48_in_order (n c P r : ℕ) : (dataRanges n c P r).Pairwise fun a b => a.2 ≤ b.1 := by
  unfold dataRanges
  rw [List.pairwise_map]
  apply List.Pairwise.filter
  apply (List.pairwise_lt_range).imp
  intro a b hab
  have : (a + 1) * c ≤ b * c := Nat.mul_le_mul_right c hab
  simp only
  omega

theorem flatMap_ranges (n c k : ℕ) (hc : 0 < c) (hk : k ≤ nChunks n c) :
    ((List.range k).map fun i => (i * c, min ((i + 1) * c) n)).flatMap (fun r => List.range' r.1 (r.2 - r.1)) =
      List.range (min (k * c) n) := by
  induction k with
  | zero => simp
  | succ k ih =>
    have hlt := (lt_nChunks n c k hc).1 (by omega)
    rw [List.range_succ, List.map_append, List.flatMap_append, ih (by omega)]
    simp only [List.map_cons, List.map_nil, List.flatMap_cons, List.flatMap_nil, List.append_nil]
    rw [min_eq_left (by omega : k * c ≤ n), List.range_eq_range']
    have h1 : k * c ≤ min ((k + 1) * c) n := by
      have : (k + 1) * c = k * c + c := by ring
      omega
    have := List.range'_append (s := 0) (m := k * c) (n := min ((k + 1) * c) n - k * c) (step := 1)
    simp only [one_mul, zero_add] at this
    rw [this, Nat.add_sub_cancel' h1, ← List.range_eq_range']

/-- one rank alone reads all rows in order -/
theorem C48_one_rank (n c : ℕ) (hc : 0 < c) :
    (dataRanges n c 1 0).flatMap (fun r => List.range' r.1 (r.2 - r.1)) = List.range n := by
  have hf : dataRanges n c 1 0 = (List.range (nChunks n c)).map fun i => (i * c, min ((i + 1) * c) n) := by
    unfold dataRanges
    congr 1
    rw [List.filter_eq_self]
    intro i _
    simp [Nat.mod_one]
  rw [hf, flatMap_ranges n c _ hc (le_refl _), min_eq_right]
  by_contra h
  have := (lt_nChunks n c (nChunks n c) hc).2 (by omega)
  omega

example : dataRanges 7 3 2 0 = [(0, 3), (6, 7)] ∧ dataRanges 7 3 2 1 = [(3, 6)] := by decide

/-! ### the chunks -/

section
variable {K : Type} [Field K] [LinearOrder K] [IsStrictOrderedRing K]

theorem update_same_keys {d d2 : Dict K} (hk : Dict.keys d = Dict.keys d2) (hn : (Dict.keys d2).Nodup) : Dict.update d d2 = d2 := by
  have h1 : Dict.keys (Dict.update d d2) = Dict.keys d := keys_update_subset d d2 (by rw [hk]; exact fun _ h => h)
  apply dict_ext (h1.trans hk) (by rw [h1, hk]; exact hn)
  intro k
  rw [get?_update _ _ hn]
  cases hg : Dict.get? d2 k with
  | some v => rfl
  | none =>
    rw [Option.none_or, get?_eq_none_iff, hk, ← get?_eq_none_iff]
    exact hg

theorem update_nil {d : Dict K} (hn : (Dict.keys d).Nodup) : Dict.update [] d = d := by
  rw [update_disjoint [] d hn (by simp [Dict.keys])]; rfl

theorem keys_chunk (a : Dict K) (s t : ℕ) : Dict.keys (a.map fun p => (p.1, chunkCol s t p.2)) = Dict.keys a :=
  keys_map a fun _ v => chunkCol s t v

/-- the columns of a chunk of the tables are the tables of the selected rows -/
theorem get?_chunk {c : RowCls K} {mo : List (String × Arr (Elem K))} {ws : List ℕ} {out : List (List (List (Elem K)))}
    (hf : Fixed c mo ws out) {f : Dict K} (hp : f.Perm (storeRows c.rowArgs ws out)) {s t : ℕ} (ht : t ≤ out.length) (x : String) :
    Dict.get? (f.map fun p => (p.1, chunkCol s t p.2)) x =
      Dict.get? (storeRows c.rowArgs ws (pick out (List.range' s (t - s)))) x := by
  have hnd := (List.nodup_append.1 hf.names.nd).2.1
  have hkd : (Dict.keys f).Nodup := (hp.map _).nodup_iff.2 (by
    show (Dict.keys (storeRows c.rowArgs ws out)).Nodup
    rw [keys_storeRows _ _ _ hf.wl]; exact hnd)
  rw [get?_map, get?_perm hp hkd]
  by_cases hx : x ∈ c.rowArgs
  · obtain ⟨j, hj, rfl⟩ := List.mem_iff_getElem.1 hx
    rw [get?_storeRows _ _ _ hf.wl hnd j hj, get?_storeRows _ _ _ hf.wl hnd j hj]
    simp only [Option.map_some, chunkCol]
    rw [tab_takeRows hf.len j (by rw [hf.wl]; exact hj)]
    intro i hi
    simp only [List.mem_range'_1] at hi
    omega
  · have : ∀ o : List (List (List (Elem K))), Dict.get? (storeRows c.rowArgs ws o) x = none := by
      intro o
      rw [get?_eq_none_iff, keys_storeRows _ _ _ hf.wl]
      exact hx
    rw [this, this]
    rfl

/-- the ancillary dictionary of a chunk -/
def chunkAncil (anc : Option (Dict K)) (s t : ℕ) : Dict K :=
  match anc with
  | none => []
  | some a => a.map fun p => (p.1, chunkCol s t p.2)

/-- what is true of the state of the generator between two chunks -/
structure IterInv (c : RowCls K) (mo : List (String × Arr (Elem K))) (anc : Option (Dict K)) (st : IterState K) : Prop where
  data : ∀ x, x ∉ c.rowArgs → Dict.get? st.data x = Dict.get? (metaDict mo) x
  ancil : st.ancil = [] ∨ ∃ a, anc = some a ∧ Dict.keys st.ancil = Dict.keys a

/-- ancillary data as a file holds them: columns that are arrays with one row per PDF -/
def FileAncil (anc : Option (Dict K)) (n : ℕ) : Prop := ∀ a, anc = some a → AncilCols a n ∧ (Dict.keys a).Nodup

theorem chunkAncil_ok {anc : Option (Dict K)} {n : ℕ} (h : FileAncil anc n) (s t : ℕ) :
    checkArrayShapes (some (chunkAncil anc s t)) (t - s) = .ok () := by
  rw [checkArrayShapes_iff]
  intro d hd p hp
  obtain rfl := Option.some.inj hd
  cases anc with
  | none => simp [chunkAncil] at hp
  | some a =>
    obtain ⟨q, hq, rfl⟩ := List.mem_map.1 hp
    obtain ⟨cc, hcc, -, -⟩ := (h a rfl).1 q hq
    left
    simp [hcc, chunkCol, Val.shape, Val.toArr, Arr.takeRows, Arr.ofRows]

theorem iterStep_ok {k : RowKind} {e : Ens K} {mo : List (String × Arr (Elem K))} {ws : List ℕ} {out : List (List (List (Elem K)))}
    (hs : Stored k e mo ws out) {f : Dict K} (hp : f.Perm e.frozen.objdata) (ha : FileAncil e.ancil out.length) {s t : ℕ} (hst : s < t)
    (ht : t ≤ out.length) {st : IterState K} (hi : IterInv k.cls mo e.ancil st) :
    ∃ st', iterStep (rowCreate (k.cls (K := K))) f e.ancil st (s, t) =
        .ok (⟨s, t, ⟨rowCreate k.cls, rowCreate k.cls, frozenOf k.cls mo ws (pick out (List.range' s (t - s))) [t - s],
          some (chunkAncil e.ancil s t)⟩⟩, st') ∧
      st'.ancil = chunkAncil e.ancil s t ∧ IterInv k.cls mo e.ancil st' := by
  have hf := hs.fixed
  have hnd := List.nodup_append.1 hf.names.nd
  rw [hs.frozen] at hp
  have hkd : (Dict.keys (f.map fun p => (p.1, chunkCol s t p.2))).Nodup := by
    rw [keys_chunk]
    exact (hp.map _).nodup_iff.2 (by
      show (Dict.keys (storeRows (k.cls (K := K)).rowArgs ws out)).Nodup
      rw [keys_storeRows _ _ _ hf.wl]; exact hnd.2.1)
  have hlt : ∀ i ∈ List.range' s (t - s), i < out.length := by
    intro i hi
    simp only [List.mem_range'_1] at hi
    omega
  have hnone : ∀ x, x ∈ (k.cls (K := K)).rowArgs → Dict.get? (metaDict mo) x = none := by
    intro x hx
    apply get?_metaDict_none
    intro hc
    obtain ⟨p, hp', he⟩ := List.mem_map.1 hc
    exact hnd.2.2 p.1 (hf.mok p hp') x hx he
  have hnone2 : ∀ x, x ∉ (k.cls (K := K)).rowArgs →
      Dict.get? (storeRows (k.cls (K := K)).rowArgs ws (pick out (List.range' s (t - s)))) x = none := by
    intro x hx
    rw [get?_eq_none_iff, keys_storeRows _ _ _ hf.wl]
    exact hx
  have hsome : ∀ x, x ∈ (k.cls (K := K)).rowArgs →
      ∃ v, Dict.get? (storeRows (k.cls (K := K)).rowArgs ws (pick out (List.range' s (t - s)))) x = some v := by
    intro x hx
    rw [get?_isSome_iff, keys_storeRows _ _ _ hf.wl]
    exact hx
  have hdata : ∀ x, Dict.get? (Dict.update st.data (f.map fun p => (p.1, chunkCol s t p.2))) x =
      Dict.get? (metaDict mo ++ storeRows (k.cls (K := K)).rowArgs ws (pick out (List.range' s (t - s)))) x := by
    intro x
    rw [get?_update _ _ hkd, get?_chunk hf hp ht, get?_append]
    by_cases hx : x ∈ (k.cls (K := K)).rowArgs
    · obtain ⟨v, hv⟩ := hsome x hx
      rw [hnone x hx, hv]; rfl
    · rw [hnone2 x hx, hi.data x hx, Option.or_none, Option.none_or]
  have hcr : rowCreate (k.cls (K := K)) (Dict.update st.data (f.map fun p => (p.1, chunkCol s t p.2))) =
      .ok (frozenOf k.cls mo ws (pick out (List.range' s (t - s))) [t - s]) := by
    have hl : (pick out (List.range' s (t - s))).length = t - s := by rw [pick_length, List.length_range']
    have := rebuild_ok (hf.sub (pick_mem (K := K) hlt)) (by
      intro hn h0
      rw [hl] at h0
      rcases Nat.mul_eq_zero.1 h0 with h0 | h0
      · omega
      · exact hs.w hn h0) _ hdata
    rw [hl] at this
    exact this
  have hanc : nextAncil e.ancil st (s, t) = chunkAncil e.ancil s t := by
    unfold nextAncil
    cases he : e.ancil with
    | none =>
      rcases hi.ancil with h | ⟨a, h, -⟩
      · simpa [chunkAncil] using h
      · rw [he] at h; simp at h
    | some a =>
      have hn := (ha a he).2
      simp only [chunkAncil]
      rcases hi.ancil with h | ⟨a', h, hk⟩
      · rw [h, update_nil]
        rw [keys_chunk]; exact hn
      · rw [he] at h
        obtain rfl := Option.some.inj h
        apply update_same_keys
        · rw [keys_chunk, hk]
        · rw [keys_chunk]; exact hn
  have hnp : (frozenOf (k.cls (K := K)) mo ws (pick out (List.range' s (t - s))) [t - s]).npdf = t - s := by
    simp [frozenOf, pick_length]
  refine ⟨⟨Dict.update st.data (f.map fun p => (p.1, chunkCol s t p.2)), chunkAncil e.ancil s t⟩, ?_, rfl, ?_, ?_⟩
  · unfold iterStep
    simp only [hanc, mkEns, hcr, Bind.bind, Except.bind, hnp, chunkAncil_ok ha s t]
  · intro x hx
    simp only
    rw [hdata, get?_append, hnone2 x hx, Option.or_none]
  · cases he : e.ancil with
    | none => left; rfl
    | some a => right; exact ⟨a, rfl, keys_chunk a s t⟩

/-- the chunk for a range, as handed out -/
def chunkOf (k : RowKind) (mo : List (String × Arr (Elem K))) (ws : List ℕ) (out : List (List (List (Elem K)))) (anc : Option (Dict K))
    (r : ℕ × ℕ) : Chunk K :=
  ⟨r.1, r.2, ⟨rowCreate k.cls, rowCreate k.cls, frozenOf k.cls mo ws (pick out (List.range' r.1 (r.2 - r.1))) [r.2 - r.1],
    some (chunkAncil anc r.1 r.2)⟩⟩

theorem iterLoop_ok {k : RowKind} {e : Ens K} {mo : List (String × Arr (Elem K))} {ws : List ℕ} {out : List (List (List (Elem K)))}
    (hs : Stored k e mo ws out) {f : Dict K} (hp : f.Perm e.frozen.objdata) (ha : FileAncil e.ancil out.length) (rs : List (ℕ × ℕ))
    (hr : ∀ r ∈ rs, r.1 < r.2 ∧ r.2 ≤ out.length) (st : IterState K) (hi : IterInv k.cls mo e.ancil st) :
    ∃ st', iterLoop (rowCreate (k.cls (K := K))) f e.ancil st rs = .ok (rs.map (chunkOf k mo ws out e.ancil), st') ∧
      ∀ h : rs ≠ [], st'.ancil = chunkAncil e.ancil (rs.getLast h).1 (rs.getLast h).2 := by
  induction rs generalizing st with
  | nil => exact ⟨st, rfl, fun h => absurd rfl h⟩
  | cons r rs ih =>
    obtain ⟨s, t⟩ := r
    obtain ⟨h1, h2⟩ := hr (s, t) (by simp)
    obtain ⟨st1, hstep, hanc, hinv⟩ := iterStep_ok hs hp ha h1 h2 hi
    obtain ⟨st2, hloop, hlast⟩ := ih (fun r hr' => hr r (by simp [hr'])) st1 hinv
    refine ⟨st2, ?_, ?_⟩
    · simp only [iterLoop, hstep, hloop, Bind.bind, Except.bind, List.map_cons]
      rfl
    · intro h
      cases rs with
      | nil =>
        simp only [iterLoop, Except.ok.injEq, Prod.mk.injEq] at hloop
        obtain ⟨-, rfl⟩ := hloop
        exact hanc
      | cons r' rs' =>
        rw [List.getLast_cons (by simp)]
        exact hlast (by simp)

theorem iterOpen_ok {r : Reg K} (hr : Registered r) {k : RowKind} {e : Ens K} {mo : List (String × Arr (Elem K))} {ws : List ℕ}
    {out : List (List (List (Elem K)))} (hs : Stored k e mo ws out) {t : Tabs K} (ht : Holds t e) :
    ∃ f st, iterOpen r t = .ok (rowCreate k.cls, f, out.length, st) ∧ f.Perm e.frozen.objdata ∧ IterInv k.cls mo e.ancil st := by
  have hf := hs.fixed
  have hnd := List.nodup_append.1 hf.names.nd
  obtain ⟨md, hmd, hpm⟩ := ht.metadata
  obtain ⟨f, hf', hpf⟩ := ht.data
  rw [hs.frozen] at hpm
  have hkm : (Dict.keys md).Nodup := (hpm.map _).nodup_iff.2 (metadata_keys hf _)
  have hg1 : Dict.get? md "pdf_name" = some (.arr ⟨[1], [.bytes (k.cls (K := K)).name]⟩) := by
    rw [get?_perm hpm hkm]
    simp [frozenOf, classMeta, get?_cons]
  have hg2 : ∃ w, Dict.get? md "pdf_version" = some w := by
    rw [get?_perm hpm hkm]
    exact ⟨_, rfl⟩
  obtain ⟨w, hg2⟩ := hg2
  obtain ⟨d1, d2, hp1, hp2, hn1, hn2, hd2⟩ := pop_two hg1 hg2
  have hsub : ∀ p ∈ d2, p ∈ md := by
    intro p hp
    have e1 : d1 = md.filter fun p => p.1 ≠ "pdf_name" := by
      simp only [Dict.popVal, hg1, Except.ok.injEq, Prod.mk.injEq] at hp1
      exact hp1.2.symm
    have h2 : d2 = d1.filter fun p => p.1 ≠ "pdf_version" := by
      unfold Dict.popVal at hp2
      split at hp2
      · simp only [Except.ok.injEq, Prod.mk.injEq] at hp2
        exact hp2.2.symm
      · simp at hp2
    rw [h2] at hp
    have := (List.mem_filter.1 hp).1
    rw [e1] at this
    exact (List.mem_filter.1 this).1
  have hmm := mapM_metaCol d2 (fun p hp => metaCol_all hf hs.mwf (stored_noBytes hs) _ p (hpm.mem_iff.1 (hsub p hp)))
  have hfind : Reg.find r (.py (.str (k.cls (K := K)).name)) = .ok (rowCreate k.cls) := by
    simp only [Reg.find, hr k]
  have hlen : dataLength f = .ok out.length := by
    have hsh : ∀ p ∈ f, p.2.shape.head? = some out.length := by
      intro p hp
      have := hpf.mem_iff.1 hp
      rw [hs.frozen] at this
      have : p ∈ storeRows (k.cls (K := K)).rowArgs ws out := this
      rw [storeRows_eq] at this
      obtain ⟨q, -, rfl⟩ := List.mem_map.1 this
      simp [Val.shape, Val.toArr, tab_shape]
    cases hff : f with
    | nil =>
      rw [hff] at hpf
      have hl := hpf.symm.eq_nil
      rw [hs.frozen] at hl
      have hk := keys_storeRows (k.cls (K := K)).rowArgs ws out hf.wl
      have hl' : storeRows (k.cls (K := K)).rowArgs ws out = [] := hl
      rw [hl'] at hk
      exact absurd hk.symm hf.names.rne
    | cons p t =>
      have h1 := hsh p (by rw [hff]; simp)
      unfold dataLength
      cases hps : p.2.shape with
      | nil => rw [hps] at h1; simp at h1
      | cons m s =>
        rw [hps] at h1
        obtain rfl := Option.some.inj h1
        have hall : (t.all fun q => decide (q.2.shape.head? = some out.length)) = true := by
          rw [List.all_eq_true]
          intro q hq
          simpa using hsh q (by rw [hff]; simp [hq])
        simp only [hps, hall, if_true]
  refine ⟨f, ⟨d2.map fun p => (p.1, metaVal p.2), []⟩, ?_, hpf, ?_, Or.inl rfl⟩
  · have hb : buildDataDict d2 [] = .ok (d2.map fun p => (p.1, metaVal p.2)) := by
      simp only [buildDataDict, hmm, Bind.bind, Except.bind]
      rfl
    have hmc : metaCol (.arr ⟨[1], [.bytes (k.cls (K := K)).name]⟩ : Val K) = .ok (.py (.str (k.cls (K := K)).name)) := rfl
    simp only [iterOpen, Tabs.get, hmd, hf', hp1, hp2, hmc, hfind, hlen, hb, Bind.bind, Except.bind]
  · intro x hx
    simp only
    rw [get?_map]
    by_cases h1 : x = "pdf_name"
    · subst h1
      rw [hn1, get?_metaDict_none]; · rfl
      intro hc
      obtain ⟨p, hp, he⟩ := List.mem_map.1 hc
      exact hf.names.name (List.mem_append_left _ (he ▸ hf.mok p hp))
    · by_cases h2 : x = "pdf_version"
      · subst h2
        rw [hn2, get?_metaDict_none]; · rfl
        intro hc
        obtain ⟨p, hp, he⟩ := List.mem_map.1 hc
        exact hf.names.version (List.mem_append_left _ (he ▸ hf.mok p hp))
      · rw [hd2 x h1 h2, get?_perm hpm hkm, metaVal_get hf hs.mwf (stored_noBytes hs) _ x h1 h2]

theorem iterRun_ok {r : Reg K} (hr : Registered r) {k : RowKind} {e : Ens K} {mo : List (String × Arr (Elem K))} {ws : List ℕ}
    {out : List (List (List (Elem K)))} (hs : Stored k e mo ws out) {t : Tabs K} (ht : Holds t e) (ha : FileAncil e.ancil out.length)
    (c rank size steps : ℕ) (hc : 0 < c) :
    ∃ st, iterRun r t c rank size steps =
        .ok (((dataRanges out.length c size rank).take steps).map (chunkOf k mo ws out e.ancil), st) ∧
      ∀ h : (dataRanges out.length c size rank).take steps ≠ [],
        st.ancil = chunkAncil e.ancil (((dataRanges out.length c size rank).take steps).getLast h).1
          (((dataRanges out.length c size rank).take steps).getLast h).2 := by
  obtain ⟨f, st0, hopen, hpf, hinv⟩ := iterOpen_ok hr hs ht
  obtain ⟨st, hloop, hlast⟩ := iterLoop_ok hs hpf ha ((dataRanges out.length c size rank).take steps) (by
    rintro ⟨s, t⟩ hm
    have := C48_range_bounds _ _ _ _ _ _ hc (List.mem_of_mem_take hm)
    exact ⟨this.1, this.2.1⟩) st0 hinv
  refine ⟨st, ?_, hlast⟩
  simp only [iterRun, hopen, Bind.bind, Except.bind]
  rw [if_neg (by omega), ht.ancil]
  exact hloop

theorem getItem_chunk {k : RowKind} {e : Ens K} {mo : List (String × Arr (Elem K))} {ws : List ℕ}
    {out : List (List (List (Elem K)))} (hs : Stored k e mo ws out) (ha : FileAncil e.ancil out.length) {s t : ℕ} (hst : s < t)
    (ht : t ≤ out.length) :
    getItem e (.slice (some (s : ℤ)) (some (t : ℤ)) none) =
      .ok { (chunkOf k mo ws out e.ancil (s, t)).ens with ancil := e.ancil.map fun _ => chunkAncil e.ancil s t } := by
  have hg := getItem_frozen hs.create hs.frozen hs.fixed hs.w (.slice (some (s : ℤ)) (some (t : ℤ)) none)
  have hres := C32_slice_key out.length s t hst.le ht
  rw [hres] at hg
  rw [hg]
  simp only [Except.bind]
  have hne : List.range' s (t - s) ≠ [] := by
    intro h
    have := congrArg List.length h
    simp at this
    omega
  cases he : e.ancil with
  | none =>
    simp only [sliceAncil]
    rw [if_neg (fun hc => hne hc.2)]
    simp only [checkArrayShapes, selRows, List.length_range', hs.create, chunkOf]
    rfl
  | some a =>
    have hcols := (ha a he).1
    simp only [sliceAncil, index_cols_ok hcols hres, Except.map]
    rw [if_neg (fun hc => hne hc.2)]
    simp only [selRows, List.length_range']
    have hsame : (a.map fun p => (p.1, Val.arr (selArr (.many (List.range' s (t - s))) p.2.toArr))) = chunkAncil (some a) s t := by
      simp only [chunkAncil]
      apply List.map_congr_left
      intro p hp
      obtain ⟨cc, hcc, -⟩ := hcols p hp
      simp [hcc, chunkCol, selArr, Val.toArr]
    rw [hsame]
    have := chunkAncil_ok (he ▸ ha) s t
    rw [this, hs.create]
    rfl

/-- **C48**, the content: for every file that holds an ensemble of a row class with ancillary data, every chunk size, number of ranks
and rank, `iterator` hands out one item per range of this rank, and each item, when handed out, is the slice `[start:end]` of the
ensemble, PDFs and ancillary data. (Without ancillary data in the file see `C48_without_ancil_partial`.) -/
theorem C48_chunks {r : Reg K} (hr : Registered r) {k : RowKind} {e : Ens K} (h : Reach k e) {t : Tabs K} (ht : Holds t e) {a : Dict K}
    (hea : e.ancil = some a) (hcols : AncilCols a e.frozen.npdf) (hnd : (Dict.keys a).Nodup) (c rank size steps : ℕ) (hc : 0 < c) :
    ∃ cs st, iterRun r t c rank size steps = .ok (cs, st) ∧
      List.Forall₂ (fun rg x => x.start = rg.1 ∧ x.stop = rg.2 ∧
        getItem e (.slice (some (rg.1 : ℤ)) (some (rg.2 : ℤ)) none) = .ok x.ens)
        ((dataRanges e.frozen.npdf c size rank).take steps) cs := by
  obtain ⟨mo, ws, out, hs⟩ := reach_stored h
  have hn : e.frozen.npdf = out.length := by rw [hs.frozen]; rfl
  rw [hn] at hcols ⊢
  have ha : FileAncil e.ancil out.length := by
    intro a' ha'
    rw [hea] at ha'
    obtain rfl := Option.some.inj ha'
    exact ⟨hcols, hnd⟩
  obtain ⟨st, hrun, -⟩ := iterRun_ok hr hs ht ha c rank size steps hc
  refine ⟨_, st, hrun, ?_⟩
  rw [List.forall₂_map_right_iff, List.forall₂_same]
  rintro ⟨s, t'⟩ hm
  have hb := C48_range_bounds _ _ _ _ _ _ hc (List.mem_of_mem_take hm)
  refine ⟨rfl, rfl, ?_⟩
  rw [getItem_chunk hs ha hb.1 hb.2.1, hea]
  rfl

/-- **C48** for a file without ancillary data: the PDFs of each item are the slice; but the item gets an empty ancillary dictionary,
where the slice (and `read`) has `None` -/
theorem C48_without_ancil_partial {r : Reg K} (hr : Registered r) {k : RowKind} {e : Ens K} (h : Reach k e) {t : Tabs K} (ht : Holds t e)
    (hea : e.ancil = none) (c rank size steps : ℕ) (hc : 0 < c) :
    ∃ cs st, iterRun r t c rank size steps = .ok (cs, st) ∧
      List.Forall₂ (fun rg x => x.start = rg.1 ∧ x.stop = rg.2 ∧ x.ens.ancil = some [] ∧
        getItem e (.slice (some (rg.1 : ℤ)) (some (rg.2 : ℤ)) none) = .ok { x.ens with ancil := none })
        ((dataRanges e.frozen.npdf c size rank).take steps) cs := by
  obtain ⟨mo, ws, out, hs⟩ := reach_stored h
  have hn : e.frozen.npdf = out.length := by rw [hs.frozen]; rfl
  rw [hn]
  have ha : FileAncil e.ancil out.length := by
    intro a' ha'
    rw [hea] at ha'
    simp at ha'
  obtain ⟨st, hrun, -⟩ := iterRun_ok hr hs ht ha c rank size steps hc
  refine ⟨_, st, hrun, ?_⟩
  rw [List.forall₂_map_right_iff, List.forall₂_same]
  rintro ⟨s, t'⟩ hm
  have hb := C48_range_bounds _ _ _ _ _ _ hc (List.mem_of_mem_take hm)
  refine ⟨rfl, rfl, ?_, ?_⟩
  · simp [chunkOf, chunkAncil, hea]
  · rw [getItem_chunk hs ha hb.1 hb.2.1, hea]
    rfl

/-- **C48**, stacking: the items that one rank alone gets, stacked in order, are the whole ensemble -/
theorem C48_stack {r : Reg K} (hr : Registered r) {k : RowKind} {e : Ens K} (h : Reach k e) {t : Tabs K} (ht : Holds t e)
    (ha : FileAncil e.ancil e.frozen.npdf) (c : ℕ) (hc : 0 < c) (hn0 : e.frozen.npdf ≠ 0) :
    ∃ cs st, iterRun r t c 0 1 (dataRanges e.frozen.npdf c 1 0).length = .ok (cs, st) ∧
      Stacks (cs.map fun x => x.ens.frozen) (flatEns e).frozen := by
  obtain ⟨mo, ws, out, hs⟩ := reach_stored h
  have hn : e.frozen.npdf = out.length := by rw [hs.frozen]; rfl
  rw [hn] at ha hn0 ⊢
  obtain ⟨st, hrun, -⟩ := iterRun_ok hr hs ht ha c 0 1 (dataRanges out.length c 1 0).length hc
  rw [List.take_length] at hrun
  refine ⟨_, st, hrun, ?_⟩
  have hpick : ((dataRanges out.length c 1 0).map fun rg => pick out (List.range' rg.1 (rg.2 - rg.1))).flatten = out := by
    have h1 := C48_one_rank out.length c hc
    have h2 : ((dataRanges out.length c 1 0).map fun rg => pick out (List.range' rg.1 (rg.2 - rg.1))).flatten =
        pick out ((dataRanges out.length c 1 0).flatMap fun r => List.range' r.1 (r.2 - r.1)) := by
      simp only [pick, List.map_flatMap]
      rw [List.flatMap_def]
    rw [h2, h1]
    apply List.ext_getElem
    · simp [pick]
    · intro i h1 h2
      simp [pick, List.getElem?_eq_getElem h2]
  have hne : dataRanges out.length c 1 0 ≠ [] := by
    intro h0
    have := C48_one_rank out.length c hc
    rw [h0] at this
    simp only [List.flatMap_nil] at this
    exact hn0 (List.range_eq_nil.1 this.symm)
  have hst := stacks_frozenOf (k := k) (mo := mo) (ws := ws)
    (es := (dataRanges out.length c 1 0).map fun rg => (chunkOf k mo ws out e.ancil rg).ens)
    (outs := (dataRanges out.length c 1 0).map fun rg => pick out (List.range' rg.1 (rg.2 - rg.1))) (by simpa using hne) (by
      rw [List.forall₂_map_left_iff, List.forall₂_map_right_iff, List.forall₂_same]
      rintro ⟨s, t'⟩ hm
      have hb := C48_range_bounds _ _ _ _ _ _ hc hm
      refine ⟨rfl, rfl, rfl, hs.fixed.sub (pick_mem ?_), hs.w, hs.plain, hs.mwf, ?_⟩
      · intro i hi
        simp only [List.mem_range'_1] at hi
        omega
      · intro _ h0
        have := congrArg List.length h0
        simp only [pick_length, List.length_range', List.length_nil] at this
        omega)
  rw [hpick] at hst
  simp only [List.map_map] at hst ⊢
  have hfe : (flatEns e).frozen = frozenOf k.cls mo ws out [out.length] := by
    unfold flatEns
    simp only
    rw [hn]
    rw [hs.frozen]
    rfl
  rw [hfe]
  exact hst

/-! ### C49 -/

/-- **C49**, exactly: once the iteration has handed out `steps` items, all of them still have their own PDFs, but the ancillary data of
every one of them are those of the last item handed out -/
theorem C49_kept_items {r : Reg K} (hr : Registered r) {k : RowKind} {e : Ens K} (h : Reach k e) {t : Tabs K} (ht : Holds t e)
    {a : Dict K} (hea : e.ancil = some a) (hcols : AncilCols a e.frozen.npdf) (hnd : (Dict.keys a).Nodup) (c rank size steps : ℕ)
    (hc : 0 < c) (hne : (dataRanges e.frozen.npdf c size rank).take steps ≠ []) :
    ∃ cs st eL, iterRun r t c rank size steps = .ok (cs, st) ∧
      getItem e (.slice (some ((((dataRanges e.frozen.npdf c size rank).take steps).getLast hne).1 : ℤ))
        (some ((((dataRanges e.frozen.npdf c size rank).take steps).getLast hne).2 : ℤ)) none) = .ok eL ∧
      List.Forall₂ (fun rg x => ∃ e', getItem e (.slice (some (rg.1 : ℤ)) (some (rg.2 : ℤ)) none) = .ok e' ∧
        (x.now st).frozen = e'.frozen ∧ (x.now st).ancil = eL.ancil)
        ((dataRanges e.frozen.npdf c size rank).take steps) cs := by
  obtain ⟨mo, ws, out, hs⟩ := reach_stored h
  have hn : e.frozen.npdf = out.length := by rw [hs.frozen]; rfl
  simp only [hn] at hcols hne ⊢
  have ha : FileAncil e.ancil out.length := by
    intro a' ha'
    rw [hea] at ha'
    obtain rfl := Option.some.inj ha'
    exact ⟨hcols, hnd⟩
  obtain ⟨st, hrun, hlast⟩ := iterRun_ok hr hs ht ha c rank size steps hc
  have hbl : ∀ rg ∈ (dataRanges out.length c size rank).take steps, rg.1 < rg.2 ∧ rg.2 ≤ out.length := by
    rintro ⟨s, t'⟩ hm
    have hb := C48_range_bounds _ _ _ _ _ _ hc (List.mem_of_mem_take hm)
    exact ⟨hb.1, hb.2.1⟩
  have hL := hbl _ (List.getLast_mem hne)
  refine ⟨_, st, _, hrun, getItem_chunk hs ha hL.1 hL.2, ?_⟩
  rw [List.forall₂_map_right_iff, List.forall₂_same]
  intro rg hm
  have hb := hbl rg hm
  refine ⟨_, getItem_chunk hs ha hb.1 hb.2, rfl, ?_⟩
  simp only [Chunk.now, hlast hne, hea, Option.map_some]

/-- **C49** holds while nothing has been handed out after an item: the newest item is a valid slice -/
theorem C49_newest_partial {r : Reg K} (hr : Registered r) {k : RowKind} {e : Ens K} (h : Reach k e) {t : Tabs K} (ht : Holds t e)
    {a : Dict K} (hea : e.ancil = some a) (hcols : AncilCols a e.frozen.npdf) (hnd : (Dict.keys a).Nodup) (c rank size steps : ℕ)
    (hc : 0 < c) (hne : (dataRanges e.frozen.npdf c size rank).take steps ≠ []) :
    ∃ cs st x, iterRun r t c rank size steps = .ok (cs, st) ∧ cs.getLast? = some x ∧
      getItem e (.slice (some (x.start : ℤ)) (some (x.stop : ℤ)) none) = .ok (x.now st) := by
  obtain ⟨mo, ws, out, hs⟩ := reach_stored h
  have hn : e.frozen.npdf = out.length := by rw [hs.frozen]; rfl
  simp only [hn] at hcols hne ⊢
  have ha : FileAncil e.ancil out.length := by
    intro a' ha'
    rw [hea] at ha'
    obtain rfl := Option.some.inj ha'
    exact ⟨hcols, hnd⟩
  obtain ⟨st, hrun, hlast⟩ := iterRun_ok hr hs ht ha c rank size steps hc
  have hL := C48_range_bounds _ _ _ _ _ _ hc (List.mem_of_mem_take (List.getLast_mem hne))
  refine ⟨_, st, chunkOf k mo ws out e.ancil (((dataRanges out.length c size rank).take steps).getLast hne), hrun, ?_, ?_⟩
  · rw [List.getLast?_map, List.getLast?_eq_some_getLast hne]; rfl
  · have := getItem_chunk hs ha hL.1 hL.2.1
    simp only [chunkOf] at this ⊢
    rw [this, hea]
    simp only [Chunk.now, hlast hne, hea, Option.map_some]

end

/-- the ancillary columns that the items of `list(iterator(...))` show once the iteration is over -/
def keptAncil (e : Ens ℚ) (c : ℕ) : Except Err (List (Option (Dict ℚ))) :=
  (iterRun stdReg (buildTables e) c 0 1 (dataRanges e.frozen.npdf c 1 0).length).map fun p => p.1.map fun x => (x.now p.2).ancil

/-- **C49 is false**: three histograms with identifiers 10, 20, 30 read in chunks of two; afterwards the first item (PDFs 0 and 1) has
the one identifier 30 -/
theorem C49_ancil_overwritten : keptAncil (histEns (some narrow)) 2 =
    .ok [some [("id", qarr [1] [30])], some [("id", qarr [1] [30])]] := by
  decide +kernel

/-- chunks of two of the three histograms, at the time they are handed out -/
example : ∃ cs st, iterRun stdReg (buildTables (histEns (some narrow))) 2 0 1 2 = .ok (cs, st) ∧
      List.Forall₂ (fun rg x => x.start = rg.1 ∧ x.stop = rg.2 ∧
        getItem (histEns (some narrow)) (.slice (some ((rg.1 : ℕ) : ℤ)) (some ((rg.2 : ℕ) : ℤ)) none) = .ok x.ens)
        [(0, 2), (2, 3)] cs :=
  C48_chunks registered_std (histReach _ (by decide +kernel)) (Tables.holds_buildTables _) rfl narrow_cols (by decide) 2 0 1 2 (by decide)

end Verif.Props.Chunks
