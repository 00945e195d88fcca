import Verif.Props.State

/-!
# C39 for `append`, and C40: the frame of `update_objdata`
-/

set_option linter.unusedSectionVars false
set_option autoImplicit false

namespace Verif.Props.State

open Verif Verif.Np Verif.Model Verif.Spec Verif.Lemmas Verif.Props.ExEns

section
variable {K : Type}

theorem concat2_inv {d1 d2 d : Dict K} (h : concatenateDicts [d1, d2] = .ok d) {key : String} {v : Val K}
    (hv : (key, v) ∈ d) : ∃ w1 w2 c, Dict.get? d1 key = some w1 ∧ Dict.get? d2 key = some w2 ∧
      Arr.concatenate [w1.toArr, w2.toArr] = .ok c ∧ v = .arr c := by
  simp only [concatenateDicts] at h
  split_ifs at h
  rw [mapM_ok_iff] at h
  obtain ⟨key', -, hk⟩ := forall₂_mem_right h hv
  cases hc : concatKey [d1, d2] key' with
  | error e => rw [hc] at hk; simp [Except.map] at hk
  | ok w =>
    rw [hc] at hk
    simp only [Except.map, Except.ok.injEq, Prod.mk.injEq] at hk
    obtain ⟨rfl, rfl⟩ := hk
    obtain ⟨vs, c, h1, h2, rfl⟩ := concatKey_inv hc
    cases h1 with
    | cons ha h1 =>
      cases h1 with
      | cons hb h1 =>
        cases h1
        exact ⟨_, _, c, ha, hb, h2, rfl⟩

theorem concat2_shape {a b c : Arr (Elem K)} (h : Arr.concatenate [a, b] = .ok c) {n m : ℕ}
    (ha : a.shape.head? = some n ∨ n = 1 ∧ a.shape = []) (hb : b.shape.head? = some m ∨ m = 1 ∧ b.shape = []) :
    c.shape = (n + m) :: a.shape.tail := by
  obtain ⟨t, ht, -, rfl⟩ := Arr.concatenate_ok h
  have h1 := ht a (by simp)
  have h2 := ht b (by simp)
  have ha' : a.nrows = n := by
    rcases ha with ha | ha
    · cases hs : a.shape with
      | nil => exact absurd hs h1.1
      | cons x y => rw [hs] at ha; simpa [Arr.nrows, hs] using ha
    · exact absurd ha.2 h1.1
  have hb' : b.nrows = m := by
    rcases hb with hb | hb
    · cases hs : b.shape with
      | nil => exact absurd hs h2.1
      | cons x y => rw [hs] at hb; simpa [Arr.nrows, hs] using hb
    · exact absurd hb.2 h2.1
  simp [ha', hb', h1.2]

end

section
variable {K : Type} [Field K] [LinearOrder K] [IsStrictOrderedRing K]

/-- **C39** for `append` between ensembles of a row class whose ancillary data fit: when it raises, nothing has changed. -/
theorem C39_append (k : RowKind) {a b : Ens K} (ha : Reach k a) (hb : Reach k b) (hoa : AncilOk a) (hob : AncilOk b) (err : Err)
    (h : (append a b).1 = .error err) : (append a b).2 = a := by
  rw [append_as_update] at h ⊢
  cases hd : appendData a b with
  | error e => rfl
  | ok v =>
    obtain ⟨d, anc⟩ := v
    rw [hd] at h
    simp only at h ⊢
    obtain ⟨-, hc, hanc⟩ := appendData_ok hd
    cases anc with
    | none => exact C39_update_objdata_partial a d err h
    | some an =>
      rcases C39_update_partial a _ (some an) err h with h | ⟨fr, hfr, hchk, -, -⟩
      · exact h.2
      · exfalso
        obtain ⟨mo, ws, out, hs⟩ := reach_stored ha
        obtain ⟨mo', ws', out', hs'⟩ := reach_stored hb
        rw [objdata_merge hs, hs.gen] at hfr
        -- number of PDFs of the new distribution
        have hn : fr.npdf = a.frozen.npdf + b.frozen.npdf := by
          obtain ⟨m, rs, mo2, ws2, out2, -, hrs, -, -, -, -, -, rfl⟩ := rowCreate_inv hfr
          have hne := hs.fixed.names.rne
          cases hra : (k.cls (K := K)).rowArgs with
          | nil => exact absurd hra hne
          | cons x t =>
            have h0 : 0 < (k.cls (K := K)).rowArgs.length := by rw [hra]; simp
            have hx : (k.cls (K := K)).rowArgs[0] = x := by simp [hra]
            have hnd := (List.nodup_append.1 hs.fixed.names.nd).2.1
            have g1 := get?_storeRows _ ws out hs.fixed.wl hnd 0 h0
            have g2 := get?_storeRows _ ws' out' hs'.fixed.wl hnd 0 h0
            rw [hx] at g1 g2
            have q1 : a.frozen.objdata = storeRows (k.cls (K := K)).rowArgs ws out := by rw [hs.frozen]; rfl
            have q2 : b.frozen.objdata = storeRows (k.cls (K := K)).rowArgs ws' out' := by rw [hs'.frozen]; rfl
            have hxd : x ∈ Dict.keys d := by
              rw [keys_concatenateDicts hc, objdata_keys hs, hra]; simp
            obtain ⟨v, hv⟩ := (get?_isSome_iff d x).2 hxd
            obtain ⟨w1, w2, c, e1, e2, hcc, rfl⟩ := concat2_inv hc (mem_of_get? hv)
            rw [q1, g1] at e1
            rw [q2, g2] at e2
            obtain rfl := Option.some.inj e1
            obtain rfl := Option.some.inj e2
            have hsh := concat2_shape hcc (n := out.length) (m := out'.length) (by simp [Val.toArr, tab_shape])
              (by simp [Val.toArr, tab_shape])
            simp only [Val.toArr, tab_shape, List.tail_cons] at hsh
            rw [hra, mapM_ok_iff] at hrs
            cases hrs with
            | cons hr _ =>
              rename_i a0 rs0
              have hnd2 : (Dict.keys d).Nodup := by
                rw [keys_concatenateDicts hc, objdata_keys hs]; exact hnd
              have hget : Dict.get? (Dict.update (metaDict mo ++ storeRows (k.cls (K := K)).rowArgs ws out) d) x = some (.arr c) := by
                rw [get?_update _ _ hnd2, hv]; rfl
              rw [hra] at hget
              unfold rowArr at hr
              rw [hget] at hr
              simp only [hsh] at hr
              rw [if_neg (by simp)] at hr
              obtain rfl := Except.ok.inj hr
              have e1 : a.frozen.npdf = out.length := by rw [hs.frozen]; rfl
              have e2 : b.frozen.npdf = out'.length := by rw [hs'.frozen]; rfl
              simp [hsh, e1, e2]
        -- the stacked ancillary data fit
        have hok : checkArrayShapes (some an) fr.npdf = .ok () := by
          rw [checkArrayShapes_iff]
          rintro d' hd' ⟨key, v⟩ hp
          obtain rfl := Option.some.inj hd'
          left
          cases haa : a.ancil with
          | none => rw [haa] at hanc; simp [concatAncil] at hanc
          | some aa =>
            cases hba : b.ancil with
            | none => rw [haa, hba] at hanc; simp [concatAncil] at hanc
            | some ba =>
              rw [haa, hba] at hanc
              simp only [concatAncil] at hanc
              cases hcc : concatenateDicts [aa, ba] with
              | error e => rw [hcc] at hanc; simp [Except.map] at hanc
              | ok an' =>
                rw [hcc] at hanc
                simp only [Except.map, Except.ok.injEq, Option.some.injEq] at hanc
                subst hanc
                obtain ⟨w1, w2, c, e1, e2, hc2, rfl⟩ := concat2_inv hcc hp
                have := concat2_shape hc2 (hoa aa haa _ (mem_of_get? e1)) (hob ba hba _ (mem_of_get? e2))
                simp [Val.shape, Val.toArr, this, hn]
        rw [hok] at hchk
        simp at hchk

/-! ### C40 -/

theorem mapM_col {α β : Type} {f : α → Except Err β} {l l' : List α} {o o' : List β} (h : l.mapM f = .ok o) (h' : l'.mapM f = .ok o')
    (j : ℕ) (hj : l[j]? = l'[j]?) : o[j]? = o'[j]? := by
  rw [mapM_ok_iff] at h h'
  have key : ∀ {l : List α} {o : List β}, List.Forall₂ (fun a b => f a = .ok b) l o →
      (l[j]?).map f = (o[j]?).map Except.ok := by
    intro l o h
    by_cases hl : j < l.length
    · have hl' : j < o.length := by rw [← h.length_eq]; exact hl
      have := (List.forall₂_iff_get.1 h).2 j hl hl'
      simp only [List.get_eq_getElem] at this
      simp [hl, hl', this]
    · have hl' : ¬ j < o.length := by rw [← h.length_eq]; exact hl
      simp [List.getElem?_eq_none (Nat.le_of_not_lt hl), List.getElem?_eq_none (Nat.le_of_not_lt hl')]
  have e1 := key h
  have e2 := key h'
  rw [hj, e2] at e1
  cases h1 : o[j]? <;> cases h2 : o'[j]? <;> rw [h1, h2] at e1 <;> simp_all

/-- what is stored in one table depends on the argument for this table only, except for the y-values of irregular grids -/
theorem norm_col (k : RowKind) {m : Dict K} {r r' o o' : List (List (Elem K))} (h : (k.cls (K := K)).norm m r = .ok o)
    (h' : (k.cls (K := K)).norm m r' = .ok o') (j : ℕ) (hk : k ≠ .irr ∨ j = 0) (hj : r[j]? = r'[j]?) : o[j]? = o'[j]? := by
  cases k with
  | hist =>
    obtain ⟨b, hb, h⟩ := bind_ok h
    obtain ⟨b', hb', h'⟩ := bind_ok h'
    rw [hb] at hb'
    obtain rfl := Except.ok.inj hb'
    exact mapM_col h h' j hj
  | interp =>
    obtain ⟨b, hb, h⟩ := bind_ok h
    obtain ⟨b', hb', h'⟩ := bind_ok h'
    rw [hb] at hb'
    obtain rfl := Except.ok.inj hb'
    exact mapM_col h h' j hj
  | irr =>
    obtain rfl : j = 0 := by rcases hk with h | h <;> simp_all
    have key : ∀ {r o : List (List (Elem K))}, (RowKind.irr.cls (K := K)).norm m r = .ok o → o[0]? = r[0]? := by
      intro r o h
      simp only [RowKind.cls, irrCls] at h
      split at h
      · obtain ⟨y, -, h⟩ := bind_ok h
        rw [← Except.ok.inj h]; rfl
      · simp at h
    rw [key h, key h', hj]
  | mix =>
    simp only [RowKind.cls, mixCls] at h h'
    split at h
    case h_2 => simp at h
    split at h'
    case h_2 => simp at h'
    split_ifs at h with hn
    split_ifs at h' with hn'
    obtain ⟨w, hw, h⟩ := bind_ok h
    obtain ⟨w', hw', h'⟩ := bind_ok h'
    rw [← Except.ok.inj h, ← Except.ok.inj h']
    match j with
    | 0 => simpa using hj
    | 1 => simpa using hj
    | 2 =>
      simp only [List.getElem?_cons_succ, List.getElem?_cons_zero, Option.some.injEq] at hj ⊢
      rw [hj, hw'] at hw
      exact (Except.ok.inj hw).symm
    | j + 3 => simp
  | quant =>
    simp only [RowKind.cls, quantCls] at h h'
    split at h
    case h_2 => simp at h
    split at h'
    case h_2 => simp at h'
    match j with
    | 0 =>
      simp only [List.getElem?_cons_zero, Option.some.injEq] at hj
      subst hj
      rw [h] at h'
      rw [Except.ok.inj h']
    | j + 1 =>
      have key : ∀ {r : List (Elem K)} {o : List (List (Elem K))}, (match finites r with
          | none => (.error .Unmodelled : Except Err (List (List (Elem K))))
          | some l => do
            let (_, l') ← quantRow m l
            .ok [nums l']) = .ok o → o[j + 1]? = none := by
        intro r o h
        split at h
        · simp at h
        · obtain ⟨w, -, h⟩ := bind_ok h
          rw [← Except.ok.inj h]; rfl
      rw [key h, key h']
  | packed | spline =>
    simp only [RowKind.cls, packedCls, splineCls] at h h'
    split_ifs at h h'
    rw [← Except.ok.inj h, ← Except.ok.inj h']; exact hj
  | sparse =>
    rw [← Except.ok.inj h, ← Except.ok.inj h']; exact hj

theorem widths_col (k : RowKind) {m : Dict K} {r r' o o' : List ℕ} (h : (k.cls (K := K)).widths m r = .ok o)
    (h' : (k.cls (K := K)).widths m r' = .ok o') (j : ℕ) (hj : r[j]? = r'[j]?) : o[j]? = o'[j]? := by
  cases k with
  | hist =>
    obtain ⟨b, hb, h⟩ := bind_ok h
    obtain ⟨b', hb', h'⟩ := bind_ok h'
    split_ifs at h h'
    rw [← Except.ok.inj h, ← Except.ok.inj h']; exact hj
  | interp =>
    obtain ⟨b, hb, h⟩ := bind_ok h
    obtain ⟨b', hb', h'⟩ := bind_ok h'
    split_ifs at h h'
    rw [← Except.ok.inj h, ← Except.ok.inj h']; exact hj
  | quant =>
    obtain ⟨b, hb, h⟩ := bind_ok h
    obtain ⟨b', hb', h'⟩ := bind_ok h'
    obtain ⟨c, hc, h⟩ := bind_ok h
    obtain ⟨c', hc', h'⟩ := bind_ok h'
    split_ifs at h h'
    rw [hc] at hc'
    obtain rfl := Except.ok.inj hc'
    rw [← Except.ok.inj h, ← Except.ok.inj h']
  | packed =>
    obtain ⟨b, hb, h⟩ := bind_ok h
    obtain ⟨b', hb', h'⟩ := bind_ok h'
    split at h
    case h_2 => simp at h
    split at h'
    case h_2 => simp at h'
    split_ifs at h h'
    rw [← Except.ok.inj h, ← Except.ok.inj h']; exact hj
  | sparse =>
    simp only [RowKind.cls, sparseCls] at h h'
    split at h
    case h_2 => simp at h
    split at h'
    case h_2 => simp at h'
    rw [← Except.ok.inj h, ← Except.ok.inj h']; exact hj
  | irr | mix | spline =>
    simp only [RowKind.cls, irrCls, mixCls, splineCls] at h h'
    split at h
    case h_2 => simp at h
    split at h'
    case h_2 => simp at h'
    split_ifs at h h'
    rw [← Except.ok.inj h, ← Except.ok.inj h']; exact hj

theorem widths_len (k : RowKind) {m : Dict K} {r o : List ℕ} (h : (k.cls (K := K)).widths m r = .ok o) : o.length = r.length := by
  cases k with
  | hist =>
    obtain ⟨b, hb, h⟩ := bind_ok h
    split_ifs at h
    rw [← Except.ok.inj h]
  | interp =>
    obtain ⟨b, hb, h⟩ := bind_ok h
    split_ifs at h
    rw [← Except.ok.inj h]
  | quant =>
    obtain ⟨b, hb, h⟩ := bind_ok h
    obtain ⟨c, hc, h⟩ := bind_ok h
    split_ifs at h with hw
    rw [← Except.ok.inj h, hw]; rfl
  | packed =>
    obtain ⟨b, hb, h⟩ := bind_ok h
    split at h
    case h_2 => simp at h
    split_ifs at h
    rw [← Except.ok.inj h]
  | sparse =>
    simp only [RowKind.cls, sparseCls] at h
    split at h
    case h_2 => simp at h
    rw [← Except.ok.inj h]
  | irr | mix | spline =>
    simp only [RowKind.cls, irrCls, mixCls, splineCls] at h
    split at h
    case h_2 => simp at h
    split_ifs at h
    rw [← Except.ok.inj h]

theorem update_inv {e : Ens K} {d : Dict K} {a : Option (Dict K)} (h : (update e d a).1 = .ok ()) :
    ∃ fr, e.genFunc d = .ok fr ∧ (update e d a).2 = ⟨e.create, e.genFunc, fr, a⟩ := by
  unfold update at h ⊢
  cases hg : e.genFunc d with
  | error err => rw [hg] at h; simp at h
  | ok fr =>
    rw [hg] at h
    refine ⟨fr, rfl, ?_⟩
    simp only [setAncil] at h ⊢
    cases hc : checkArrayShapes a fr.npdf with
    | error err => rw [hc] at h; simp at h
    | ok u => rfl

/-- the new tables of `update_objdata`, in terms of the old normal form -/
theorem updated {k : RowKind} {e : Ens K} {mo : List (String × Arr (Elem K))} {ws : List ℕ} {out : List (List (List (Elem K)))}
    (hs : Stored k e mo ws out) {data : Dict K} (hk : ∀ x ∈ Dict.keys data, x ∈ (k.cls (K := K)).rowArgs) {a : Option (Dict K)}
    (h : (updateObjdata e data a).1 = .ok ()) :
    ∃ m' rs ws' out' sh, (updateObjdata e data a).2 = ⟨e.create, e.genFunc, frozenOf k.cls mo ws' out' sh, a⟩ ∧
      ws'.length = (k.cls (K := K)).rowArgs.length ∧
      (k.cls (K := K)).rowArgs.mapM (rowArr (Dict.update (metaDict mo ++ storeRows (k.cls (K := K)).rowArgs ws out) data)) = .ok rs ∧
      (∀ b ∈ rs, b.shape.dropLast.prod = out'.length) ∧
      (k.cls (K := K)).widths m' ws = .ok ws ∧ (∀ r ∈ out, (k.cls (K := K)).norm m' r = .ok r) ∧
      (k.cls (K := K)).widths m' (rs.map fun b => b.shape.getLastD 0) = .ok ws' ∧
      ∀ i (hi : i < out'.length), (k.cls (K := K)).norm m' (pdfRows rs i) = .ok out'[i] := by
  obtain ⟨fr, hfr, he⟩ := update_inv h
  rw [objdata_merge hs, hs.gen] at hfr
  obtain ⟨m, rs, mo2, ws2, out2, hm, hrs, hlead, -, hmo, hws, hout, hfr2⟩ := rowCreate_inv hfr
  obtain ⟨m', hm', hmo', hws', hnorm⟩ := hs.fixed.fix
  have hnd := List.nodup_append.1 hs.fixed.names.nd
  have hmm : m = m' := by
    have : (k.cls (K := K)).metaArgs.mapM (argVal (Dict.update (metaDict mo ++ storeRows (k.cls (K := K)).rowArgs ws out) data)) =
        (k.cls (K := K)).metaArgs.mapM (argVal (metaDict mo)) := by
      apply mapM_congr
      intro p hp
      apply argVal_congr
      have hp' : p.1 ∈ (k.cls (K := K)).metaArgs.map (·.1) := List.mem_map.2 ⟨p, hp, rfl⟩
      rw [get?_update_not_mem _ _ _ (fun hc => hnd.2.2 p.1 hp' p.1 (hk _ hc) rfl), get?_append]
      have : Dict.get? (storeRows (k.cls (K := K)).rowArgs ws out) p.1 = none := by
        rw [get?_eq_none_iff, keys_storeRows _ _ _ hs.fixed.wl]
        intro hc
        exact hnd.2.2 p.1 hp' p.1 hc rfl
      rw [this, Option.or_none]
    rw [hm, hm'] at this
    exact Except.ok.inj this
  subst hmm
  rw [hmo] at hmo'
  obtain rfl := Except.ok.inj hmo'
  have hrsl := ((mapM_ok_iff _ _ _).1 hrs).length_eq
  have houtF := (mapM_ok_iff _ _ _).1 hout
  have houtl := houtF.length_eq
  rw [List.length_range] at houtl
  refine ⟨m, rs, ws2, out2, fr.shape, ?_, ?_, hrs, ?_, hws', hnorm, hws, ?_⟩
  · refine he.trans ?_
    simp only [Ens.mk.injEq, true_and, and_true]
    rw [hfr2]
    simp only [frozenOf, Frozen.mk.injEq, true_and, and_true]
    exact houtl
  · rw [widths_len k hws, List.length_map]; exact hrsl.symm
  · intro b hb
    rw [hlead b hb, houtl]
  · intro i hi
    have := (List.forall₂_iff_get.1 houtF).2 i (by rw [List.length_range, houtl]; exact hi) hi
    simpa using this

/-- **C40.** For an ensemble of a row class, however obtained: a successful `update_objdata(data)` keeps the metadata and every table
not named in `data`. The y-values of irregular grids are the exception (`C40_irregular_changes`), hence partial. -/
theorem C40_kept_partial (k : RowKind) {e : Ens K} (hr : Reach k e) (data : Dict K)
    (hk : ∀ x ∈ Dict.keys data, x ∈ (k.cls (K := K)).rowArgs) (a : Option (Dict K)) (h : (updateObjdata e data a).1 = .ok ()) :
    (updateObjdata e data a).2.frozen.metadata = e.frozen.metadata ∧ (updateObjdata e data a).2.ancil = a ∧
    Dict.keys (updateObjdata e data a).2.frozen.objdata = Dict.keys e.frozen.objdata ∧
    ∀ x, x ∉ Dict.keys data → (k ≠ .irr ∨ x = "xvals") →
      Dict.get? (updateObjdata e data a).2.frozen.objdata x = Dict.get? e.frozen.objdata x := by
  obtain ⟨mo, ws, out, hs⟩ := reach_stored hr
  obtain ⟨m', rs, ws', out', sh, he, hwl, hrs, hlead, hw1, hn1, hw2, hn2⟩ := updated hs hk h
  rw [he]
  have hobj : e.frozen.objdata = storeRows (k.cls (K := K)).rowArgs ws out := by rw [hs.frozen]; rfl
  have hkeys : Dict.keys (frozenOf (k.cls (K := K)) mo ws' out' sh).objdata = Dict.keys e.frozen.objdata := by
    rw [objdata_keys hs]; exact keys_storeRows _ _ _ hwl
  refine ⟨by rw [hs.frozen]; rfl, rfl, hkeys, ?_⟩
  intro x hx hir
  by_cases hxr : x ∈ (k.cls (K := K)).rowArgs
  · obtain ⟨j, hj, rfl⟩ := List.mem_iff_getElem.1 hxr
    have hnd := List.nodup_append.1 hs.fixed.names.nd
    have hj0 : k ≠ .irr ∨ j = 0 := by
      rcases hir with h | h
      · exact Or.inl h
      · by_cases hi : k = .irr
        · subst hi
          right
          have h0 : (RowKind.irr.cls (K := K)).rowArgs[0]'(by simp [RowKind.cls, irrCls]) = "xvals" := rfl
          rw [← h0] at h
          exact (List.Nodup.getElem_inj_iff hnd.2.1).1 h
        · exact Or.inl hi
    have hrj : j < rs.length := by
      have := ((mapM_ok_iff _ _ _).1 hrs).length_eq
      omega
    have hjw : j < ws.length := by rw [hs.fixed.wl]; exact hj
    have hold := get?_storeRows _ ws out hs.fixed.wl hnd.2.1 j hj
    -- the array passed for this table
    have hrsj : rs[j] = tab out ws[j] j := by
      have := (List.forall₂_iff_get.1 ((mapM_ok_iff _ _ _).1 hrs)).2 j hj hrj
      simp only [List.get_eq_getElem] at this
      unfold rowArr at this
      have hnone : Dict.get? (metaDict mo) (k.cls (K := K)).rowArgs[j] = none := by
        apply get?_metaDict_none
        intro hc
        obtain ⟨p, hp, he⟩ := List.mem_map.1 hc
        exact hnd.2.2 p.1 (hs.fixed.mok p hp) _ (List.getElem_mem hj) he
      rw [get?_update_not_mem _ _ _ hx, get?_append, hnone, Option.none_or, hold] at this
      simp only at this
      rw [if_neg (by rw [tab_shape]; simp)] at this
      exact (Except.ok.inj this).symm
    have hlen : out'.length = out.length := by
      rw [← hlead rs[j] (List.getElem_mem hrj), hrsj, tab_shape]
      simp
    have hwj : ws'[j]? = ws[j]? := by
      apply widths_col k hw2 hw1 j
      simp [hrj, hjw, hrsj, tab_shape]
    have hwj' : ws'[j]'(by omega) = ws[j] := by
      rw [List.getElem?_eq_getElem (by omega), List.getElem?_eq_getElem hjw] at hwj
      exact Option.some.inj hwj
    rw [hobj, hold]
    show Dict.get? (storeRows (k.cls (K := K)).rowArgs ws' out') _ = _
    rw [get?_storeRows _ ws' out' hwl hnd.2.1 j hj, hwj']
    congr 2
    unfold tab
    congr 1
    apply List.ext_getElem
    · simp [hlen]
    · intro i h1 h2
      simp only [List.length_map] at h1 h2
      rw [List.getElem_map, List.getElem_map, List.getD_eq_getElem?_getD, List.getD_eq_getElem?_getD]
      congr 1
      apply norm_col k (hn2 i h1) (hn1 _ (List.getElem_mem h2)) j hj0
      have hl : out[i].length = ws.length := by
        have := hs.fixed.len out[i] (List.getElem_mem h2)
        rw [← this]; simp
      rw [pdfRows, List.getElem?_map, List.getElem?_eq_getElem hrj, hrsj, Option.map_some, flat2_tab,
        tab_row hs.fixed.len j hjw i h2, List.getD_eq_getElem?_getD, List.getElem?_eq_getElem (by omega)]
      rfl
  · have h1 : x ∉ Dict.keys e.frozen.objdata := by rw [objdata_keys hs]; exact hxr
    have h2 := h1
    rw [← hkeys] at h2
    rw [(get?_eq_none_iff _ _).2 h1]
    exact (get?_eq_none_iff _ _).2 h2

/-- tables that the constructor stores as given -/
def Verbatim : RowKind → String → Prop
  | .irr, x => x = "xvals"
  | .mix, x => x = "means" ∨ x = "stds"
  | .packed, _ | .spline, _ | .sparse, _ => True
  | .hist, _ | .interp, _ | .quant, _ => False

theorem norm_verbatim (k : RowKind) {m : Dict K} {r o : List (List (Elem K))} (h : (k.cls (K := K)).norm m r = .ok o) (j : ℕ)
    (hj : j < (k.cls (K := K)).rowArgs.length) (hv : Verbatim k (k.cls (K := K)).rowArgs[j]) : o[j]? = r[j]? := by
  cases k with
  | hist | interp | quant => exact absurd hv id
  | sparse => rw [← Except.ok.inj h]
  | packed =>
    simp only [RowKind.cls, packedCls] at h
    split_ifs at h
    rw [← Except.ok.inj h]
  | spline =>
    simp only [RowKind.cls, splineCls] at h
    split_ifs at h
    rw [← Except.ok.inj h]
  | irr =>
    simp only [RowKind.cls, irrCls] at h hj
    have hj0 : j = 0 := by
      simp only [List.length_cons, List.length_nil] at hj
      match j with
      | 0 => rfl
      | 1 => simp [Verbatim, RowKind.cls, irrCls] at hv
    subst hj0
    split at h
    · obtain ⟨y, -, h⟩ := bind_ok h
      rw [← Except.ok.inj h]; rfl
    · simp at h
  | mix =>
    simp only [RowKind.cls, mixCls] at h hj
    split at h
    case h_2 => simp at h
    split_ifs at h
    obtain ⟨w, -, h⟩ := bind_ok h
    rw [← Except.ok.inj h]
    simp only [List.length_cons, List.length_nil] at hj
    match j with
    | 0 => rfl
    | 1 => rfl
    | 2 => simp [Verbatim, RowKind.cls, mixCls] at hv

theorem widths_verbatim (k : RowKind) {m : Dict K} {r o : List ℕ} (h : (k.cls (K := K)).widths m r = .ok o) {x : String}
    (hv : Verbatim k x) : o = r := by
  cases k with
  | hist | interp | quant => exact absurd hv id
  | packed =>
    obtain ⟨b, hb, h⟩ := bind_ok h
    split at h
    case h_2 => simp at h
    split_ifs at h
    exact (Except.ok.inj h).symm
  | sparse =>
    simp only [RowKind.cls, sparseCls] at h
    split at h
    case h_2 => simp at h
    exact (Except.ok.inj h).symm
  | irr | mix | spline =>
    simp only [RowKind.cls, irrCls, mixCls, splineCls] at h
    split at h
    case h_2 => simp at h
    split_ifs at h
    exact (Except.ok.inj h).symm

theorem ofRows_self (a : Arr (Elem K)) (n w : ℕ) (hw : a.Wf) (hs : a.shape = [n, w]) :
    Arr.ofRows [w] ((List.range n).map a.row) = a := by
  have h1 : (List.range n).map a.row = a.rows := by
    simp [Arr.rows, Arr.nrows, hs]
  rw [h1]
  have := Arr.ofRows_rows a hw (by rw [hs]; simp)
  rw [hs] at this
  exact this

/-- **C40**, what is given is what is stored, for the tables that the constructors do not normalise: the array with one row per PDF. -/
theorem C40_replaced (k : RowKind) {e : Ens K} (hr : Reach k e) (data : Dict K)
    (hk : ∀ x ∈ Dict.keys data, x ∈ (k.cls (K := K)).rowArgs) (hnd : (Dict.keys data).Nodup) (hwf : ArraysWf data)
    (a : Option (Dict K)) (h : (updateObjdata e data a).1 = .ok ()) (x : String) (v : Arr (Elem K))
    (hx : (x, Val.arr v) ∈ data) (hv : Verbatim k x) :
    Dict.get? (updateObjdata e data a).2.frozen.objdata x = some (.arr ⟨[v.shape.dropLast.prod, v.shape.getLastD 0], v.data⟩) := by
  obtain ⟨mo, ws, out, hs⟩ := reach_stored hr
  obtain ⟨m', rs, ws', out', sh, he, hwl, hrs, hlead, hw1, hn1, hw2, hn2⟩ := updated hs hk h
  rw [he]
  have hxr : x ∈ (k.cls (K := K)).rowArgs := hk x (List.mem_map.2 ⟨_, hx, rfl⟩)
  obtain ⟨j, hj, rfl⟩ := List.mem_iff_getElem.1 hxr
  have hnd' := List.nodup_append.1 hs.fixed.names.nd
  have hrj : j < rs.length := by
    have := ((mapM_ok_iff _ _ _).1 hrs).length_eq
    omega
  have hrsj : rs[j] = v ∧ v.shape ≠ [] := by
    have := (List.forall₂_iff_get.1 ((mapM_ok_iff _ _ _).1 hrs)).2 j hj hrj
    simp only [List.get_eq_getElem] at this
    unfold rowArr at this
    rw [get?_update _ _ hnd, get?_of_mem hnd hx] at this
    simp only [Option.some_or] at this
    split_ifs at this with hsh
    exact ⟨(Except.ok.inj this).symm, hsh⟩
  have hw' := widths_verbatim k hw2 hv
  show Dict.get? (storeRows (k.cls (K := K)).rowArgs ws' out') _ = _
  rw [get?_storeRows _ ws' out' hwl hnd'.2.1 j hj]
  have hlen : v.shape.dropLast.prod = out'.length := by
    rw [← hlead rs[j] (List.getElem_mem hrj), hrsj.1]
  have hwj : ws'[j]'(by omega) = v.shape.getLastD 0 := by
    simp only [hw', List.getElem_map, hrsj.1]
  rw [hwj]
  have hfl := flat2_wf (hwf _ hx) hrsj.2
  have hself := ofRows_self (flat2 v) out'.length (v.shape.getLastD 0) hfl (by simp only [flat2]; rw [hlen])
  have : tab out' (v.shape.getLastD 0) j = flat2 v := by
    rw [← hself]
    unfold tab
    congr 1
    apply List.ext_getElem
    · simp
    · intro i h1 h2
      simp only [List.length_map, List.length_range] at h1 h2
      rw [List.getElem_map, List.getElem_map, List.getElem_range, List.getD_eq_getElem?_getD, norm_verbatim k (hn2 i h1) j hj hv, pdfRows,
        List.getElem?_map, List.getElem?_eq_getElem hrj, hrsj.1]
      rfl
  rw [this]
  rfl

/-- **C40**, when all tables are given: the result is that of constructing from the old metadata and the new tables alone. -/
theorem C40_all_given (k : RowKind) {e : Ens K} (hr : Reach k e) (data : Dict K) (hnd : (Dict.keys data).Nodup)
    (hk : ∀ x, x ∈ Dict.keys data ↔ x ∈ (k.cls (K := K)).rowArgs) (a : Option (Dict K)) :
    ∃ md, squeezedMeta e.frozen.metadata = .ok md ∧ updateObjdata e data a = update e (Dict.update md data) a := by
  obtain ⟨mo, ws, out, hs⟩ := reach_stored hr
  refine ⟨metaDict mo, ?_, ?_⟩
  · rw [hs.frozen]; exact squeezedMeta_frozenOf hs.fixed _
  · unfold updateObjdata
    simp only
    rw [objdata_merge hs]
    unfold update
    rw [hs.gen]
    have : rowCreate (k.cls (K := K)) (Dict.update (metaDict mo ++ storeRows (k.cls (K := K)).rowArgs ws out) data) =
        rowCreate (k.cls (K := K)) (Dict.update (metaDict mo) data) := by
      apply Verif.Props.Stack.rowCreate_congr
      intro x
      rw [get?_update _ _ hnd, get?_update _ _ hnd, get?_append]
      by_cases hx : x ∈ Dict.keys data
      · obtain ⟨v, hv⟩ := (get?_isSome_iff data x).2 hx
        rw [hv]; rfl
      · have : Dict.get? (storeRows (k.cls (K := K)).rowArgs ws out) x = none := by
          rw [get?_eq_none_iff, keys_storeRows _ _ _ hs.fixed.wl, ← hk]; exact hx
        rw [this, Option.or_none]
    rw [this]

end

/-! ### concrete cases -/

section

/-- an irregular grid with one PDF, values normalised -/
def irrData : Dict ℚ := [("xvals", qarr [1, 3] [0, 1, 2]), ("yvals", qarr [1, 3] [0, 1, 0])]

def irrFrozen : Frozen ℚ where
  metadata := classMeta "interp_irregular" 0
  objdata := irrData
  npdf := 1
  shape := [1]

def irrEns : Ens ℚ := ⟨rowCreate irrCls, rowCreate irrCls, irrFrozen, none⟩

theorem irrMade : Made .irr irrData none irrEns where
  ok := by
    have h : rowCreate irrCls irrData = .ok irrFrozen := by decide +kernel
    show mkEns (rowCreate irrCls) (rowCreate irrCls) irrData none = _
    simp only [mkEns, h, Bind.bind, Except.bind, checkArrayShapes]
    rfl
  plain := trivial
  wf := by
    intro p hp
    simp only [irrData, List.mem_cons, List.not_mem_nil, or_false] at hp
    rcases hp with rfl | rfl <;> simp [qarr, Val.toArr, Arr.Wf, nums]

/-- **C40** is false for irregular grids: giving new x-values only also changes the y-values (they are normalised again). -/
theorem C40_irregular_changes : ∃ (e : Ens ℚ) (data : Dict ℚ), Reach .irr e ∧ Dict.keys data = ["xvals"] ∧
    (updateObjdata e data none).1 = .ok () ∧
    Dict.get? e.frozen.objdata "yvals" = some (qarr [1, 3] [0, 1, 0]) ∧
    Dict.get? (updateObjdata e data none).2.frozen.objdata "yvals" = some (qarr [1, 3] [0, 1/2, 0]) :=
  ⟨irrEns, [("xvals", qarr [1, 3] [0, 2, 4])], .made irrMade, rfl, by decide +kernel, by decide +kernel, by decide +kernel⟩

/-- the hypotheses of `C40_kept_partial` and `C40_replaced` on a mixture: new means, the rest is kept -/
def mixData : Dict ℚ := [("means", qarr [1, 2] [0, 1]), ("stds", qarr [1, 2] [1, 2]), ("weights", qarr [1, 2] [1, 3])]

def mixFrozen : Frozen ℚ where
  metadata := classMeta "mixmod" 0
  objdata := [("means", qarr [1, 2] [0, 1]), ("stds", qarr [1, 2] [1, 2]), ("weights", qarr [1, 2] [1/4, 3/4])]
  npdf := 1
  shape := [1]

def mixEns : Ens ℚ := ⟨rowCreate mixCls, rowCreate mixCls, mixFrozen, none⟩

theorem mixMade : Made .mix mixData none mixEns where
  ok := by
    have h : rowCreate mixCls mixData = .ok mixFrozen := by decide +kernel
    show mkEns (rowCreate mixCls) (rowCreate mixCls) mixData none = _
    simp only [mkEns, h, Bind.bind, Except.bind, checkArrayShapes]
    rfl
  plain := trivial
  wf := by
    intro p hp
    simp only [mixData, List.mem_cons, List.not_mem_nil, or_false] at hp
    rcases hp with rfl | rfl | rfl <;> simp [qarr, Val.toArr, Arr.Wf, nums]

example : Reach .mix mixEns ∧ (updateObjdata mixEns [("means", qarr [1, 2] [5, 6])] none).1 = .ok () ∧
    Dict.get? (updateObjdata mixEns [("means", qarr [1, 2] [5, 6])] none).2.frozen.objdata "means" = some (qarr [1, 2] [5, 6]) ∧
    Dict.get? (updateObjdata mixEns [("means", qarr [1, 2] [5, 6])] none).2.frozen.objdata "weights" = some (qarr [1, 2] [1/4, 3/4]) :=
  ⟨.made mixMade, by decide +kernel, by decide +kernel, by decide +kernel⟩

/-- `C40_all_given`: a histogram, where the only table is given -/
example : Reach .hist (histEns none) ∧ (updateObjdata (histEns none) [("pdfs", qarr [1, 2] [1, 1])] none).1 = .ok () :=
  ⟨histReach none rfl, by decide +kernel⟩

/-- an evaluation for the examples: the values stored, whatever the grid -/
def storedPdf : Frozen ℚ → List ℚ → Except Err (Option (Val ℚ)) := fun fr _ => .ok (Dict.get? fr.objdata "pdfs")

/-- data for one histogram, and a column for two -/
def oneHist : Dict ℚ := [("bins", qarr [3] [0, 1, 3]), ("pdfs", qarr [1, 2] [1, 1])]
def twoRows : Dict ℚ := [("id", qarr [2] [1, 2])]

/-- the hypotheses of `C37_failed_update_breaks`, `C38_stale_after_failed_update` and `C39_update_partial`: three histograms with a
column of three, updated to one histogram with a column of two -/
example : ∃ fr, (histEns (some narrow)).genFunc oneHist = .ok fr ∧ fr.npdf = 1 ∧
    checkArrayShapes (some twoRows) fr.npdf = .error .ValueError ∧
    (∃ p ∈ narrow, p.2.shape.head? ≠ some fr.npdf ∧ p.2.shape ≠ []) ∧
    (step storedPdf (fresh (histEns (some narrow)) fun _ => [0]) (.gridded 0)).1 = .ok (some (some (qarr [3, 2] [1/3, 1/3, 1, 0, 0, 1/2]))) ∧
    storedPdf fr [0] ≠ .ok (some (qarr [3, 2] [1/3, 1/3, 1, 0, 0, 1/2])) ∧
    (update (histEns (some narrow)) oneHist (some twoRows)).1 = .error .ValueError := by
  refine ⟨⟨classMeta "hist" 0 ++ [("bins", qarr [1, 3] [0, 1, 3])], [("pdfs", qarr [1, 2] [1/3, 1/3])], 1, [1]⟩, ?_⟩
  decide +kernel

/-- a history with a failing call that meets the hypotheses of C37 and C38 -/
example : AncilOk (histEns (some narrow)) ∧
    BenignRun storedPdf (fresh (histEns (some narrow)) fun _ => [0]) [.gridded 0, .setAncil (some twoRows), .update oneHist none, .gridded 0] ∧
    CleanRun storedPdf (fresh (histEns (some narrow)) fun _ => [0]) [.gridded 0, .setAncil (some twoRows), .update oneHist none, .gridded 0] := by
  refine ⟨(ancilOk_iff _).2 (by decide +kernel), ?_, ?_⟩
  · refine ⟨Or.inr (by decide +kernel), Or.inr (by decide +kernel), Or.inl ⟨⟨none, by decide +kernel⟩, by simp⟩, Or.inr (by decide +kernel), trivial⟩
  · refine ⟨fun _ => by decide +kernel, fun _ => by decide +kernel, ?_, fun _ => by decide +kernel, trivial⟩
    rintro ⟨err, h⟩
    have : (step storedPdf (step storedPdf (step storedPdf (fresh (histEns (some narrow)) fun _ => [0]) (.gridded 0)).2
      (.setAncil (some twoRows))).2 (.update oneHist none)).1 = .ok none := by decide +kernel
    rw [this] at h
    simp at h

/-- an `append` that raises: the columns of the ancillary tables differ -/
example : Reach .hist (histEns (some narrow)) ∧ Reach .hist (histEns (some wide)) ∧ AncilOk (histEns (some narrow)) ∧
    AncilOk (histEns (some wide)) ∧ (append (histEns (some narrow)) (histEns (some wide))).1 = .error .ValueError :=
  ⟨histReach _ (by decide +kernel), histReach _ (by decide +kernel), (ancilOk_iff _).2 (by decide +kernel),
    (ancilOk_iff _).2 (by decide +kernel), by decide +kernel⟩

end
end Verif.Props.State
