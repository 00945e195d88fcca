import Verif.Lemmas.Kinds

/-!
# Selecting rows
-/

set_option linter.unusedSectionVars false
set_option autoImplicit false

namespace Verif.Lemmas

open Verif Verif.Np Verif.Model Verif.Spec

/-! ### which rows a key selects -/

theorem normIndex_ok {n : ℕ} {i : ℤ} {j : ℕ} (h : normIndex n i = .ok j) :
    j < n ∧ ((0 ≤ i ∧ (j : ℤ) = i) ∨ (i < 0 ∧ (j : ℤ) = i + n)) := by
  unfold normIndex at h
  split_ifs at h with h1 h2
  · obtain rfl := Except.ok.inj h; omega
  · obtain rfl := Except.ok.inj h; omega

theorem normIndex_err {n : ℕ} {i : ℤ} {e : Err} (h : normIndex n i = .error e) : e = .IndexError ∧ (i < -n ∨ (n : ℤ) ≤ i) := by
  unfold normIndex at h
  split_ifs at h with h1 h2
  exact ⟨(Except.error.inj h).symm, by omega⟩

theorem ceil_bound (d s : ℤ) (hs : 0 < s) (k : ℕ) (hk : k < ((d + s - 1) / s).toNat) : k * s < d := by
  have h1 : (k : ℤ) + 1 ≤ (d + s - 1) / s := by omega
  rw [Int.le_ediv_iff_mul_le hs] at h1
  nlinarith

theorem sliceBound_le (n : ℕ) (lo up d : ℤ) (h1 : d ≤ up) (h2 : lo ≤ up) (h3 : n ≤ up + 1) (o : Option ℤ) : sliceBound n lo up d o ≤ up := by
  cases o with
  | none => exact h1
  | some x => simp only [sliceBound]; split_ifs <;> omega

theorem le_sliceBound (n : ℕ) (lo up d : ℤ) (h1 : lo ≤ d) (h2 : lo ≤ up) (h3 : lo ≤ 0) (o : Option ℤ) : lo ≤ sliceBound n lo up d o := by
  cases o with
  | none => exact h1
  | some x => simp only [sliceBound]; split_ifs <;> omega

theorem slice_lt {n : ℕ} {a b s : Option ℤ} {l : List ℕ} (h : sliceIndices n a b s = .ok l) : ∀ i ∈ l, i < n := by
  unfold sliceIndices at h
  simp only at h
  intro i hi
  generalize s.getD 1 = st at h
  split_ifs at h with h0 hp
  · obtain rfl := Except.ok.inj h
    simp only [List.mem_map, List.mem_range] at hi
    obtain ⟨k, hk, rfl⟩ := hi
    have := ceil_bound _ _ hp k hk
    have hks : (0 : ℤ) ≤ k * st := by positivity
    have h1 := sliceBound_le n 0 n n (by omega) (by omega) (by omega) b
    have h2 := le_sliceBound n 0 n 0 (by omega) (by omega) (by omega) a
    omega
  · obtain rfl := Except.ok.inj h
    simp only [List.mem_map, List.mem_range] at hi
    obtain ⟨k, hk, rfl⟩ := hi
    have hneg : 0 < -st := by omega
    have := ceil_bound _ _ hneg k hk
    have hks : (0 : ℤ) ≤ k * (-st) := by positivity
    have h1 := le_sliceBound n (-1) (n - 1) (-1) (by omega) (by omega) (by omega) b
    have h2 := sliceBound_le n (-1) (n - 1) (n - 1) (by omega) (by omega) (by omega) a
    have h3 : (k : ℤ) * -st = - (k * st) := by ring
    omega

theorem mapM_normIndex {n : ℕ} {is : List ℤ} {l : List ℕ} (h : is.mapM (normIndex n) = .ok l) : ∀ i ∈ l, i < n := by
  rw [mapM_ok_iff] at h
  induction h with
  | nil => simp
  | cons h1 _ ih =>
    intro i hi
    rcases List.mem_cons.1 hi with rfl | hi
    · exact (normIndex_ok h1).1
    · exact ih i hi

theorem mapM_normIndex_err {n : ℕ} {is : List ℤ} {e : Err} (h : is.mapM (normIndex n) = .error e) : e = .IndexError := by
  induction is with
  | nil => exact absurd (h.symm.trans (mapM_nil _)) (by simp)
  | cons a t ih =>
    rw [mapM_cons] at h
    cases h1 : normIndex n a with
    | error e' => rw [h1] at h; obtain rfl := Except.error.inj h; exact (normIndex_err h1).1
    | ok v =>
      rw [h1] at h
      simp only at h
      cases h2 : t.mapM (normIndex n) with
      | error e' => rw [h2] at h; obtain rfl := Except.error.inj h; exact ih h2
      | ok w => rw [h2] at h; simp at h

theorem resolve_lt {k : Key} {n : ℕ} {s : Sel} (h : k.resolve n = .ok s) : ∀ i ∈ selRows s, i < n := by
  cases k with
  | int i =>
    simp only [Key.resolve] at h
    cases h1 : normIndex n i with
    | error e => rw [h1] at h; simp [Except.map] at h
    | ok v => rw [h1] at h; obtain rfl := Except.ok.inj h; simpa [selRows] using (normIndex_ok h1).1
  | slice a b st =>
    simp only [Key.resolve] at h
    cases h1 : sliceIndices n a b st with
    | error e => rw [h1] at h; simp [Except.map] at h
    | ok v => rw [h1] at h; obtain rfl := Except.ok.inj h; simpa [selRows] using slice_lt h1
  | mask m =>
    simp only [Key.resolve] at h
    split_ifs at h with hm
    obtain rfl := Except.ok.inj h
    intro i hi
    simp only [selRows, maskIndices, List.mem_filter, List.mem_range] at hi
    omega
  | list is =>
    simp only [Key.resolve] at h
    cases h1 : is.mapM (normIndex n) with
    | error e => rw [h1] at h; simp [Except.map] at h
    | ok v => rw [h1] at h; obtain rfl := Except.ok.inj h; simpa [selRows] using mapM_normIndex h1

theorem resolve_err {k : Key} {n : ℕ} {e : Err} (h : k.resolve n = .error e) : e = .IndexError ∨ e = .ValueError := by
  cases k with
  | int i =>
    simp only [Key.resolve] at h
    cases h1 : normIndex n i with
    | ok v => rw [h1] at h; simp [Except.map] at h
    | error v => rw [h1] at h; obtain rfl := Except.error.inj h; exact Or.inl (normIndex_err h1).1
  | slice a b st =>
    simp only [Key.resolve] at h
    cases h1 : sliceIndices n a b st with
    | ok v => rw [h1] at h; simp [Except.map] at h
    | error v =>
      rw [h1] at h; obtain rfl := Except.error.inj h
      unfold sliceIndices at h1
      simp only at h1
      split_ifs at h1
      exact Or.inr (Except.error.inj h1).symm
  | mask m =>
    simp only [Key.resolve] at h
    split_ifs at h with hm
    exact Or.inl (Except.error.inj h).symm
  | list is =>
    simp only [Key.resolve] at h
    cases h1 : is.mapM (normIndex n) with
    | ok v => rw [h1] at h; simp [Except.map] at h
    | error v => rw [h1] at h; obtain rfl := Except.error.inj h; exact Or.inl (mapM_normIndex_err h1)

/-! ### selection on stored objects -/

section
variable {K : Type} [IntCast K]

/-- the tables of the selected PDFs -/
def pick (out : List (List (List (Elem K)))) (is : List ℕ) : List (List (List (Elem K))) := is.map fun i => out.getD i []

theorem pick_mem {out : List (List (List (Elem K)))} {is : List ℕ} (h : ∀ i ∈ is, i < out.length) : ∀ r ∈ pick out is, r ∈ out := by
  intro r hr
  obtain ⟨i, hi, rfl⟩ := List.mem_map.1 hr
  rw [List.getD_eq_getElem?_getD, List.getElem?_eq_getElem (h i hi)]
  exact List.getElem_mem _

theorem pick_length (out : List (List (List (Elem K)))) (is : List ℕ) : (pick out is).length = is.length := by simp [pick]

theorem Fixed.sub {c : RowCls K} {mo : List (String × Arr (Elem K))} {ws : List ℕ} {out out' : List (List (List (Elem K)))}
    (h : Fixed c mo ws out) (hs : ∀ r ∈ out', r ∈ out) : Fixed c mo ws out' := by
  obtain ⟨m', h1, h2, h3, h4⟩ := h.fix
  exact ⟨h.names, h.mok, h.mnd, h.sq, h.wl, ⟨m', h1, h2, h3, fun r hr => h4 r (hs r hr)⟩, fun r hr => h.len r (hs r hr)⟩

theorem squeezedMeta_frozenOf {c : RowCls K} {mo : List (String × Arr (Elem K))} {ws : List ℕ}
    {out : List (List (List (Elem K)))} (hf : Fixed c mo ws out) (s : List ℕ) :
    squeezedMeta (frozenOf c mo ws out s).metadata = .ok (metaDict mo) := by
  have h1 : ∀ p ∈ mo, p.1 ≠ "pdf_name" := fun p hp e => hf.names.name (by
    rw [← e]; exact List.mem_append_left _ (hf.mok p hp))
  have h2 : ∀ p ∈ mo, p.1 ≠ "pdf_version" := fun p hp e => hf.names.version (by
    rw [← e]; exact List.mem_append_left _ (hf.mok p hp))
  have e1 : (mo.map fun p => (p.1, Val.arr p.2.expand0)).filter (fun p => decide (p.1 ≠ "pdf_name"))
      = mo.map fun p => (p.1, Val.arr p.2.expand0) := by
    rw [List.filter_eq_self]
    intro q hq
    obtain ⟨p, hp, rfl⟩ := List.mem_map.1 hq
    simpa using h1 p hp
  have e2 : (mo.map fun p => (p.1, Val.arr p.2.expand0)).filter (fun p => decide (p.1 ≠ "pdf_version"))
      = mo.map fun p => (p.1, Val.arr p.2.expand0) := by
    rw [List.filter_eq_self]
    intro q hq
    obtain ⟨p, hp, rfl⟩ := List.mem_map.1 hq
    simpa using h2 p hp
  unfold squeezedMeta frozenOf classMeta Dict.pop
  simp only [Dict.keys, List.cons_append, List.nil_append, List.map_cons, List.mem_cons, true_or, if_true, Bind.bind,
    Except.bind, List.filter_cons]
  rw [e1]
  simp only [ne_eq, not_true_eq_false, decide_false, Bool.false_eq_true, if_false,
    show ("pdf_version" : String) ≠ "pdf_name" by decide, not_false_eq_true, decide_true, if_true, List.map_cons, List.mem_cons,
    true_or, List.filter_cons]
  rw [show (mo.map fun p => (p.1, Val.arr p.2.expand0)).filter (fun p => decide (¬ p.1 = "pdf_version")) = _ from e2]
  simp only [List.map_map, metaDict]
  congr 1
  apply List.map_congr_left
  intro p hp
  simp only [Function.comp, Val.squeeze, Val.toArr, hf.sq p hp]

theorem tab_at0 {ws : List ℕ} {out : List (List (List (Elem K)))} (hlen : ∀ r ∈ out, r.map List.length = ws) (j : ℕ)
    (hj : j < ws.length) (i : ℕ) (hi : i < out.length) : (tab out ws[j] j).at0 i = ⟨[ws[j]], out[i].getD j []⟩ := by
  simp only [Arr.at0, tab_row hlen j hj i hi, tab_shape, List.tail_cons]

theorem tab_takeRows {ws : List ℕ} {out : List (List (List (Elem K)))} (hlen : ∀ r ∈ out, r.map List.length = ws) (j : ℕ)
    (hj : j < ws.length) (is : List ℕ) (hi : ∀ i ∈ is, i < out.length) :
    (tab out ws[j] j).takeRows is = tab (pick out is) ws[j] j := by
  simp only [Arr.takeRows, tab_shape, List.tail_cons]
  conv_rhs => rw [tab, pick, List.map_map]
  congr 1
  apply List.map_congr_left
  intro i h
  rw [tab_row hlen j hj i (hi i h)]
  simp only [Function.comp]
  congr 1
  rw [List.getD_eq_getElem?_getD, List.getElem?_eq_getElem (hi i h)]; rfl

/-- an array indexed with a resolved key -/
def selArr (s : Sel) (a : Arr (Elem K)) : Arr (Elem K) :=
  match s with
  | .one i => a.at0 i
  | .many is => a.takeRows is

/-- the sliced tables, each expanded to rank two -/
theorem slice_storeRows {c : RowCls K} {mo : List (String × Arr (Elem K))} {ws : List ℕ}
    {out : List (List (List (Elem K)))} (hf : Fixed c mo ws out) (key : Key) :
    (sliceDict (storeRows c.rowArgs ws out) key).map (fun dd => dd.map fun p => (p.1, expandRow p.2)) =
      (key.resolve out.length).map fun s => storeRows c.rowArgs ws (pick out (selRows s)) := by
  have hidx : ∀ p ∈ (c.rowArgs.zip ws).zipIdx, (Val.arr (tab out p.1.2 p.2) : Val K).index key =
      (key.resolve out.length).map fun s => .arr (selArr s (tab out p.1.2 p.2)) := by
    intro p hp
    unfold Val.index
    simp only [tab_shape]
    cases hr : key.resolve out.length with
    | error e => simp [Except.map]
    | ok s => cases s <;> simp [Except.map, selArr]
  cases hr : key.resolve out.length with
  | error e =>
    simp only [Except.map]
    have hne : (c.rowArgs.zip ws).zipIdx ≠ [] := by
      intro h0
      have := congrArg List.length h0
      simp only [List.length_zipIdx, List.length_zip, hf.wl, min_self, List.length_nil] at this
      exact hf.names.rne (List.length_eq_zero_iff.1 this)
    obtain ⟨p, t, hpt⟩ := List.exists_cons_of_ne_nil hne
    have h1 := hidx p (by rw [hpt]; simp)
    rw [hr] at h1
    simp only [Except.map] at h1
    unfold sliceDict
    rw [storeRows_eq, hpt, List.map_cons, mapM_error_head (e := e)]
    simp only [sliceVal, h1]
    rcases resolve_err hr with rfl | rfl <;> rfl
  | ok s =>
    simp only [Except.map]
    unfold sliceDict
    rw [storeRows_eq, storeRows_eq]
    rw [mapM_ok_map _ (fun q : String × Val K => (q.1, .arr (selArr s q.2.toArr)))]
    · simp only [Except.ok.injEq, List.map_map]
      apply List.map_congr_left
      intro p hp
      obtain ⟨⟨nm, w⟩, j⟩ := p
      rw [List.mem_iff_getElem] at hp
      obtain ⟨j', hj', e⟩ := hp
      simp only [List.getElem_zipIdx, List.getElem_zip, Prod.mk.injEq, zero_add] at e
      obtain ⟨⟨-, e2⟩, e3⟩ := e
      have hjw : j' < ws.length := by simp [hf.wl] at hj' ⊢; omega
      subst e3
      subst e2
      have hlt := resolve_lt hr
      simp only [Function.comp]
      congr 1
      cases s with
      | one i =>
        have hi : i < out.length := hlt i (by simp [selRows])
        simp only [Val.toArr, selArr]
        unfold expandRow
        rw [if_pos (by simp [Val.shape, Val.toArr, Arr.at0, tab_shape])]
        rw [tab_at0 hf.len j' hjw i hi]
        simp [Val.expand0, Val.toArr, Arr.expand0, tab, pick, selRows, Arr.ofRows, List.getElem?_eq_getElem hi]
      | many is =>
        simp only [Val.toArr, selArr]
        unfold expandRow
        rw [if_neg (by simp [Val.shape, Val.toArr, Arr.takeRows, Arr.ofRows, tab_shape]), tab_takeRows hf.len j' hjw is hlt]
        rfl
    · intro q hq
      obtain ⟨p, hp, rfl⟩ := List.mem_map.1 hq
      have h1 := hidx p hp
      rw [hr] at h1
      simp only [Except.map] at h1
      simp only [sliceVal, h1, Except.map, Val.toArr]

/-- `ens[key]` on a stored object -/
theorem getItem_frozen {c : RowCls K} {e : Ens K} {mo : List (String × Arr (Elem K))} {ws : List ℕ}
    {out : List (List (List (Elem K)))} {sh : List ℕ} (hc : e.create = rowCreate c) (hfr : e.frozen = frozenOf c mo ws out sh)
    (hf : Fixed c mo ws out) (hw : c.needsRows = true → ws.headD 0 ≠ 0) (key : Key) :
    getItem e key = (key.resolve out.length).bind fun s =>
      (sliceAncil e.ancil key).bind fun anc =>
      if c.needsRows = true ∧ selRows s = [] then .error .ValueError
      else (checkArrayShapes anc (selRows s).length).bind fun _ =>
        .ok ⟨e.create, e.create, frozenOf c mo ws (pick out (selRows s)) [(selRows s).length], anc⟩ := by
  have hsl := slice_storeRows hf key
  unfold getItem
  rw [hfr, squeezedMeta_frozenOf hf sh]
  have hobj : (frozenOf c mo ws out sh).objdata = storeRows c.rowArgs ws out := rfl
  rw [hobj]
  cases hr : key.resolve out.length with
  | error err =>
    rw [hr] at hsl
    cases hd : sliceDict (storeRows c.rowArgs ws out) key with
    | ok dd => rw [hd] at hsl; simp [Except.map] at hsl
    | error err' =>
      rw [hd] at hsl
      obtain rfl := Except.error.inj hsl
      rfl
  | ok s =>
    rw [hr] at hsl
    cases hd : sliceDict (storeRows c.rowArgs ws out) key with
    | error err' => rw [hd] at hsl; simp [Except.map] at hsl
    | ok dd =>
      rw [hd] at hsl
      simp only [Except.map, Except.ok.injEq] at hsl
      have hlt := resolve_lt hr
      have hfs := hf.sub (pick_mem (K := K) hlt)
      have hnd := List.nodup_append.1 hf.names.nd
      have hkeys := keys_storeRows c.rowArgs ws (pick out (selRows s)) hf.wl
      have hup : Dict.update (metaDict mo) (storeRows c.rowArgs ws (pick out (selRows s)))
          = metaDict mo ++ storeRows c.rowArgs ws (pick out (selRows s)) := by
        apply update_disjoint
        · rw [hkeys]; exact hnd.2.1
        · intro k hk hk2
          rw [hkeys] at hk
          rw [keys_metaDict] at hk2
          obtain ⟨p, hp, rfl⟩ := List.mem_map.1 hk2
          exact hnd.2.2 p.1 (hf.mok p hp) p.1 hk rfl
      simp only [Bind.bind, Except.bind]
      rw [hsl, hup]
      have hb := rebuild hfs _ (fun k => rfl)
      have hcond : (c.needsRows = true ∧ (pick out (selRows s)).length * ws.headD 0 = 0) ↔
          (c.needsRows = true ∧ selRows s = []) := by
        constructor
        · rintro ⟨h1, h2⟩
          refine ⟨h1, ?_⟩
          rcases Nat.mul_eq_zero.1 h2 with h | h
          · rw [pick_length] at h; exact List.length_eq_zero_iff.1 h
          · exact absurd h (hw h1)
        · rintro ⟨h1, h2⟩
          exact ⟨h1, by rw [h2]; simp [pick]⟩
      simp only [hcond] at hb
      have hmk : ∀ anc, mkEns e.create e.create (metaDict mo ++ storeRows c.rowArgs ws (pick out (selRows s))) anc =
          if c.needsRows = true ∧ selRows s = [] then .error .ValueError
          else (checkArrayShapes anc (selRows s).length).bind fun _ =>
            .ok ⟨e.create, e.create, frozenOf c mo ws (pick out (selRows s)) [(selRows s).length], anc⟩ := by
        intro anc
        unfold mkEns
        rw [hc, hb]
        split_ifs with hcc
        · rfl
        · simp only [Bind.bind, Except.bind]
          have e1 : (frozenOf c mo ws (pick out (selRows s)) [(pick out (selRows s)).length]).npdf = (selRows s).length := by
            simp [frozenOf, pick_length]
          rw [e1, pick_length]
      cases sliceAncil e.ancil key with
      | error err => rfl
      | ok anc => exact hmk anc

theorem selects_frozenOf {c : RowCls K} {mo : List (String × Arr (Elem K))} {ws : List ℕ}
    {out : List (List (List (Elem K)))} (hf : Fixed c mo ws out) (sh : List ℕ) (is : List ℕ) (hi : ∀ i ∈ is, i < out.length) :
    Selects (frozenOf c mo ws out sh) (frozenOf c mo ws (pick out is) [is.length]) is := by
  refine ⟨rfl, by simp [frozenOf, pick_length], rfl, ?_, ?_⟩
  · simp only [frozenOf]
    rw [keys_storeRows _ _ _ hf.wl, keys_storeRows _ _ _ hf.wl]
  · intro k a ha
    simp only [frozenOf] at ha ⊢
    have hnd := (List.nodup_append.1 hf.names.nd).2.1
    have hk : k ∈ c.rowArgs := by
      have := (get?_isSome_iff _ k).1 ⟨_, ha⟩
      rwa [keys_storeRows _ _ _ hf.wl] at this
    obtain ⟨j, hj, rfl⟩ := List.mem_iff_getElem.1 hk
    have hjw : j < ws.length := by rw [hf.wl]; exact hj
    rw [get?_storeRows _ _ _ hf.wl hnd j hj] at ha
    obtain rfl := Val.arr.inj (Option.some.inj ha)
    refine ⟨_, get?_storeRows _ _ _ hf.wl hnd j hj, ?_, ?_⟩
    · rw [tab_shape, tab_shape, pick_length]; rfl
    · intro i hi'
      have hsub := hf.sub (pick_mem (K := K) hi)
      rw [tab_row hsub.len j hjw i (by rw [pick_length]; exact hi')]
      have hlt := hi is[i] (List.getElem_mem hi')
      rw [tab_row hf.len j hjw is[i] hlt]
      simp [pick, List.getElem?_eq_getElem hlt]

end

end Verif.Lemmas
