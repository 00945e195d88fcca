import Verif.Model.H5
import Verif.Lemmas.Dict
import Verif.Spec.Ens

/-!
# Writing rows of data sets

Assignments to rows of data sets commute when they touch different data sets or different rows (`run_perm`); assignments of the rows of
some tables lead to those tables, in whatever order they are made (`run_masked`).
-/

set_option linter.unusedSectionVars false
set_option autoImplicit false

namespace Verif.Lemmas

open Verif Verif.Np Verif.Model Verif.Spec

section
variable {K : Type}

/-! ### rows after an assignment -/

/-- the value of an assignment is an array as numpy makes them -/
def Put.Wf (o : Put K) : Prop := o.val.toArr.Wf

theorem setRows_len {a : Arr (Elem K)} (ha : a.Wf) {o : Put K} (ho : Put.Wf o) (hf : o.Fits a) :
    ∀ r ∈ (List.range a.nrows).map fun i => if o.start ≤ i ∧ i < o.stop then o.val.toArr.row (i - o.start) else a.row i,
      r.length = a.shape.tail.prod := by
  obtain ⟨-, -, -, h4⟩ := hf
  intro r hr
  obtain ⟨i, hi, rfl⟩ := List.mem_map.1 hr
  rw [List.mem_range] at hi
  split_ifs with h
  · rw [Arr.length_row _ ho]
    · simp [Arr.rowSize, h4]
    · simp only [Arr.nrows, h4, List.headD_cons]
      omega
  · rw [Arr.length_row _ ha _ hi]; rfl

theorem setRows_wf {a : Arr (Elem K)} (ha : a.Wf) {o : Put K} (ho : Put.Wf o) (hf : o.Fits a) :
    (setRows a o.start o.stop o.val.toArr).Wf := Arr.wf_ofRows _ _ (setRows_len ha ho hf)

theorem setRows_shape {a : Arr (Elem K)} (hs : a.shape ≠ []) (s t : ℕ) (v : Arr (Elem K)) : (setRows a s t v).shape = a.shape := by
  obtain ⟨sh, d⟩ := a
  cases sh with
  | nil => simp at hs
  | cons n t => simp [setRows, Arr.ofRows, Arr.nrows]

theorem setRows_row {a : Arr (Elem K)} (ha : a.Wf) {o : Put K} (ho : Put.Wf o) (hf : o.Fits a) (i : ℕ) (hi : i < a.nrows) :
    (setRows a o.start o.stop o.val.toArr).row i = if o.start ≤ i ∧ i < o.stop then o.val.toArr.row (i - o.start) else a.row i := by
  unfold setRows
  rw [Arr.row_ofRows _ _ (setRows_len ha ho hf) i (by simpa using hi)]
  simp

theorem fits_shape {a b : Arr (Elem K)} (o : Put K) (h : a.shape = b.shape) : o.Fits a ↔ o.Fits b := by
  unfold Put.Fits Arr.nrows
  rw [h]

theorem onCol_shape (o : Put K) (v : Val K) : (o.onCol v).shape = v.shape := by
  cases v with
  | arr a =>
    simp only [Put.onCol]
    split_ifs with h
    · exact setRows_shape h.1 _ _ _
    · rfl
  | py e => rfl
  | lst l => rfl

/-- the two assignments touch different data sets or different rows -/
def Put.Apart (o o' : Put K) : Prop := o.group ≠ o'.group ∨ o.col ≠ o'.col ∨ o.stop ≤ o'.start ∨ o'.stop ≤ o.start

theorem Put.Apart.symm {o o' : Put K} (h : Put.Apart o o') : Put.Apart o' o := by
  rcases h with h | h | h | h
  · exact Or.inl h.symm
  · exact Or.inr (Or.inl h.symm)
  · exact Or.inr (Or.inr (Or.inr h))
  · exact Or.inr (Or.inr (Or.inl h))

theorem onCol_wf {o : Put K} (ho : Put.Wf o) {a : Arr (Elem K)} (ha : a.Wf) : ∃ b, o.onCol (.arr a) = .arr b ∧ b.Wf ∧ b.shape = a.shape := by
  simp only [Put.onCol]
  split_ifs with h
  · exact ⟨_, rfl, setRows_wf ha ho h, setRows_shape h.1 _ _ _⟩
  · exact ⟨_, rfl, ha, rfl⟩

theorem onCol_comm {o o' : Put K} (ho : Put.Wf o) (ho' : Put.Wf o') (hd : o.stop ≤ o'.start ∨ o'.stop ≤ o.start) {a : Arr (Elem K)} (ha : a.Wf) :
    o.onCol (o'.onCol (.arr a)) = o'.onCol (o.onCol (.arr a)) := by
  by_cases h : o.Fits a
  · by_cases h' : o'.Fits a
    · have hs := setRows_shape h.1 o.start o.stop o.val.toArr
      have hs' := setRows_shape h'.1 o'.start o'.stop o'.val.toArr
      have hw := setRows_wf ha ho h
      have hw' := setRows_wf ha ho' h'
      have g : o.Fits (setRows a o'.start o'.stop o'.val.toArr) := (fits_shape o hs').2 h
      have g' : o'.Fits (setRows a o.start o.stop o.val.toArr) := (fits_shape o' hs).2 h'
      simp only [Put.onCol, if_pos h, if_pos h', if_pos g, if_pos g']
      congr 1
      apply Arr.ext_rows (setRows_wf hw' ho g) (setRows_wf hw ho' g')
      · rw [setRows_shape g.1, hs']; exact h.1
      · rw [setRows_shape g'.1, hs]; exact h.1
      · rw [setRows_shape g.1, hs', setRows_shape g'.1, hs]
      · have hn : ∀ b : Arr (Elem K), b.shape = a.shape → b.nrows = a.nrows := by
          intro b hb; simp [Arr.nrows, hb]
        unfold Arr.rows
        rw [hn (setRows (setRows a o'.start o'.stop o'.val.toArr) o.start o.stop o.val.toArr) (by rw [setRows_shape g.1, hs']),
          hn (setRows (setRows a o.start o.stop o.val.toArr) o'.start o'.stop o'.val.toArr) (by rw [setRows_shape g'.1, hs])]
        apply List.map_congr_left
        intro i hi
        rw [List.mem_range] at hi
        rw [setRows_row hw' ho g i (by rw [hn _ hs']; exact hi), setRows_row hw ho' g' i (by rw [hn _ hs]; exact hi),
          setRows_row ha ho' h' i hi, setRows_row ha ho h i hi]
        split_ifs <;> first | rfl | omega
    · have hs := setRows_shape h.1 o.start o.stop o.val.toArr
      simp only [Put.onCol, if_pos h, if_neg h', if_neg (fun c => h' ((fits_shape o' hs).1 c))]
  · by_cases h' : o'.Fits a
    · have hs := setRows_shape h'.1 o'.start o'.stop o'.val.toArr
      simp only [Put.onCol, if_pos h', if_neg h, if_neg (fun c => h ((fits_shape o hs).1 c))]
    · simp only [Put.onCol, if_neg h', if_neg h]

/-! ### the file after an assignment -/

/-- every array of the file is as numpy makes them -/
def FileWf (f : Tabs K) : Prop := ∀ g ∈ f, ∀ p ∈ g.2, ∀ a, p.2 = .arr a → a.Wf

theorem onFile_wf {o : Put K} (ho : Put.Wf o) {f : Tabs K} (hf : FileWf f) : FileWf (o.onFile f) := by
  intro g hg p hp b hb
  obtain ⟨g0, hg0, rfl⟩ := List.mem_map.1 hg
  split_ifs at hp with h
  · obtain ⟨p0, hp0, rfl⟩ := List.mem_map.1 hp
    split_ifs at hb with h2
    · cases hv : p0.2 with
      | arr a =>
        simp only [hv] at hb
        obtain ⟨b', hb', hw, -⟩ := onCol_wf ho (hf g0 hg0 p0 hp0 a hv)
        rw [hb'] at hb
        obtain rfl := Val.arr.inj hb
        exact hw
      | py e => rw [hv] at hb; simp [Put.onCol] at hb
      | lst l => rw [hv] at hb; simp [Put.onCol] at hb
    · exact hf g0 hg0 p0 hp0 b hb
  · exact hf g0 hg0 p hp b hb

theorem onFile_comm {o o' : Put K} (ho : Put.Wf o) (ho' : Put.Wf o') (hd : Put.Apart o o') {f : Tabs K} (hf : FileWf f) :
    o.onFile (o'.onFile f) = o'.onFile (o.onFile f) := by
  unfold Put.onFile
  rw [List.map_map, List.map_map]
  apply List.map_congr_left
  rintro ⟨g, d⟩ hg
  simp only [Function.comp]
  by_cases h : g = o.group <;> by_cases h' : g = o'.group <;> simp only [h, h', if_true, if_false]
  · simp only [h] at h'
    simp only [h', if_true, List.map_map, Prod.mk.injEq, true_and]
    apply List.map_congr_left
    rintro ⟨c, v⟩ hp
    simp only [Function.comp]
    by_cases k : c = o.col <;> by_cases k' : c = o'.col <;> simp only [k, k', if_true, if_false]
    · simp only [k] at k'
      simp only [k', if_true, Prod.mk.injEq, true_and]
      have hd' : o.stop ≤ o'.start ∨ o'.stop ≤ o.start := by
        rcases hd with hd | hd | hd
        · exact absurd h' hd
        · exact absurd k' hd
        · exact hd
      cases v with
      | arr a => exact onCol_comm ho ho' hd' (hf _ hg _ hp a rfl)
      | py e => rfl
      | lst l => rfl
    · simp only [k] at k'; simp [k']
    · simp only [k'] at k; simp [k]
  · simp only [h] at h'; simp [h']
  · simp only [h'] at h; simp [h]

theorem lookup_map_pair {β γ : Type} (f : List (String × β)) (F : String → β → γ) (g : String) :
    (f.map fun p => (p.1, F p.1 p.2)).lookup g = (f.lookup g).map (F g) := by
  induction f with
  | nil => rfl
  | cons p t ih =>
    obtain ⟨k, v⟩ := p
    simp only [List.map_cons, List.lookup_cons, ih]
    by_cases h : g = k
    · subst h; simp
    · rw [beq_eq_false_iff_ne.2 h]

theorem get?_map_pair (d : Dict K) (F : String → Val K → Val K) (k : String) :
    Dict.get? (d.map fun p => (p.1, F p.1 p.2)) k = (Dict.get? d k).map (F k) := by
  induction d with
  | nil => rfl
  | cons p t ih =>
    rw [List.map_cons, get?_cons, get?_cons, ih]
    by_cases h : p.1 = k
    · subst h; simp
    · simp [h]

theorem onFile_eq (o : Put K) (f : Tabs K) : o.onFile f = f.map fun g => (g.1,
    if g.1 = o.group then g.2.map fun p => (p.1, if p.1 = o.col then o.onCol p.2 else p.2) else g.2) := by
  unfold Put.onFile
  apply List.map_congr_left
  rintro ⟨g, d⟩ -
  simp only
  split_ifs with h
  · simp only [Prod.mk.injEq, true_and]
    apply List.map_congr_left
    rintro ⟨c, v⟩ -
    simp only
    split_ifs <;> rfl
  · rfl

theorem colOf_onFile (o : Put K) (f : Tabs K) (g c : String) :
    colOf (o.onFile f) g c = (colOf f g c).map fun v => if g = o.group ∧ c = o.col then o.onCol v else v := by
  rw [onFile_eq, colOf, colOf]
  rw [lookup_map_pair f (fun g d => if g = o.group then d.map fun p => (p.1, if p.1 = o.col then o.onCol p.2 else p.2) else d) g]
  cases f.lookup g with
  | none => rfl
  | some d =>
    simp only [Option.map_some, Option.bind_some]
    by_cases h : g = o.group
    · simp only [h, if_true, true_and]
      exact get?_map_pair d (fun k v => if k = o.col then o.onCol v else v) c
    · simp only [h, if_false, false_and, Option.map_id']

theorem writeOp_ok_iff (f f' : Tabs K) (o : Put K) :
    writeOp f o = .ok f' ↔ (∃ a, colOf f o.group o.col = some (.arr a) ∧ o.Fits a) ∧ f' = o.onFile f := by
  unfold writeOp
  constructor
  · intro h
    split at h
    · rename_i a ha
      split_ifs at h with h2
      exact ⟨⟨a, ha, h2⟩, by simpa using h.symm⟩
    · simp at h
    · simp at h
  · rintro ⟨⟨a, ha, hf⟩, rfl⟩
    rw [ha]
    simp only
    rw [if_pos hf]

/-- whether an assignment is possible does not depend on earlier ones -/
theorem fits_onFile (o o' : Put K) (f : Tabs K) :
    (∃ a, colOf (o'.onFile f) o.group o.col = some (.arr a) ∧ o.Fits a) ↔ ∃ a, colOf f o.group o.col = some (.arr a) ∧ o.Fits a := by
  rw [colOf_onFile]
  cases hc : colOf f o.group o.col with
  | none => simp
  | some v =>
    simp only [Option.map_some, Option.some.injEq]
    split_ifs with h
    · cases v with
      | arr a =>
        simp only [Val.arr.injEq]
        have hs := onCol_shape o' (.arr a)
        constructor
        · rintro ⟨b, hb, hf⟩
          refine ⟨a, rfl, (fits_shape o ?_).1 hf⟩
          rw [hb] at hs
          exact hs
        · rintro ⟨b, rfl, hf⟩
          simp only [Put.onCol] at hs ⊢
          split_ifs at hs ⊢ with h2
          · exact ⟨_, rfl, (fits_shape o hs).2 hf⟩
          · exact ⟨_, rfl, hf⟩
      | py e => simp [Put.onCol]
      | lst l => simp [Put.onCol]
    · simp

/-- the result of assignments that succeed: the order does not matter when they are apart -/
theorem run_perm {os os' : List (Put K)} (hp : os.Perm os') (hw : ∀ o ∈ os, Put.Wf o) (hd : os.Pairwise Put.Apart) {f f' : Tabs K}
    (hf : FileWf f) (h : runOps f os = .ok f') : runOps f os' = .ok f' := by
  induction hp generalizing f with
  | nil => exact h
  | cons o _ ih =>
    rename_i l l'
    unfold runOps at h ⊢
    cases ho : writeOp f o with
    | error e => rw [ho] at h; simp at h
    | ok f1 =>
      rw [ho] at h
      simp only at h ⊢
      have := (writeOp_ok_iff f f1 o).1 ho
      exact ih (fun x hx => hw x (by simp [hx])) (List.pairwise_cons.1 hd).2 (this.2 ▸ onFile_wf (hw o (by simp)) hf) h
  | swap o o' l =>
    unfold runOps at h
    cases h1 : writeOp f o' with
    | error e => rw [h1] at h; simp at h
    | ok f1 =>
      rw [h1] at h
      simp only at h
      unfold runOps at h
      cases h2 : writeOp f1 o with
      | error e => rw [h2] at h; simp at h
      | ok f2 =>
        rw [h2] at h
        simp only at h
        obtain ⟨g1, rfl⟩ := (writeOp_ok_iff _ _ _).1 h1
        obtain ⟨g2, rfl⟩ := (writeOp_ok_iff _ _ _).1 h2
        have k1 := (writeOp_ok_iff f _ o).2 ⟨(fits_onFile o o' f).1 g2, rfl⟩
        have k2 := (writeOp_ok_iff (o.onFile f) _ o').2 ⟨(fits_onFile o' o f).2 g1, rfl⟩
        have hap : Put.Apart o' o := (List.pairwise_cons.1 hd).1 o (by simp)
        unfold runOps
        rw [k1]
        simp only
        unfold runOps
        rw [k2]
        simp only
        rw [onFile_comm (hw o' (by simp)) (hw o (by simp)) hap hf]
        exact h
  | trans p1 _ ih1 ih2 =>
    exact ih2 (fun o ho => hw o (p1.mem_iff.2 ho)) ((p1.pairwise_iff (fun h => Put.Apart.symm h)).1 hd) hf (ih1 hw hd hf h)

/-! ### writing the rows of given tables -/

/-- row `i` of the data set has been assigned -/
def covered (os : List (Put K)) (g c : String) (i : ℕ) : Bool :=
  os.any fun o => decide (o.group = g ∧ o.col = c ∧ o.start ≤ i ∧ i < o.stop)

/-- the array with the fill value in the rows that are not covered -/
def maskArr (fill : Elem K) (c : ℕ → Bool) (a : Arr (Elem K)) : Arr (Elem K) :=
  .ofRows a.shape.tail ((List.range a.nrows).map fun i => if c i then a.row i else List.replicate a.rowSize fill)

/-- the tables with the fill value in the rows that are not covered -/
def masked (fill : Elem K) (D : Tabs K) (os : List (Put K)) : Tabs K :=
  D.map fun g => (g.1, g.2.map fun p => (p.1, .arr (maskArr fill (covered os g.1 p.1) p.2.toArr)))

/-- tables with `n` rows: distinct names, every column an array with `n` rows -/
structure TabsOk (D : Tabs K) (n : ℕ) : Prop where
  groups : (D.map (·.1)).Nodup
  cols : ∀ g ∈ D, (Dict.keys g.2).Nodup
  arrs : ∀ g ∈ D, AncilCols g.2 n

/-- the rows `s, ..., t - 1` of the tables -/
def chunkTabs (D : Tabs K) (s t : ℕ) : Tabs K := D.map fun g => (g.1, g.2.map fun p => (p.1, chunkCol s t p.2))

theorem mask_len (fill : Elem K) (c : ℕ → Bool) {a : Arr (Elem K)} (ha : a.Wf) :
    ∀ r ∈ (List.range a.nrows).map fun i => if c i then a.row i else List.replicate a.rowSize fill, r.length = a.shape.tail.prod := by
  intro r hr
  obtain ⟨i, hi, rfl⟩ := List.mem_map.1 hr
  rw [List.mem_range] at hi
  split_ifs
  · rw [Arr.length_row _ ha _ hi]; rfl
  · simp [Arr.rowSize]

theorem mask_wf (fill : Elem K) (c : ℕ → Bool) {a : Arr (Elem K)} (ha : a.Wf) : (maskArr fill c a).Wf := Arr.wf_ofRows _ _ (mask_len fill c ha)

theorem mask_shape (fill : Elem K) (c : ℕ → Bool) {a : Arr (Elem K)} (hs : a.shape ≠ []) : (maskArr fill c a).shape = a.shape := by
  obtain ⟨sh, d⟩ := a
  cases sh with
  | nil => simp at hs
  | cons n t => simp [maskArr, Arr.ofRows, Arr.nrows]

theorem mask_row (fill : Elem K) (c : ℕ → Bool) {a : Arr (Elem K)} (ha : a.Wf) (i : ℕ) (hi : i < a.nrows) :
    (maskArr fill c a).row i = if c i then a.row i else List.replicate a.rowSize fill := by
  unfold maskArr
  rw [Arr.row_ofRows _ _ (mask_len fill c ha) i (by simpa using hi)]
  simp

theorem mask_all (fill : Elem K) (c : ℕ → Bool) {a : Arr (Elem K)} (ha : a.Wf) (hs : a.shape ≠ []) (h : ∀ i < a.nrows, c i = true) :
    maskArr fill c a = a := by
  have : (List.range a.nrows).map (fun i => if c i then a.row i else List.replicate a.rowSize fill) = a.rows := by
    unfold Arr.rows
    apply List.map_congr_left
    intro i hi
    rw [if_pos (h i (List.mem_range.1 hi))]
  unfold maskArr
  rw [this]
  exact Arr.ofRows_rows a ha hs

theorem mask_none (fill : Elem K) (c : ℕ → Bool) {a : Arr (Elem K)} (hs : a.shape ≠ []) (h : ∀ i < a.nrows, c i = false) :
    maskArr fill c a = ⟨a.shape, List.replicate a.shape.prod fill⟩ := by
  have : (List.range a.nrows).map (fun i => if c i then a.row i else List.replicate a.rowSize fill) =
      List.replicate a.nrows (List.replicate a.rowSize fill) := by
    rw [List.eq_replicate_iff]
    refine ⟨by simp, ?_⟩
    intro r hr
    obtain ⟨i, hi, rfl⟩ := List.mem_map.1 hr
    rw [h i (List.mem_range.1 hi)]
    simp
  unfold maskArr
  rw [this]
  obtain ⟨sh, d⟩ := a
  cases sh with
  | nil => simp at hs
  | cons n t => simp [Arr.ofRows, Arr.nrows, Arr.rowSize]

/-- assigning rows `s, ..., t - 1` of `a` -/
theorem mask_set (fill : Elem K) (c : ℕ → Bool) {a : Arr (Elem K)} (ha : a.Wf) (hs : a.shape ≠ []) (o : Put K) (hst : o.start ≤ o.stop)
    (ht : o.stop ≤ a.nrows) (hv : o.val = chunkCol o.start o.stop (.arr a)) :
    o.Fits (maskArr fill c a) ∧ setRows (maskArr fill c a) o.start o.stop o.val.toArr =
      maskArr fill (fun i => c i || decide (o.start ≤ i ∧ i < o.stop)) a := by
  have hlt : ∀ i ∈ List.range' o.start (o.stop - o.start), i < a.nrows := by
    intro i hi
    simp only [List.mem_range'_1] at hi
    omega
  have hva : o.val.toArr = a.takeRows (List.range' o.start (o.stop - o.start)) := by rw [hv]; rfl
  have hn : (maskArr fill c a).nrows = a.nrows := by simp [Arr.nrows, mask_shape fill c hs]
  have hfit : o.Fits (maskArr fill c a) := by
    refine ⟨by rw [mask_shape fill c hs]; exact hs, hst, by rw [hn]; exact ht, ?_⟩
    rw [hva, Arr.shape_takeRows, mask_shape fill c hs, List.length_range']
  refine ⟨hfit, ?_⟩
  have how : Put.Wf o := by
    unfold Put.Wf
    rw [hva]
    exact Arr.wf_takeRows a ha _ hlt
  apply Arr.ext_rows (setRows_wf (mask_wf fill c ha) how hfit) (mask_wf fill _ ha)
  · rw [setRows_shape hfit.1, mask_shape fill c hs]; exact hs
  · rw [mask_shape fill _ hs]; exact hs
  · rw [setRows_shape hfit.1, mask_shape fill c hs, mask_shape fill _ hs]
  · unfold Arr.rows
    have h1 : (setRows (maskArr fill c a) o.start o.stop o.val.toArr).nrows = a.nrows := by
      simp [Arr.nrows, setRows_shape hfit.1, mask_shape fill c hs]
    have h2 : (maskArr fill (fun i => c i || decide (o.start ≤ i ∧ i < o.stop)) a).nrows = a.nrows := by
      simp [Arr.nrows, mask_shape fill _ hs]
    rw [h1, h2]
    apply List.map_congr_left
    intro i hi
    rw [List.mem_range] at hi
    rw [setRows_row (mask_wf fill c ha) how hfit i (by rw [hn]; exact hi), mask_row fill c ha i hi, mask_row fill _ ha i hi]
    by_cases h : o.start ≤ i ∧ i < o.stop
    · rw [if_pos h]
      simp only [h, and_self, decide_true, Bool.or_true, if_true]
      rw [hva, Arr.row_takeRows a ha _ hlt (i - o.start) (by simp; omega)]
      simp only [List.getElem_range']
      congr 1
      omega
    · rw [if_neg h]
      simp [h]

theorem lookup_of_mem_nodup {β : Type} {D : List (String × β)} (hn : (D.map (·.1)).Nodup) {g : String} {d : β} (h : (g, d) ∈ D) :
    D.lookup g = some d := by
  induction D with
  | nil => simp at h
  | cons p t ih =>
    rw [List.map_cons, List.nodup_cons] at hn
    rw [List.lookup_cons]
    rcases List.mem_cons.1 h with rfl | h
    · simp
    · have : g ≠ p.1 := by
        rintro rfl
        exact hn.1 (List.mem_map.2 ⟨_, h, rfl⟩)
      rw [beq_eq_false_iff_ne.2 this]
      exact ih hn.2 h

theorem mem_tabOps {D : Tabs K} {s t : ℕ} {o : Put K} : o ∈ tabOps (chunkTabs D s t) s t ↔
    ∃ g ∈ D, ∃ p ∈ g.2, o = ⟨g.1, p.1, s, t, chunkCol s t p.2⟩ := by
  simp only [tabOps, chunkTabs, List.mem_flatMap, List.mem_map]
  constructor
  · rintro ⟨g', ⟨g, hg, rfl⟩, p', hp', rfl⟩
    simp only [List.mem_map] at hp'
    obtain ⟨p, hp, rfl⟩ := hp'
    exact ⟨g, hg, p, hp, rfl⟩
  · rintro ⟨g, hg, p, hp, rfl⟩
    exact ⟨_, ⟨g, hg, rfl⟩, _, List.mem_map.2 ⟨p, hp, rfl⟩, rfl⟩

theorem write_masked {fill : Elem K} {D : Tabs K} {n : ℕ} (hD : TabsOk D n) (os : List (Put K)) {s t : ℕ} (hst : s ≤ t) (ht : t ≤ n)
    {o : Put K} (ho : o ∈ tabOps (chunkTabs D s t) s t) : writeOp (masked fill D os) o = .ok (masked fill D (os ++ [o])) := by
  obtain ⟨⟨g, d⟩, hg, ⟨c, v⟩, hp, rfl⟩ := mem_tabOps.1 ho
  obtain ⟨a, rfl, ha, hh⟩ := hD.arrs _ hg _ hp
  have hs : a.shape ≠ [] := by intro h0; rw [h0] at hh; simp at hh
  have hn : a.nrows = n := by
    cases hsh : a.shape with
    | nil => exact absurd hsh hs
    | cons m r => rw [hsh] at hh; simp only [List.head?_cons, Option.some.injEq] at hh; simp [Arr.nrows, hsh, hh]
  rw [writeOp_ok_iff]
  have hms := mask_set fill (covered os g c) ha hs ⟨g, c, s, t, chunkCol s t (.arr a)⟩ hst (by rw [hn]; exact ht) rfl
  constructor
  · refine ⟨maskArr fill (covered os g c) a, ?_, hms.1⟩
    unfold colOf masked
    have h1 := lookup_map_pair D (fun g d => d.map fun p => (p.1, Val.arr (maskArr fill (covered os g p.1) p.2.toArr))) g
    rw [lookup_of_mem_nodup hD.groups hg] at h1
    simp only at h1 ⊢
    rw [h1]
    simp only [Option.map_some, Option.bind_some]
    rw [get?_map_pair d (fun k v => Val.arr (maskArr fill (covered os g k) v.toArr)) c, get?_of_mem (hD.cols _ hg) hp]
    rfl
  · rw [onFile_eq]
    unfold masked
    rw [List.map_map]
    apply List.map_congr_left
    rintro ⟨g', d'⟩ hg'
    simp only [Function.comp, Prod.mk.injEq, true_and]
    by_cases h : g' = g
    · subst h
      simp only [if_true, List.map_map]
      apply List.map_congr_left
      rintro ⟨c', v'⟩ hp'
      simp only [Function.comp, Prod.mk.injEq, true_and]
      by_cases h2 : c' = c
      · subst h2
        have hdd : d' = d := by
          have h1 := lookup_of_mem_nodup hD.groups hg
          have h3 := lookup_of_mem_nodup hD.groups hg'
          rw [h1] at h3
          exact (Option.some.inj h3).symm
        subst hdd
        have hvv : v' = .arr a := by
          have h1 := get?_of_mem (hD.cols _ hg) hp
          have h3 := get?_of_mem (hD.cols _ hg) hp'
          rw [h1] at h3
          exact (Option.some.inj h3).symm
        subst hvv
        simp only [if_true, Put.onCol]
        show Val.arr _ = if Put.Fits _ (maskArr fill (covered os g' c') a) then _ else _
        rw [if_pos hms.1]
        congr 1
        refine Eq.trans ?_ hms.2.symm
        congr 1
        funext i
        simp [covered, List.any_append]
      · simp only [h2, if_false]
        congr 2
        funext i
        simp [covered, List.any_append, Ne.symm h2]
    · simp only [h, if_false]
      apply List.map_congr_left
      rintro ⟨c', v'⟩ -
      simp only [Prod.mk.injEq, true_and]
      congr 2
      funext i
      simp [covered, List.any_append, Ne.symm h]

/-- after any assignments of rows of the tables, in any order, every row that was assigned is there and every other row is as allocated -/
theorem run_masked {fill : Elem K} {D : Tabs K} {n : ℕ} (hD : TabsOk D n) (os0 os : List (Put K))
    (h : ∀ o ∈ os, ∃ s t, s ≤ t ∧ t ≤ n ∧ o ∈ tabOps (chunkTabs D s t) s t) :
    runOps (masked fill D os0) os = .ok (masked fill D (os0 ++ os)) := by
  induction os generalizing os0 with
  | nil => simp [runOps]
  | cons o os ih =>
    obtain ⟨s, t, h1, h2, h3⟩ := h o (by simp)
    unfold runOps
    rw [write_masked hD os0 h1 h2 h3]
    simp only
    rw [ih (os0 ++ [o]) (fun o' ho' => h o' (by simp [ho'])), List.append_assoc]
    rfl

theorem masked_all {fill : Elem K} {D : Tabs K} {n : ℕ} (hD : TabsOk D n) (os : List (Put K))
    (h : ∀ g ∈ D, ∀ p ∈ g.2, ∀ i < n, covered os g.1 p.1 i = true) : masked fill D os = D := by
  unfold masked
  conv_rhs => rw [← List.map_id D]
  apply List.map_congr_left
  rintro ⟨g, d⟩ hg
  simp only [id, Prod.mk.injEq, true_and]
  conv_rhs => rw [← List.map_id d]
  apply List.map_congr_left
  rintro ⟨c, v⟩ hp
  obtain ⟨a, rfl, ha, hh⟩ := hD.arrs _ hg _ hp
  have hs : a.shape ≠ [] := by intro h0; rw [h0] at hh; simp at hh
  have hn : a.nrows = n := by
    cases hsh : a.shape with
    | nil => exact absurd hsh hs
    | cons m r => rw [hsh] at hh; simp only [List.head?_cons, Option.some.injEq] at hh; simp [Arr.nrows, hsh, hh]
  simp only [id, Prod.mk.injEq, true_and]
  show Val.arr (maskArr fill _ a) = Val.arr a
  rw [mask_all fill _ ha hs (by rw [hn]; exact h _ hg _ hp)]

end

end Verif.Lemmas
