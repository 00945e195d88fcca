import Verif.Props.EndToEnd

/-!
# C127: which data a class accepts
-/

set_option linter.unusedSectionVars false
set_option autoImplicit false

namespace Verif.Props.Accept

open Verif Verif.Np Verif.Model Verif.Spec Verif.Lemmas

variable {K : Type} [Field K] [LinearOrder K] [IsStrictOrderedRing K]

/-- an entry that is text -/
def IsText : Elem K → Prop
  | .str _ => True
  | .bytes _ => True
  | _ => False

/-- an array of numbers and text (no truth values), complete -/
structure Plain (a : Arr (Elem K)) : Prop where
  wf : a.Wf
  nobool : ∀ e ∈ a.data, ∀ b, e ≠ .bool b

/-- only these keywords are given -/
def Only (d : Dict K) (names : List String) : Prop := ∀ k ∈ Dict.keys d, k ∈ names

/-! ## All classes -/

theorem known {d : Dict K} {names : List String} (hk : Only d names) : (d.keys.any fun k => k ∉ names) = false := by
  rw [List.any_eq_false]
  intro k hk'
  rw [decide_eq_true_eq]
  exact not_not.2 (hk k hk')

/-- **C127.** A keyword that the class does not know is refused with a `TypeError`, whatever else is given. -/
theorem C127_unknown_keyword (c : RowCls K) (d : Dict K) (h : ¬ Only d (c.metaArgs.map (·.1) ++ c.rowArgs)) :
    rowCreate c d = .error .TypeError := by
  unfold rowCreate
  rw [if_pos]
  unfold Only at h
  push Not at h
  obtain ⟨k, hk, hn⟩ := h
  rw [List.any_eq_true]
  exact ⟨k, hk, by simpa using hn⟩

/-- **C127.** A missing argument without a default is refused with a `TypeError`. -/
theorem C127_missing_argument (c : RowCls K) (d : Dict K) (hk : Only d (c.metaArgs.map (·.1) ++ c.rowArgs))
    (h : (∃ p ∈ c.metaArgs, p.2 = none ∧ p.1 ∉ Dict.keys d) ∨ ((∃ k ∈ c.rowArgs, k ∉ Dict.keys d) ∧
      ∀ k ∈ c.rowArgs, k ∈ Dict.keys d → ∃ a, Dict.get? d k = some (.arr a) ∧ a.shape ≠ [])) :
    rowCreate c d = .error .TypeError := by
  have hknown : (d.keys.any fun k => k ∉ c.metaArgs.map (·.1) ++ c.rowArgs) = false := known hk
  -- the first missing argument is reported
  have first : ∀ {α β : Type} (f : α → Except Err β) (l : List α), (∀ x ∈ l, (∃ y, f x = .ok y) ∨ f x = .error .TypeError) →
      (∃ y, l.mapM f = .ok y) ∨ l.mapM f = .error .TypeError := by
    intro α β f l
    induction l with
    | nil => intro _; exact Or.inl ⟨[], rfl⟩
    | cons x t ih =>
      intro hl
      rcases hl x (by simp) with ⟨y, hy⟩ | hy
      · rcases ih fun z hz => hl z (by simp [hz]) with ⟨r, hr⟩ | hr
        · exact Or.inl ⟨y :: r, by rw [mapM_cons, hy, hr]⟩
        · exact Or.inr (by rw [mapM_cons, hy, hr])
      · exact Or.inr (mapM_error_head f x t _ hy)
  have fails : ∀ {α β : Type} (f : α → Except Err β) (l : List α) (x : α), x ∈ l → f x = .error .TypeError →
      ¬ ∃ y, l.mapM f = .ok y := by
    rintro α β f l x hx hf ⟨y, hy⟩
    have := (mapM_ok_iff _ _ _).1 hy
    obtain ⟨i, hi, rfl⟩ := List.mem_iff_getElem.1 hx
    have := (List.forall₂_iff_get.1 this).2 i hi (by rw [← this.length_eq]; exact hi)
    simp only [List.get_eq_getElem, hf] at this
    simp at this
  have hmeta : (∃ y, c.metaArgs.mapM (argVal d) = .ok y) ∨ c.metaArgs.mapM (argVal d) = .error .TypeError := by
    refine first _ _ fun p _ => ?_
    unfold argVal
    cases Dict.get? d p.1 <;> cases p.2 <;> simp
  unfold rowCreate
  rw [hknown]
  simp only [Bool.false_eq_true, if_false]
  rcases h with ⟨p, hp, hd, hn⟩ | ⟨⟨k, hk, hn⟩, hrest⟩
  · have := fails (argVal d) _ p hp (by unfold argVal; rw [(get?_eq_none_iff d p.1).2 hn, hd])
    rw [hmeta.resolve_left this]
    rfl
  · rcases hmeta with ⟨m, hm⟩ | hm
    · rw [hm]
      have h1 := first (rowArr d) c.rowArgs fun x hx => by
        by_cases hxd : x ∈ Dict.keys d
        · obtain ⟨a, ha, hs⟩ := hrest x hx hxd
          exact Or.inl ⟨a, by unfold rowArr; rw [ha]; simp [hs]⟩
        · exact Or.inr (by unfold rowArr; rw [(get?_eq_none_iff d x).2 hxd])
      have h2 := fails (rowArr d) _ k hk (by unfold rowArr; rw [(get?_eq_none_iff d k).2 hn])
      rw [h1.resolve_left h2]
      rfl
    · rw [hm]; rfl

/-! ## Rows of a table -/

theorem liftRow_ok (f : List K → Option (List K)) (row : List (Elem K)) (hb : ∀ e ∈ row, ∀ b, e ≠ .bool b) :
    ((∀ e ∈ row, ¬ IsText e) → ∃ r, liftRow f row = .ok r) ∧ ((∃ e ∈ row, IsText e) → liftRow f row = .error .TypeError) := by
  have key : allNum row = true ↔ ∀ e ∈ row, ¬ IsText e := by
    unfold allNum
    rw [List.all_eq_true]
    refine forall₂_congr fun e he => ?_
    cases e with
    | num v => simp [IsText]
    | bool b => exact absurd rfl (hb _ he b)
    | str s => simp [IsText]
    | bytes s => simp [IsText]
  constructor
  · intro h
    unfold liftRow
    rw [if_pos (key.2 h)]
    cases finites row with
    | none => exact ⟨_, rfl⟩
    | some r => cases hf : f r with
      | none => exact ⟨nanRow row, by simp only [hf]⟩
      | some r' => exact ⟨nums r', by simp only [hf]⟩
  · rintro ⟨e, he, ht⟩
    unfold liftRow
    rw [if_neg]
    intro h
    exact key.1 h e he ht

/-- the entries of the rows are the entries of the array -/
theorem mem_rows {a : Arr (Elem K)} (hw : a.Wf) (hs : a.shape ≠ []) (e : Elem K) :
    e ∈ a.data ↔ ∃ i < a.shape.dropLast.prod, e ∈ (flat2 a).row i := by
  have := Arr.rows_flatten (flat2 a) (flat2_wf hw hs) (by simp [flat2])
  have hd : (flat2 a).data = a.data := rfl
  rw [← hd, ← this, List.mem_flatten]
  simp only [Arr.rows, List.mem_map, List.mem_range]
  constructor
  · rintro ⟨l, ⟨i, hi, rfl⟩, he⟩
    exact ⟨i, by simpa [flat2, Arr.nrows] using hi, he⟩
  · rintro ⟨i, hi, he⟩
    exact ⟨_, ⟨i, by simpa [flat2, Arr.nrows] using hi, rfl⟩, he⟩

/-- evaluating all rows: all succeed, or the first failure is reported -/
theorem mapM_range_ok {β : Type} (n : ℕ) (f : ℕ → Except Err β) (h : ∀ i < n, ∃ y, f i = .ok y) : ∃ y, (List.range n).mapM f = .ok y := by
  have key : ∀ l : List ℕ, (∀ i ∈ l, ∃ y, f i = .ok y) → ∃ y, l.mapM f = .ok y := by
    intro l
    induction l with
    | nil => intro _; exact ⟨[], rfl⟩
    | cons a t ih =>
      intro hl
      obtain ⟨y, hy⟩ := hl a (by simp)
      obtain ⟨r, hr⟩ := ih fun i hi => hl i (by simp [hi])
      exact ⟨y :: r, by rw [mapM_cons, hy, hr]⟩
  exact key _ fun i hi => h i (List.mem_range.1 hi)

theorem mapM_range_error {β : Type} (n : ℕ) (f : ℕ → Except Err β) (e : Err) (h : ∀ i < n, (∃ y, f i = .ok y) ∨ f i = .error e)
    (hx : ∃ i < n, f i = .error e) : (List.range n).mapM f = .error e := by
  have key : ∀ l : List ℕ, (∀ i ∈ l, (∃ y, f i = .ok y) ∨ f i = .error e) → (∃ i ∈ l, f i = .error e) → l.mapM f = .error e := by
    intro l
    induction l with
    | nil => rintro - ⟨i, hi, -⟩; simp at hi
    | cons a t ih =>
      intro hl ⟨i, hi, hie⟩
      rcases hl a (by simp) with ⟨y, hy⟩ | hy
      · have hit : i ∈ t := by
          rcases List.mem_cons.1 hi with rfl | hit
          · rw [hy] at hie; simp at hie
          · exact hit
        rw [mapM_cons, hy, ih (fun j hj => hl j (by simp [hj])) ⟨i, hit, hie⟩]
      · exact mapM_error_head f a t _ hy
  refine key _ (fun i hi => h i (List.mem_range.1 hi)) ?_
  obtain ⟨i, hi, he⟩ := hx
  exact ⟨i, List.mem_range.2 hi, he⟩

/-- the construction once all arguments are there -/
theorem create_eq (c : RowCls K) (d : Dict K) (hk : Only d (c.metaArgs.map (·.1) ++ c.rowArgs)) {m : Dict K} {rs : List (Arr (Elem K))}
    (hm : c.metaArgs.mapM (argVal d) = .ok m) (hrs : c.rowArgs.mapM (rowArr d) = .ok rs) :
    rowCreate c d =
      if rs.any (fun a => a.shape.dropLast ≠ (rs.headD ⟨[], []⟩).shape.dropLast) then .error c.leadErr
      else if c.rank2 ∧ (rs.headD ⟨[], []⟩).shape.dropLast.length ≠ 1 then .error .Unmodelled
      else if c.needsRows ∧ (rs.headD ⟨[], []⟩).size = 0 then .error .ValueError
      else (do
        let mo ← c.metaOut m
        let ws ← c.widths m (rs.map fun a => a.shape.getLastD 0)
        let out ← (List.range (rs.headD ⟨[], []⟩).shape.dropLast.prod).mapM fun i => c.norm m (pdfRows rs i)
        .ok { metadata := classMeta c.name c.version ++ mo.map fun p => (p.1, .arr p.2.expand0)
              objdata := storeRows c.rowArgs ws out
              npdf := (rs.headD ⟨[], []⟩).shape.dropLast.prod
              shape := (rs.headD ⟨[], []⟩).shape.dropLast }) := by
  have hknown : (d.keys.any fun k => k ∉ c.metaArgs.map (·.1) ++ c.rowArgs) = false := known hk
  unfold rowCreate
  rw [hknown, hm, hrs]
  rfl

/-- a 1-D grid of numbers, as an array or as a list -/
def IsGrid (d : Dict K) (key : String) (l : List K) : Prop := ∃ v, Dict.get? d key = some v ∧ v.toArr = vec l

theorem grid1_of {m : Dict K} {key : String} {v : Val K} {l : List K} (h : Dict.get? m key = some v) (hv : v.toArr = vec l) : grid1 m key = .ok l := by
  unfold grid1
  rw [h]
  simp only [hv]
  simp [vec, finites_nums]

/-! ## Histograms and interpolated PDFs -/

/-- a class with one grid and one table, whose rows are normalised one by one, takes its data under these conditions -/
theorem one_table (c : RowCls K) (g t : String) (width : ℕ → ℕ) (short : ℕ) (f : List K → List K → Option (List K))
    (hma : c.metaArgs = [(g, none), checkInputArg]) (hra : c.rowArgs = [t]) (hnr : c.needsRows = false)
    (hr2 : c.rank2 = false)
    (hmo : ∀ m l, grid1 m g = .ok l → c.metaOut m = if l.length < short then .error .IndexError else .ok [(g, vec l)])
    (hwi : ∀ m l ws, grid1 m g = .ok l → c.widths m ws = if ws = [width l.length] then .ok ws else .error .ValueError)
    (hno : ∀ m l rows, grid1 m g = .ok l → c.norm m rows = rows.mapM (liftRow (f l)))
    (d : Dict K) (l : List K) (a : Arr (Elem K)) (hg : IsGrid d g l) (ht : Dict.get? d t = some (.arr a)) (ha : Plain a)
    (hk : Only d [g, "check_input", t]) :
    (a.shape = [] → rowCreate c d = .error .IndexError) ∧
    (a.shape ≠ [] → l.length < short → rowCreate c d = .error .IndexError) ∧
    (a.shape ≠ [] → short ≤ l.length → a.shape.getLastD 0 ≠ width l.length → rowCreate c d = .error .ValueError) ∧
    (a.shape ≠ [] → short ≤ l.length → a.shape.getLastD 0 = width l.length → (∃ e ∈ a.data, IsText e) → rowCreate c d = .error .TypeError) ∧
    (a.shape ≠ [] → short ≤ l.length → a.shape.getLastD 0 = width l.length → (∀ e ∈ a.data, ¬ IsText e) → ∃ fr, rowCreate c d = .ok fr) := by
  obtain ⟨v, hgv, hv⟩ := hg
  have hk' : Only d (c.metaArgs.map (·.1) ++ c.rowArgs) := by rw [hma, hra]; simpa [checkInputArg] using hk
  obtain ⟨m, hm, hgm⟩ : ∃ m, c.metaArgs.mapM (argVal d) = .ok m ∧ grid1 m g = .ok l := by
    obtain ⟨x, hx⟩ : ∃ x, argVal d (checkInputArg (K := K)) = .ok ("check_input", x) := by
      unfold argVal checkInputArg
      cases Dict.get? d "check_input" with
      | none => exact ⟨_, rfl⟩
      | some x => exact ⟨x, rfl⟩
    refine ⟨[(g, v), ("check_input", x)], ?_, grid1_of (v := v) (by simp [get?_cons]) hv⟩
    rw [hma, mapM_cons, mapM_cons, hx]
    have : argVal d (g, none) = .ok (g, v) := by unfold argVal; simp only [hgv]
    rw [this]
    rfl
  by_cases hs : a.shape = []
  · refine ⟨fun _ => ?_, fun h => absurd hs h, fun h => absurd hs h, fun h => absurd hs h, fun h => absurd hs h⟩
    have hknown : (d.keys.any fun k => k ∉ c.metaArgs.map (·.1) ++ c.rowArgs) = false := known hk'
    unfold rowCreate
    rw [hknown, hm, hra]
    have : rowArr d t = .error .IndexError := by unfold rowArr; rw [ht]; simp [hs]
    rw [mapM_error_head _ _ _ _ this]
    rfl
  · have hrs : c.rowArgs.mapM (rowArr d) = .ok [a] := by
      have : rowArr d t = .ok a := by unfold rowArr; rw [ht]; simp [hs]
      rw [hra, mapM_cons, this]
      rfl
    have e := create_eq c d hk' hm hrs
    simp only [List.any_cons, List.any_nil, List.headD_cons, ne_eq, not_true_eq_false, decide_false, Bool.or_false, Bool.false_eq_true, if_false,
      hnr, hr2, false_and, hmo m l hgm, hwi m l _ hgm, List.map_cons, List.map_nil, hno m l _ hgm] at e
    refine ⟨fun h => absurd h hs, fun _ hl => ?_, fun _ hl hw => ?_, fun _ hl hw htx => ?_, fun _ hl hw htx => ?_⟩
    · rw [e, if_pos hl]; rfl
    · rw [e, if_neg (by omega), if_neg (by simpa using hw)]; rfl
    · obtain ⟨x, hx, hxt⟩ := htx
      obtain ⟨i, hi, hxi⟩ := (mem_rows ha.wf hs x).1 hx
      rw [e, if_neg (by omega), if_pos (by simpa using hw)]
      simp only [Bind.bind, Except.bind]
      rw [mapM_range_error (e := .TypeError)]
      · intro j hj
        have hlr := liftRow_ok (f l) ((flat2 a).row j) fun y hy => ha.nobool y ((mem_rows ha.wf hs y).2 ⟨j, hj, hy⟩)
        by_cases hall : ∀ y ∈ (flat2 a).row j, ¬ IsText y
        · obtain ⟨r, hr⟩ := hlr.1 hall
          exact Or.inl ⟨[r], by simp only [pdfRows, List.map_cons, List.map_nil, mapM_cons, hr]; rfl⟩
        · push Not at hall
          exact Or.inr (mapM_error_head _ _ _ _ (hlr.2 hall))
      · have hlr := liftRow_ok (f l) ((flat2 a).row i) fun y hy => ha.nobool y ((mem_rows ha.wf hs y).2 ⟨i, hi, hy⟩)
        exact ⟨i, hi, mapM_error_head _ _ _ _ (hlr.2 ⟨x, hxi, hxt⟩)⟩
    · rw [e, if_neg (by omega), if_pos (by simpa using hw)]
      obtain ⟨out, hout⟩ := mapM_range_ok a.shape.dropLast.prod (fun i => (pdfRows [a] i).mapM (liftRow (f l))) (fun j hj => by
        have hlr := liftRow_ok (f l) ((flat2 a).row j) fun y hy => ha.nobool y ((mem_rows ha.wf hs y).2 ⟨j, hj, hy⟩)
        obtain ⟨r, hr⟩ := hlr.1 fun y hy => htx y ((mem_rows ha.wf hs y).2 ⟨j, hj, hy⟩)
        exact ⟨[r], by simp only [pdfRows, List.map_cons, List.map_nil, mapM_cons, hr]; rfl⟩)
      simp only [Bind.bind, Except.bind]
      rw [hout]
      exact ⟨_, rfl⟩

/-- **C127: histograms.** With bins (one line of numbers) and heights (any array of numbers or text) given, an ensemble is built exactly when there is
an edge, the heights have at least one axis, one height per bin, and no text among them. Otherwise: `IndexError` without edges or axes,
`ValueError` for the wrong number of heights, `TypeError` for text.
Missing in this theorem and those for the other classes: that what is accepted is a probability distribution (false, `C127_accepts_invalid`). -/
theorem C127_hist_partial (d : Dict K) (bins : List K) (a : Arr (Elem K)) (hb : IsGrid d "bins" bins) (ha : Dict.get? d "pdfs" = some (.arr a)) (hp : Plain a)
    (hk : Only d ["bins", "check_input", "pdfs"]) :
    ((∃ fr, rowCreate histCls d = .ok fr) ↔ bins ≠ [] ∧ a.shape ≠ [] ∧ a.shape.getLastD 0 = bins.length - 1 ∧ ∀ e ∈ a.data, ¬ IsText e) ∧
    ((a.shape = [] ∨ bins = []) → rowCreate histCls d = .error .IndexError) ∧
    (a.shape ≠ [] → bins ≠ [] → a.shape.getLastD 0 ≠ bins.length - 1 → rowCreate histCls d = .error .ValueError) ∧
    (a.shape ≠ [] → bins ≠ [] → a.shape.getLastD 0 = bins.length - 1 → (∃ e ∈ a.data, IsText e) → rowCreate histCls d = .error .TypeError) := by
  obtain ⟨h1, h2, h3, h4, h5⟩ := one_table (histCls (K := K)) "bins" "pdfs" (· - 1) 1 histNormRow rfl rfl rfl rfl
    (fun m l hl => by
      simp only [histCls, hl, Bind.bind, Except.bind]
      cases l <;> simp)
    (fun m l ws hl => by simp only [histCls, hl, Bind.bind, Except.bind]) (fun m l rows hl => by simp only [histCls, hl, Bind.bind, Except.bind])
    d bins a hb ha hp hk
  have hlen : bins ≠ [] ↔ 1 ≤ bins.length := by rw [Nat.one_le_iff_ne_zero, ne_eq, ne_eq, List.length_eq_zero_iff]
  have e2 : (a.shape = [] ∨ bins = []) → rowCreate histCls d = .error .IndexError := by
    intro h
    by_cases hs : a.shape = []
    · exact h1 hs
    · exact h2 hs (by rw [h.resolve_left hs]; simp)
  have e3 : a.shape ≠ [] → bins ≠ [] → a.shape.getLastD 0 ≠ bins.length - 1 → rowCreate histCls d = .error .ValueError :=
    fun hs hn hw => h3 hs (hlen.1 hn) hw
  have e4 : a.shape ≠ [] → bins ≠ [] → a.shape.getLastD 0 = bins.length - 1 → (∃ e ∈ a.data, IsText e) →
      rowCreate histCls d = .error .TypeError := fun hs hn hw => h4 hs (hlen.1 hn) hw
  refine ⟨⟨?_, fun ⟨hn, hs, hw, ht⟩ => h5 hs (hlen.1 hn) hw ht⟩, e2, e3, e4⟩
  rintro ⟨fr, hfr⟩
  by_contra hcon
  have hs : a.shape ≠ [] := fun h => by rw [e2 (Or.inl h)] at hfr; simp at hfr
  have hn : bins ≠ [] := fun h => by rw [e2 (Or.inr h)] at hfr; simp at hfr
  have hw : a.shape.getLastD 0 = bins.length - 1 := by
    by_contra h
    rw [e3 hs hn h] at hfr; simp at hfr
  refine hcon ⟨hn, hs, hw, fun e he ht => ?_⟩
  rw [e4 hs hn hw ⟨e, he, ht⟩] at hfr; simp at hfr

/-- **C127: interpolated PDFs** are built exactly when there are two grid points, the ordinates have an axis, one ordinate per grid point and
no text. One thing wrong: `IndexError` for less than two grid points or no axis, `ValueError` for the number of ordinates, `TypeError` for text.
Missing: as in `C127_hist_partial`. -/
theorem C127_interp_partial (d : Dict K) (xs : List K) (a : Arr (Elem K)) (hb : IsGrid d "xvals" xs) (ha : Dict.get? d "yvals" = some (.arr a)) (hp : Plain a)
    (hk : Only d ["xvals", "check_input", "yvals"]) :
    ((∃ fr, rowCreate interpCls d = .ok fr) ↔ 2 ≤ xs.length ∧ a.shape ≠ [] ∧ a.shape.getLastD 0 = xs.length ∧ ∀ e ∈ a.data, ¬ IsText e) ∧
    ((a.shape = [] ∨ (xs.length < 2 ∧ a.shape.getLastD 0 = xs.length ∧ ∀ e ∈ a.data, ¬ IsText e)) → rowCreate interpCls d = .error .IndexError) ∧
    (a.shape ≠ [] → 2 ≤ xs.length → a.shape.getLastD 0 ≠ xs.length → rowCreate interpCls d = .error .ValueError) ∧
    (a.shape ≠ [] → 2 ≤ xs.length → a.shape.getLastD 0 = xs.length → (∃ e ∈ a.data, IsText e) → rowCreate interpCls d = .error .TypeError) := by
  obtain ⟨h1, h2, h3, h4, h5⟩ := one_table (interpCls (K := K)) "xvals" "yvals" id 2 interpNorm rfl rfl rfl rfl
    (fun m l hl => by simp only [interpCls, hl, Bind.bind, Except.bind])
    (fun m l ws hl => by simp only [interpCls, hl, Bind.bind, Except.bind, id]) (fun m l rows hl => by simp only [interpCls, hl, Bind.bind, Except.bind])
    d xs a hb ha hp hk
  have e2 : (a.shape = [] ∨ xs.length < 2) → rowCreate interpCls d = .error .IndexError := by
    intro h
    by_cases hs : a.shape = []
    · exact h1 hs
    · exact h2 hs (h.resolve_left hs)
  refine ⟨⟨?_, fun ⟨hn, hs, hw, ht⟩ => h5 hs hn hw ht⟩, fun h => e2 (h.imp id And.left), h3, h4⟩
  rintro ⟨fr, hfr⟩
  by_contra hcon
  have hs : a.shape ≠ [] := fun h => by rw [e2 (Or.inl h)] at hfr; simp at hfr
  have hn : 2 ≤ xs.length := by
    by_contra h
    rw [e2 (Or.inr (by omega))] at hfr; simp at hfr
  have hw : a.shape.getLastD 0 = xs.length := by
    by_contra h
    rw [h3 hs hn h] at hfr; simp at hfr
  refine hcon ⟨hn, hs, hw, fun e he ht => ?_⟩
  rw [h4 hs hn hw ⟨e, he, ht⟩] at hfr; simp at hfr

/-! ## Grids of their own, mixtures and splines -/

theorem allNum_iff (row : List (Elem K)) (hb : ∀ e ∈ row, ∀ b, e ≠ .bool b) : allNum row = true ↔ ∀ e ∈ row, ¬ IsText e := by
  unfold allNum
  rw [List.all_eq_true]
  refine forall₂_congr fun e he => ?_
  cases e with
  | num v => simp [IsText]
  | bool b => exact absurd rfl (hb _ he b)
  | str s => simp [IsText]
  | bytes s => simp [IsText]

theorem irrNorm_ok (xs ys : List (Elem K)) (hx : ∀ e ∈ xs, ∀ b, e ≠ .bool b) (hy : ∀ e ∈ ys, ∀ b, e ≠ .bool b) :
    ((∀ e ∈ xs ++ ys, ¬ IsText e) → ∃ r, irrNorm xs ys = .ok r) ∧ ((∃ e ∈ xs ++ ys, IsText e) → irrNorm xs ys = .error .TypeError) := by
  unfold irrNorm
  cases hf : finites xs with
  | some x =>
    have hxn : ∀ e ∈ xs, ¬ IsText e := by
      rw [finites_some_iff] at hf
      rw [hf]
      intro e he
      obtain ⟨v, -, rfl⟩ := List.mem_map.1 he
      simp [IsText]
    have := liftRow_ok (irrNormRow x) ys hy
    refine ⟨fun h => this.1 fun e he => h e (by simp [he]), fun ⟨e, he, ht⟩ => this.2 ⟨e, ?_, ht⟩⟩
    rcases List.mem_append.1 he with he | he
    · exact absurd ht (hxn e he)
    · exact he
  | none =>
    simp only
    constructor
    · intro h
      rw [if_pos ⟨(allNum_iff xs hx).2 fun e he => h e (by simp [he]), (allNum_iff ys hy).2 fun e he => h e (by simp [he])⟩]
      exact ⟨_, rfl⟩
    · rintro ⟨e, he, ht⟩
      rw [if_neg]
      rintro ⟨h1, h2⟩
      rcases List.mem_append.1 he with he | he
      · exact (allNum_iff xs hx).1 h1 e he ht
      · exact (allNum_iff ys hy).1 h2 e he ht

/-- the arguments of a class whose first required arguments are all tables -/
theorem two_tables_args (d : Dict K) {x y : Arr (Elem K)} {s t : String} (hx : Dict.get? d s = some (.arr x)) (hy : Dict.get? d t = some (.arr y))
    (hxs : x.shape ≠ []) (hys : y.shape ≠ []) : [s, t].mapM (rowArr d) = .ok [x, y] := by
  have e1 : rowArr d s = .ok x := by unfold rowArr; rw [hx]; simp [hxs]
  have e2 : rowArr d t = .ok y := by unfold rowArr; rw [hy]; simp [hys]
  rw [mapM_cons, mapM_cons, e1, e2]
  rfl

theorem irr_meta (d : Dict K) : ∃ m, (irrCls (K := K)).metaArgs.mapM (argVal d) = .ok m := by
  obtain ⟨x, hx⟩ : ∃ x, argVal d (checkInputArg (K := K)) = .ok ("check_input", x) := by
    unfold argVal checkInputArg
    cases Dict.get? d "check_input" with
    | none => exact ⟨_, rfl⟩
    | some x => exact ⟨x, rfl⟩
  exact ⟨[("check_input", x)], by simp only [irrCls, mapM_cons, hx]; rfl⟩

/-- **C127: PDFs on grids of their own** (grids and ordinates with at least one axis) are built exactly when both have the same shape, there is
something, and nothing is text. Different shapes, and no entries at all: `ValueError`; text: `TypeError`.
Missing: as in `C127_hist_partial`. -/
theorem C127_irregular_partial (d : Dict K) (x y : Arr (Elem K)) (hx : Dict.get? d "xvals" = some (.arr x)) (hy : Dict.get? d "yvals" = some (.arr y))
    (hxp : Plain x) (hyp : Plain y) (hxs : x.shape ≠ []) (hys : y.shape ≠ []) (hk : Only d ["check_input", "xvals", "yvals"]) :
    ((∃ fr, rowCreate irrCls d = .ok fr) ↔ x.shape = y.shape ∧ x.size ≠ 0 ∧ ∀ e ∈ x.data ++ y.data, ¬ IsText e) ∧
    ((x.shape ≠ y.shape ∨ x.size = 0) → rowCreate irrCls d = .error .ValueError) ∧
    (x.shape = y.shape → x.size ≠ 0 → (∃ e ∈ x.data ++ y.data, IsText e) → rowCreate irrCls d = .error .TypeError) := by
  obtain ⟨m, hm⟩ := irr_meta d
  have e := create_eq (irrCls (K := K)) d hk hm (two_tables_args d hx hy hxs hys)
  simp only [List.any_cons, List.any_nil, List.headD_cons, ne_eq, not_true_eq_false, decide_false, Bool.or_false, Bool.false_or,
    List.map_cons, List.map_nil] at e
  have hshape : x.shape = y.shape ↔ y.shape.dropLast = x.shape.dropLast ∧ x.shape.getLastD 0 = y.shape.getLastD 0 := by
    constructor
    · intro h; rw [h]; exact ⟨rfl, rfl⟩
    · rintro ⟨h1, h2⟩
      rw [← List.dropLast_append_getLast hxs, ← List.dropLast_append_getLast hys, h1]
      simp only [List.getLastD_eq_getLast?, List.getLast?_eq_getLast_of_ne_nil hxs, List.getLast?_eq_getLast_of_ne_nil hys, Option.getD_some] at h2
      rw [h2]
  have hval : (x.shape ≠ y.shape ∨ x.size = 0) → rowCreate irrCls d = .error .ValueError := by
    intro h
    rw [e]
    split_ifs with h1 h2 h3
    · rfl
    · simp [irrCls] at h2
    · rfl
    · have hsz : x.size ≠ 0 := fun h0 => h3 ⟨rfl, h0⟩
      have hne := h.resolve_right hsz
      have hw : x.shape.getLastD 0 ≠ y.shape.getLastD 0 := fun hw => hne (hshape.2 ⟨not_not.1 fun hc => h1 (@decide_eq_true _ (_) hc), hw⟩)
      simp only [irrCls, Bind.bind, Except.bind, if_neg hw]
  have hrow : x.shape = y.shape → x.size ≠ 0 → rowCreate (irrCls (K := K)) d = (do
      let out ← (List.range x.shape.dropLast.prod).mapM fun i => do
        let r ← irrNorm ((flat2 x).row i) ((flat2 y).row i)
        .ok [(flat2 x).row i, r]
      .ok { metadata := classMeta "interp_irregular" 0, objdata := storeRows ["xvals", "yvals"] [x.shape.getLastD 0, y.shape.getLastD 0] out
            npdf := x.shape.dropLast.prod, shape := x.shape.dropLast }) := by
    intro hs hsz
    obtain ⟨h1, h2⟩ := hshape.1 hs
    rw [e, if_neg (by rw [h1]; simp), if_neg (by simp [irrCls]), if_neg (fun h => hsz h.2)]
    simp only [irrCls, Bind.bind, Except.bind, if_pos h2, pdfRows, List.map_cons, List.map_nil, List.append_nil]
  have hb : x.shape = y.shape → ∀ i < x.shape.dropLast.prod,
      (∀ e ∈ (flat2 x).row i, ∀ b, e ≠ .bool b) ∧ ∀ e ∈ (flat2 y).row i, ∀ b, e ≠ .bool b := by
    intro hs i hi
    exact ⟨fun e he => hxp.nobool e ((mem_rows hxp.wf hxs e).2 ⟨i, hi, he⟩),
      fun e he => hyp.nobool e ((mem_rows hyp.wf hys e).2 ⟨i, by rw [← hs]; exact hi, he⟩)⟩
  have htext : x.shape = y.shape → x.size ≠ 0 → (∃ e ∈ x.data ++ y.data, IsText e) → rowCreate irrCls d = .error .TypeError := by
    intro hs hsz ⟨z, hz, ht⟩
    rw [hrow hs hsz]
    obtain ⟨i, hi, hzi⟩ : ∃ i < x.shape.dropLast.prod, z ∈ (flat2 x).row i ++ (flat2 y).row i := by
      rcases List.mem_append.1 hz with hz | hz
      · obtain ⟨i, hi, h⟩ := (mem_rows hxp.wf hxs z).1 hz
        exact ⟨i, hi, by simp [h]⟩
      · obtain ⟨i, hi, h⟩ := (mem_rows hyp.wf hys z).1 hz
        exact ⟨i, by rw [hs]; exact hi, by simp [h]⟩
    rw [mapM_range_error (e := .TypeError)]
    · rfl
    · intro j hj
      have hi := irrNorm_ok _ _ (hb hs j hj).1 (hb hs j hj).2
      by_cases hall : ∀ e ∈ (flat2 x).row j ++ (flat2 y).row j, ¬ IsText e
      · obtain ⟨r, hr⟩ := hi.1 hall
        exact Or.inl ⟨_, by rw [hr]; rfl⟩
      · push Not at hall
        exact Or.inr (by rw [hi.2 hall]; rfl)
    · exact ⟨i, hi, by rw [(irrNorm_ok _ _ (hb hs i hi).1 (hb hs i hi).2).2 ⟨z, hzi, ht⟩]; rfl⟩
  refine ⟨⟨?_, ?_⟩, hval, htext⟩
  · rintro ⟨fr, hfr⟩
    have hs : x.shape = y.shape := by
      by_contra h
      rw [hval (Or.inl h)] at hfr; simp at hfr
    have hsz : x.size ≠ 0 := fun h => by rw [hval (Or.inr h)] at hfr; simp at hfr
    exact ⟨hs, hsz, fun z hz ht => by rw [htext hs hsz ⟨z, hz, ht⟩] at hfr; simp at hfr⟩
  · rintro ⟨hs, hsz, ht⟩
    rw [hrow hs hsz]
    obtain ⟨out, hout⟩ := mapM_range_ok x.shape.dropLast.prod (fun i => do
        let r ← irrNorm ((flat2 x).row i) ((flat2 y).row i)
        (.ok [(flat2 x).row i, r] : Except Err (List (List (Elem K))))) (fun j hj => by
      obtain ⟨r, hr⟩ := (irrNorm_ok _ _ (hb hs j hj).1 (hb hs j hj).2).1 fun z hz => ht z (by
        rcases List.mem_append.1 hz with hz | hz
        · exact List.mem_append_left _ ((mem_rows hxp.wf hxs z).2 ⟨j, hj, hz⟩)
        · exact List.mem_append_right _ ((mem_rows hyp.wf hys z).2 ⟨j, by rw [← hs]; exact hj, hz⟩))
      exact ⟨_, by rw [hr]; rfl⟩)
    rw [hout]
    exact ⟨_, rfl⟩

/-- **C127: mixtures** of numbers, with means, widths and weights of one shape, are built exactly when no weight is negative (`ValueError`
otherwise).
Missing: as in `C127_hist_partial`. -/
theorem C127_mixture_partial (d : Dict K) (mu sd w : Arr (Elem K)) (h1 : Dict.get? d "means" = some (.arr mu)) (h2 : Dict.get? d "stds" = some (.arr sd))
    (h3 : Dict.get? d "weights" = some (.arr w)) (hs : mu.shape ≠ []) (hsd : sd.shape = mu.shape) (hw : w.shape = mu.shape) (hwp : Plain w)
    (hwt : ∀ e ∈ w.data, ¬ IsText e) (hk : Only d ["means", "stds", "weights"]) :
    ((∃ fr, rowCreate mixCls d = .ok fr) ↔ ∀ v : K, Elem.num (some v) ∈ w.data → 0 ≤ v) ∧
    (¬ (∀ v : K, Elem.num (some v) ∈ w.data → 0 ≤ v) → rowCreate mixCls d = .error .ValueError) := by
  have hrs : (mixCls (K := K)).rowArgs.mapM (rowArr d) = .ok [mu, sd, w] := by
    have e1 : rowArr d "means" = .ok mu := by unfold rowArr; rw [h1]; simp [hs]
    have e2 : rowArr d "stds" = .ok sd := by unfold rowArr; rw [h2]; simp [hsd, hs]
    have e3 : rowArr d "weights" = .ok w := by unfold rowArr; rw [h3]; simp [hw, hs]
    simp only [mixCls, mapM_cons, e1, e2, e3]
    rfl
  have e := create_eq (mixCls (K := K)) d hk (m := []) rfl hrs
  have hany : ([mu, sd, w].any fun a => decide (a.shape.dropLast ≠ ([mu, sd, w].headD ⟨[], []⟩).shape.dropLast)) = false := by simp [hsd, hw]
  rw [hany] at e
  simp only [Bool.false_eq_true, if_false, List.headD_cons, List.map_cons, List.map_nil, hsd, hw] at e
  rw [if_neg (by simp [mixCls]), if_neg (by simp [mixCls])] at e
  have e' : rowCreate mixCls d = (do
      let out ← (List.range mu.shape.dropLast.prod).mapM fun i => (mixCls (K := K)).norm [] (pdfRows [mu, sd, w] i)
      .ok { metadata := classMeta "mixmod" 0
            objdata := storeRows ["means", "stds", "weights"] [mu.shape.getLastD 0, mu.shape.getLastD 0, mu.shape.getLastD 0] out
            npdf := mu.shape.dropLast.prod, shape := mu.shape.dropLast }) := by
    rw [e]
    simp only [mixCls, Bind.bind, Except.bind, and_self, if_true, List.map_nil, List.append_nil]
  have hws : w.shape ≠ [] := by rw [hw]; exact hs
  have hnorm : ∀ i < mu.shape.dropLast.prod,
      ((∀ v : K, Elem.num (some v) ∈ (flat2 w).row i → 0 ≤ v) → ∃ r, mixCls.norm [] (pdfRows [mu, sd, w] i) = .ok r) ∧
      (¬ (∀ v : K, Elem.num (some v) ∈ (flat2 w).row i → 0 ≤ v) → mixCls.norm [] (pdfRows [mu, sd, w] i) = .error .ValueError) := by
    intro i hi
    have hin : ∀ z ∈ (flat2 w).row i, z ∈ w.data := fun z hz => (mem_rows hwp.wf hws z).2 ⟨i, by rw [hw]; exact hi, hz⟩
    have hneg : ((flat2 w).row i).any Elem.neg = true ↔ ¬ ∀ v : K, Elem.num (some v) ∈ (flat2 w).row i → 0 ≤ v := by
      rw [List.any_eq_true]
      push Not
      constructor
      · rintro ⟨z, hz, hn⟩
        match z, hz, hn with
        | .num (some v), hz, hn => exact ⟨v, hz, by simpa [Elem.neg] using hn⟩
      · rintro ⟨v, hv, hn⟩
        exact ⟨_, hv, by simpa [Elem.neg] using hn⟩
    obtain ⟨r, hr⟩ := (liftRow_ok mixNormRow ((flat2 w).row i) fun z hz => hwp.nobool z (hin z hz)).1 fun z hz => hwt z (hin z hz)
    constructor
    · intro h
      have : ¬ ((flat2 w).row i).any Elem.neg = true := fun hc => hneg.1 hc h
      exact ⟨[(flat2 mu).row i, (flat2 sd).row i, r], by
        simp only [mixCls, pdfRows, List.map_cons, List.map_nil, if_neg this, hr]; rfl⟩
    · intro h
      simp only [mixCls, pdfRows, List.map_cons, List.map_nil, if_pos (hneg.2 h)]
  have hdata : (∀ v : K, Elem.num (some v) ∈ w.data → 0 ≤ v) ↔
      ∀ i < mu.shape.dropLast.prod, ∀ v : K, Elem.num (some v) ∈ (flat2 w).row i → 0 ≤ v := by
    constructor
    · intro h i hi v hv
      exact h v ((mem_rows hwp.wf hws _).2 ⟨i, by rw [hw]; exact hi, hv⟩)
    · intro h v hv
      obtain ⟨i, hi, hv⟩ := (mem_rows hwp.wf hws _).1 hv
      exact h i (by rw [← hw]; exact hi) v hv
  have hbad : ¬ (∀ v : K, Elem.num (some v) ∈ w.data → 0 ≤ v) → rowCreate mixCls d = .error .ValueError := by
    intro h
    rw [hdata] at h
    push Not at h
    obtain ⟨i, hi, v, hv, hneg⟩ := h
    rw [e', mapM_range_error (e := .ValueError)]
    · rfl
    · intro j hj
      by_cases hj' : ∀ v : K, Elem.num (some v) ∈ (flat2 w).row j → 0 ≤ v
      · exact Or.inl ((hnorm j hj).1 hj')
      · exact Or.inr ((hnorm j hj).2 hj')
    · exact ⟨i, hi, (hnorm i hi).2 fun hc => absurd (hc v hv) (not_le.2 hneg)⟩
  refine ⟨⟨fun ⟨fr, hfr⟩ => ?_, fun h => ?_⟩, hbad⟩
  · by_contra hc
    rw [hbad hc] at hfr; simp at hfr
  · rw [e']
    obtain ⟨out, hout⟩ := mapM_range_ok mu.shape.dropLast.prod (fun i => mixCls.norm [] (pdfRows [mu, sd, w] i))
      (fun i hi => (hnorm i hi).1 (hdata.1 h i hi))
    rw [hout]
    exact ⟨_, rfl⟩

/-! ## What is not checked -/

/-- **C127 is violated: data that are not distributions are accepted.** Negative heights (stored, integrating to one), decreasing edges, heights
that are all zero (stored as nan); and quantile locations in the wrong order. -/
theorem C127_accepts_invalid :
    (rowCreate (histCls (K := ℚ)) [("bins", .arr (vec [0, 1, 2])), ("pdfs", .arr ⟨[1, 2], nums [2, -1]⟩)]).map (fun fr => fr.objdata) =
        .ok [("pdfs", .arr ⟨[1, 2], nums [2, -1]⟩)] ∧
      (rowCreate (histCls (K := ℚ)) [("bins", .arr (vec [2, 1, 0])), ("pdfs", .arr ⟨[1, 2], nums [1, 1]⟩)]).map (fun fr => fr.objdata) =
        .ok [("pdfs", .arr ⟨[1, 2], nums [-1/2, -1/2]⟩)] ∧
      (rowCreate (histCls (K := ℚ)) [("bins", .arr (vec [0, 1, 2])), ("pdfs", .arr ⟨[1, 2], nums [0, 0]⟩)]).map (fun fr => fr.objdata) =
        .ok [("pdfs", .arr ⟨[1, 2], [.num none, .num none]⟩)] ∧
      (rowCreate (quantCls (K := ℚ)) [("quants", .arr (vec [0, 1/2, 1])), ("locs", .arr ⟨[1, 3], nums [3, 2, 1]⟩)]).map (fun fr => fr.objdata) =
        .ok [("locs", .arr ⟨[1, 3], nums [3, 2, 1]⟩)] := by
  refine ⟨by decide +kernel, by decide +kernel, by decide +kernel, by decide +kernel⟩

/-- **C56: conversions without the points to convert at.** The bins, grid points or quantiles of a conversion have no default: without them it
raises `ValueError`, and conversion to packed PDFs without a packing type raises `KeyError`. -/
theorem C56_missing_keyword (ev : Evals K) (pack : Val K → List (Elem K) → Except Err (List (Elem K) × Elem K)) (e : Ens K) (kwds : Dict K) :
    ("bins" ∉ Dict.keys kwds → convertTo (histPy ev) e none kwds = .error .ValueError) ∧
    ("xvals" ∉ Dict.keys kwds → convertTo (interpPy ev) e none kwds = .error .ValueError ∧
      convertTo (irrPy ev) e none kwds = .error .ValueError ∧
      ("packing_type" ∈ Dict.keys kwds → convertTo (packedPy pack ev) e none kwds = .error .ValueError)) ∧
    ("quants" ∉ Dict.keys kwds → convertTo (quantPy ev) e none kwds = .error .ValueError) ∧
    ("packing_type" ∉ Dict.keys kwds → convertTo (packedPy pack ev) e none kwds = .error .KeyError) := by
  refine ⟨fun h => ?_, fun h => ⟨?_, ?_, fun hp => ?_⟩, fun h => ?_, fun h => ?_⟩
  · have := (get?_eq_none_iff kwds "bins").2 h
    show (extractHistValues ev e kwds >>= _) = _
    simp only [extractHistValues, needKwd, this, Bind.bind, Except.bind]
  · have := (get?_eq_none_iff kwds "xvals").2 h
    show (extractValsAtX ev e kwds >>= _) = _
    simp only [extractValsAtX, needKwd, this, Bind.bind, Except.bind]
  · have := (get?_eq_none_iff kwds "xvals").2 h
    show (extractXyVals ev e kwds >>= _) = _
    simp only [extractXyVals, needKwd, this, Bind.bind, Except.bind]
  · have h0 := (get?_eq_none_iff kwds "xvals").2 h
    obtain ⟨p, hp⟩ := (get?_isSome_iff kwds "packing_type").2 hp
    show (extractPacked pack ev e kwds >>= _) = _
    simp only [extractPacked, hp, h0, Bind.bind, Except.bind]
  · have := (get?_eq_none_iff kwds "quants").2 h
    show (extractQuantiles ev e kwds >>= _) = _
    simp only [extractQuantiles, needKwd, this, Bind.bind, Except.bind]
  · have := (get?_eq_none_iff kwds "packing_type").2 h
    show (extractPacked pack ev e kwds >>= _) = _
    simp only [extractPacked, this, Bind.bind, Except.bind]

/-! ## Examples -/

theorem qplain (s : List ℕ) (l : List ℚ) (h : l.length = s.prod) : Plain (⟨s, nums l⟩ : Arr (Elem ℚ)) :=
  ⟨by simpa [Arr.Wf, nums] using h, by simp [nums]⟩

/-- six histograms in a 2 x 3 arrangement -/
example : ∃ fr, rowCreate (histCls (K := ℚ)) [("bins", .lst (nums [0, 1, 2])),
    ("pdfs", .arr ⟨[2, 3, 2], nums [1, 2, 3, 4, 5, 6, 7, 8, 9, 10, 11, 12]⟩)] = .ok fr :=
  (C127_hist_partial _ [0, 1, 2] _ ⟨_, rfl, rfl⟩ rfl (qplain _ _ rfl) (by unfold Only Dict.keys; decide)).1.2
    ⟨by simp, by simp, rfl, by simp [nums, IsText]⟩

/-- text among the heights, and a height too many -/
example : rowCreate (histCls (K := ℚ)) [("bins", .arr (vec [0, 1])), ("pdfs", .arr ⟨[1, 1], [.str "high"]⟩)] = .error .TypeError :=
  (C127_hist_partial _ [0, 1] ⟨[1, 1], [.str "high"]⟩ ⟨_, rfl, rfl⟩ rfl ⟨by simp [Arr.Wf], by simp⟩ (by unfold Only Dict.keys; decide)).2.2.2 (by simp) (by simp) rfl
    ⟨.str "high", by simp, trivial⟩

example : rowCreate (interpCls (K := ℚ)) [("xvals", .arr (vec [0, 1])), ("yvals", .arr ⟨[1, 3], nums [1, 2, 3]⟩)] = .error .ValueError :=
  (C127_interp_partial _ [0, 1] _ ⟨_, rfl, rfl⟩ rfl (qplain _ _ rfl) (by unfold Only Dict.keys; decide)).2.2.1 (by simp) (by simp) (by decide)

/-- grids of their own -/
example : ∃ fr, rowCreate (irrCls (K := ℚ)) [("xvals", .arr ⟨[2, 2], nums [0, 1, 5, 6]⟩), ("yvals", .arr ⟨[2, 2], nums [1, 2, 3, 4]⟩)] = .ok fr :=
  (C127_irregular_partial _ ⟨[2, 2], nums [0, 1, 5, 6]⟩ ⟨[2, 2], nums [1, 2, 3, 4]⟩ rfl rfl (qplain _ _ rfl) (qplain _ _ rfl) (by simp) (by simp) (by unfold Only Dict.keys; decide)).1.2
    ⟨rfl, by decide, by simp [nums, IsText]⟩

/-- a negative weight -/
example : rowCreate (mixCls (K := ℚ)) [("means", .arr ⟨[1, 2], nums [0, 1]⟩), ("stds", .arr ⟨[1, 2], nums [1, 1]⟩),
    ("weights", .arr ⟨[1, 2], nums [2, -1]⟩)] = .error .ValueError :=
  (C127_mixture_partial _ ⟨[1, 2], nums [0, 1]⟩ ⟨[1, 2], nums [1, 1]⟩ ⟨[1, 2], nums [2, -1]⟩ rfl rfl rfl (by simp) rfl rfl (qplain _ _ rfl) (by simp [nums, IsText]) (by unfold Only Dict.keys; decide)).2
    (fun h => absurd (h (-1) (by simp [nums])) (by norm_num))

/-- heights forgotten -/
example : rowCreate (histCls (K := ℚ)) [("bins", .arr (vec [0, 1]))] = .error .TypeError :=
  C127_missing_argument _ _ (by unfold Only Dict.keys; simp [histCls, checkInputArg]) (Or.inr ⟨⟨"pdfs", by simp [histCls], by simp [Dict.keys]⟩,
    by simp [histCls, Dict.keys]⟩)

end Verif.Props.Accept
