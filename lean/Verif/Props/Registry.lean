import Verif.Model.Registry
import Mathlib.Tactic.Tauto

/-!
# C54 Class registry, C55 Method lookup

The specification of a registry or method table is the history itself: the first entry of the history with the key.
-/

set_option linter.unusedSectionVars false
set_option autoImplicit false

namespace Verif.Props.Registry

open Verif Verif.Model

variable {α : Type}

/-! ## C55 -/

/-- the table after a history of registrations -/
def registered (hist : List (Option String × α)) : Methods α := hist.foldl (fun m r => m.add r.1 r.2) []

theorem lookup_add (m : Methods α) (k key : Option String) (v : α) :
    (m.add k v).lookup key = (m.lookup key).or (if key = k then some v else none) := by
  unfold Methods.add
  by_cases h : key = k
  · subst h
    by_cases h2 : (m.lookup key).isSome
    · rw [if_pos h2]
      obtain ⟨w, hw⟩ := Option.isSome_iff_exists.1 h2
      simp [hw]
    · rw [if_neg h2]
      simp only [Option.not_isSome_iff_eq_none] at h2
      rw [List.lookup_append, h2]
      simp [List.lookup]
  · by_cases h2 : (m.lookup k).isSome
    · rw [if_pos h2]; simp [h]
    · rw [if_neg h2, List.lookup_append]
      have : (key == k) = false := by simpa using h
      simp [List.lookup, h, this]

theorem lookup_registered_from (hist : List (Option String × α)) (m : Methods α) (key : Option String) :
    (hist.foldl (fun m r => m.add r.1 r.2) m).lookup key = (m.lookup key).or (hist.lookup key) := by
  induction hist generalizing m with
  | nil => simp [List.lookup]
  | cons r t ih =>
    rw [List.foldl_cons, ih, lookup_add]
    obtain ⟨k, v⟩ := r
    simp only [List.lookup_cons]
    by_cases h : key = k
    · subst h
      cases m.lookup key <;> simp
    · have : (key == k) = false := by simpa using h
      cases m.lookup key <;> simp [h, this]

/-- **C55.** After any history of registrations, a lookup gives the first function registered under the key, otherwise the first one
registered as the default, otherwise nothing. -/
theorem C55_lookup (hist : List (Option String × α)) (key : Option String) :
    (registered hist).get key = (hist.lookup key).or (hist.lookup none) := by
  have h := lookup_registered_from hist ([] : Methods α)
  unfold Methods.get registered
  simp only [h, List.lookup, Option.none_or]
  cases hist.lookup key <;> cases hist.lookup none <;> simp

/-- **C55.** Registering never replaces: whatever is found under its own key stays, however many registrations follow. -/
theorem C55_never_replaced (hist more : List (Option String × α)) (key : Option String) (v : α)
    (h : hist.lookup key = some v) : (registered (hist ++ more)).get key = some v := by
  rw [C55_lookup, List.lookup_append, h]; rfl

/-- **C55.** A default stays the answer for every key that is not registered by itself. -/
theorem C55_default (hist more : List (Option String × α)) (key : Option String) (v : α) (h : hist.lookup none = some v)
    (hk : ∀ w, (key, w) ∉ hist ++ more) : (registered (hist ++ more)).get key = some v := by
  rw [C55_lookup]
  have : (hist ++ more).lookup key = none := by
    rw [List.lookup_eq_none_iff]
    intro p hp
    rw [bne_iff_ne]
    intro e
    rw [e] at hk
    exact hk p.2 hp
  rw [this, List.lookup_append, h]; rfl

theorem slot_foldl (regs : List (Slot × Option String × α)) (c : ClassMaps α) (s : Slot) :
    (regs.foldl ClassMaps.add c).slot s
      = ((regs.filter fun r => r.1 = s).map (·.2)).foldl (fun m r => m.add r.1 r.2) (c.slot s) := by
  induction regs generalizing c with
  | nil => rfl
  | cons r t ih =>
    rw [List.foldl_cons, ih]
    obtain ⟨s', k, v⟩ := r
    by_cases h : s' = s
    · subst h
      cases s' <;> simp [ClassMaps.add, ClassMaps.slot]
    · have : (c.add (s', k, v)).slot s = c.slot s := by
        cases s' <;> cases s <;> simp_all [ClassMaps.add, ClassMaps.slot]
      simp [h, this]

/-- **C55.** The three tables of a class do not interfere: each answers from its own registrations. -/
theorem C55_tables (regs : List (Slot × Option String × α)) (s : Slot) (key : Option String) :
    ((regs.foldl ClassMaps.add .empty).slot s).get key
      = ((((regs.filter fun r => r.1 = s).map (·.2)).lookup key).or (((regs.filter fun r => r.1 = s).map (·.2)).lookup none)) := by
  rw [slot_foldl, show (ClassMaps.empty : ClassMaps α).slot s = [] by cases s <;> rfl]
  exact C55_lookup _ key

/-- Two registrations of a default, then one under a key: the first default answers for unknown keys. -/
example : (registered [(none, 1), (none, 2), (some "xy", 3)]).get (some "typo") = some 1 ∧
    (registered [(none, 1), (none, 2), (some "xy", 3)]).get (some "xy") = some 3 := by
  constructor
  · rw [C55_lookup]; decide
  · exact C55_never_replaced [(none, 1), (none, 2), (some "xy", 3)] [] (some "xy") 3 (by decide)

/-- **C55.** The shipped classes: `interp_irregular` registers two default extractions, the second is never used, whatever the key. -/
theorem C55_irregular_second_default (key : Option String) : (qpMaps "interp_irregular").extraction.get key = some "extract_xy_vals" := by
  show Methods.get [(none, "extract_xy_vals")] key = _
  cases key <;> simp [Methods.get, List.lookup]

/-- **C55.** A spline has no default extraction: only the keys "xy" and "samples" give a function. -/
theorem C55_spline_extraction (key : Option String) :
    ((qpMaps "spline").extraction.get key).isSome ↔ key = some "xy" ∨ key = some "samples" := by
  show (Methods.get [(some "xy", "extract_xy_vals"), (some "samples", "extract_samples")] key).isSome ↔ _
  unfold Methods.get
  simp only [List.lookup]
  by_cases h1 : key = some "xy"
  · subst h1; decide
  · by_cases h2 : key = some "samples"
    · subst h2; decide
    · have e1 : (key == some "xy") = false := by simpa using h1
      have e2 : (key == some "samples") = false := by simpa using h2
      simp only [e1, e2]
      simp [h1, h2]

/-- **C55.** A histogram accepts every method name: all but "samples" mean the default, a misspelt one too. -/
theorem C55_hist_extraction (key : Option String) : (qpMaps "hist").extraction.get key
    = some (if key = some "samples" then "extract_hist_samples" else "extract_hist_values") := by
  show Methods.get [(none, "extract_hist_values"), (some "samples", "extract_hist_samples")] key = _
  unfold Methods.get
  simp only [List.lookup]
  by_cases h1 : key = some "samples"
  · subst h1; decide
  · have e1 : (key == some "samples") = false := by simpa using h1
    cases key with
    | none => decide
    | some s => simp [e1, h1]

/-! ## C54 -/

/-- what makes a call a registration under `n` -/
def regOf (n : String) (c : ClassDef α) : Bool := c.name = some n ∧ c.fails = none

theorem lookup_addClass (f : Factory α) (c : ClassDef α) (n : String) : ((addClass f c).2.classes).lookup n
    = (f.classes.lookup n).or (if regOf n c then some c.id else none) := by
  unfold addClass regOf
  cases hn : c.name with
  | none => simp
  | some m =>
    by_cases h : (f.classes.lookup m).isSome
    · simp only [h, if_true]
      by_cases hm : m = n
      · subst hm
        obtain ⟨w, hw⟩ := Option.isSome_iff_exists.1 h
        simp [hw]
      · simp [hm]
    · simp only [h]
      cases hf : c.fails with
      | some err => simp [Factory.remap]
      | none =>
        simp only [Bool.false_eq_true, if_false, List.lookup_append]
        by_cases hm : m = n
        · subst hm
          simp [List.lookup]
        · have : (n == m) = false := by simpa using fun e => hm e.symm
          simp [List.lookup, hm, this]

theorem lookup_addClasses (hist : List (ClassDef α)) (f : Factory α) (n : String) :
    ((addClasses f hist).classes).lookup n = (f.classes.lookup n).or ((hist.find? (regOf n)).map (·.id)) := by
  induction hist generalizing f with
  | nil => simp [addClasses]
  | cons c t ih =>
    have : addClasses f (c :: t) = addClasses (addClass f c).2 t := rfl
    rw [this, ih, lookup_addClass, List.find?_cons]
    cases hr : regOf n c <;> cases f.classes.lookup n <;> simp

/-- **C54.** After any history of `add_class` calls (some of which may have raised), the class found under a name is the first one
of the history that has this name (and whose mappings could be made). -/
theorem C54_first_wins (hist : List (ClassDef α)) (n : String) :
    ((addClasses Factory.empty hist).classes).lookup n = (hist.find? fun c => c.name = some n ∧ c.fails = none).map (·.id) := by
  rw [lookup_addClasses]
  simp only [Factory.empty, List.lookup, Option.none_or]
  rfl

/-- **C54.** What an `add_class` call answers after any history: `AttributeError` for a class without a name, `KeyError` when an
earlier call registered the name, success otherwise (unless `add_mappings` itself raises). -/
theorem C54_outcome (hist : List (ClassDef α)) (c : ClassDef α) (hc : c.fails = none) :
    (addClass (addClasses Factory.empty hist) c).1 =
      match c.name with
      | none => .error .AttributeError
      | some n => if ∃ c' ∈ hist, c'.name = some n ∧ c'.fails = none then .error .KeyError else .ok () := by
  unfold addClass
  cases hn : c.name with
  | none => rfl
  | some n =>
    have := C54_first_wins hist n
    by_cases h : ∃ c' ∈ hist, c'.name = some n ∧ c'.fails = none
    · have h' : (List.lookup n (addClasses Factory.empty hist).classes).isSome := by
        rw [this, Option.isSome_map, List.find?_isSome]
        simpa using h
      simp only [h', if_true]
      rw [if_pos h]
    · have h' : (List.lookup n (addClasses Factory.empty hist).classes).isSome = false := by
        rw [this, Option.isSome_map, Bool.eq_false_iff, ne_eq, List.find?_isSome]
        simpa using h
      simp only [h', hc]
      rw [if_neg h]
      rfl

/-- **C54.** A call that raises, for whatever reason, leaves the registered classes and the attributes of the factory alone. A
nameless or duplicate class does not touch the method tables of any class either. -/
theorem C54_failure_changes_nothing (f : Factory α) (c : ClassDef α) (err : Err) (h : (addClass f c).1 = .error err) :
    (addClass f c).2.classes = f.classes ∧ (addClass f c).2.attrs = f.attrs ∧
      (c.fails = none → (addClass f c).2 = f) := by
  unfold addClass at *
  cases hn : c.name with
  | none => simp
  | some n =>
    simp only [hn] at h ⊢
    by_cases hd : (f.classes.lookup n).isSome
    · simp [hd]
    · cases hf : c.fails with
      | some e => simp [hd, Factory.remap]
      | none => simp [hd, hf] at h

/-- class objects have one definition -/
def OneDef (hist : List (ClassDef α)) : Prop := ∀ c ∈ hist, ∀ c' ∈ hist, c.id = c'.id → c = c'

theorem maps_addClass (f : Factory α) (c : ClassDef α) (i : ℕ) :
    (addClass f c).2.maps i = f.maps i ∨ (i = c.id ∧ (addClass f c).2.maps i = some (c.mappings.foldl ClassMaps.add .empty)) := by
  unfold addClass
  cases hn : c.name with
  | none => simp
  | some n =>
    by_cases hd : (f.classes.lookup n).isSome
    · simp [hd]
    · cases hf : c.fails <;> by_cases hi : i = c.id <;> simp [hd, Factory.remap, hi]

/-- every registered class has the tables of its own definition -/
def MapsOk (hist : List (ClassDef α)) (f : Factory α) : Prop :=
  (∀ i m, f.maps i = some m → ∃ c ∈ hist, c.id = i ∧ m = c.mappings.foldl ClassMaps.add .empty) ∧
    ∀ p ∈ f.classes, (f.maps p.2).isSome

theorem mapsOk_step (hist : List (ClassDef α)) (f : Factory α) (c : ClassDef α) (hc : c ∈ hist) (h : MapsOk hist f) :
    MapsOk hist (addClass f c).2 := by
  constructor
  · intro i m hm
    rcases maps_addClass f c i with h1 | ⟨rfl, h1⟩
    · exact h.1 i m (h1 ▸ hm)
    · rw [h1] at hm
      exact ⟨c, hc, rfl, (Option.some.inj hm).symm⟩
  · intro p hp
    have keep : ∀ i, (f.maps i).isSome → ((addClass f c).2.maps i).isSome := by
      intro i hi
      rcases maps_addClass f c i with h1 | ⟨_, h1⟩
      · rw [h1]; exact hi
      · rw [h1]; rfl
    unfold addClass at hp ⊢
    cases hn : c.name with
    | none => simp only [hn] at hp ⊢; exact h.2 p hp
    | some n =>
      simp only [hn] at hp ⊢
      by_cases hd : (f.classes.lookup n).isSome
      · simp only [hd, if_true] at hp ⊢
        exact h.2 p hp
      · simp only [hd] at hp ⊢
        have key : (((f.remap c).maps p.2)).isSome ∨ p ∈ f.classes → (((f.remap c).maps p.2)).isSome := by
          rintro (h3 | h3)
          · exact h3
          · simp only [Factory.remap]
            split
            · rfl
            · exact h.2 p h3
        cases hf : c.fails with
        | some e =>
          simp only [hf] at hp ⊢
          exact key (Or.inr hp)
        | none =>
          simp only [hf] at hp ⊢
          rcases List.mem_append.1 hp with h3 | h3
          · exact key (Or.inr h3)
          · rw [List.mem_singleton.1 h3]
            simp [Factory.remap]

theorem mapsOk_run (all hist : List (ClassDef α)) (f : Factory α) (hs : ∀ c ∈ hist, c ∈ all) (h : MapsOk all f) :
    MapsOk all (addClasses f hist) := by
  induction hist generalizing f with
  | nil => exact h
  | cons c t ih => exact ih _ (fun d hd => hs d (by simp [hd])) (mapsOk_step all f c (hs c (by simp)) h)

/-- **C54.** Later registrations, successful or not, never disturb the methods of a registered class: the tables of the class found
under a name are those its own definition makes. -/
theorem C54_methods (hist : List (ClassDef α)) (h1 : OneDef hist) (c : ClassDef α) (n : String)
    (hfirst : hist.find? (fun c => c.name = some n ∧ c.fails = none) = some c) :
    ((addClasses Factory.empty hist).classes).lookup n = some c.id ∧
      (addClasses Factory.empty hist).maps c.id = some (c.mappings.foldl ClassMaps.add .empty) := by
  have hl : ((addClasses Factory.empty hist).classes).lookup n = some c.id := by rw [C54_first_wins, hfirst]; rfl
  refine ⟨hl, ?_⟩
  have ok := mapsOk_run hist hist Factory.empty (fun _ h => h) ⟨by simp [Factory.empty], by simp [Factory.empty]⟩
  have hmem : (n, c.id) ∈ (addClasses Factory.empty hist).classes := by
    obtain ⟨l1, l2, e, _⟩ := List.lookup_eq_some_iff.1 hl
    rw [e]; simp
  obtain ⟨m, hm⟩ := Option.isSome_iff_exists.1 (ok.2 _ hmem)
  obtain ⟨c', hc', hid, rfl⟩ := ok.1 _ _ hm
  have hc : c ∈ hist := List.mem_of_find?_eq_some hfirst
  rw [h1 c' hc' c hc hid] at hm
  exact hm

theorem attrs_addClass (f : Factory α) (c : ClassDef α) (a : String) (hf : ∀ n, c.name = some n → n ≠ a ∧ n ++ "_gen" ≠ a) :
    ((addClass f c).2.attrs).lookup a = f.attrs.lookup a := by
  unfold addClass
  cases hn : c.name with
  | none => rfl
  | some n =>
    obtain ⟨h1, h2⟩ := hf n hn
    by_cases hd : (f.classes.lookup n).isSome
    · simp [hd]
    · cases hf : c.fails with
      | some e => simp [hd, Factory.remap]
      | none =>
        have e1 : (a == n) = false := by simpa using fun e => h1 e.symm
        have e2 : (a == n ++ "_gen") = false := by simpa using fun e => h2 e.symm
        simp only [hd, Bool.false_eq_true, if_false, List.lookup_cons, e1, e2, Factory.remap]

theorem attrs_addClasses (hist : List (ClassDef α)) (f : Factory α) (a : String)
    (hf : ∀ c ∈ hist, ∀ n, c.name = some n → n ≠ a ∧ n ++ "_gen" ≠ a) :
    ((addClasses f hist).attrs).lookup a = f.attrs.lookup a := by
  induction hist generalizing f with
  | nil => rfl
  | cons c t ih =>
    show ((addClasses (addClass f c).2 t).attrs).lookup a = _
    rw [ih _ fun d hd => hf d (by simp [hd]), attrs_addClass _ _ _ (hf c (by simp))]

/-- a duplicate of a registered name changes nothing -/
theorem addClass_dup (f : Factory α) (c : ClassDef α) (n : String) (hn : c.name = some n) (hd : (f.classes.lookup n).isSome) :
    (addClass f c).2 = f := by
  unfold addClass
  simp [hn, hd]

theorem attrs_after (post : List (ClassDef α)) (f : Factory α) (n : String) (i : ℕ) (hl : f.classes.lookup n = some i) (a : String)
    (hf : ∀ c ∈ post, ∀ m, c.name = some m → m = n ∨ (m ≠ a ∧ m ++ "_gen" ≠ a)) :
    ((addClasses f post).attrs).lookup a = f.attrs.lookup a := by
  induction post generalizing f with
  | nil => rfl
  | cons c t ih =>
    show ((addClasses (addClass f c).2 t).attrs).lookup a = _
    rw [ih _ (by rw [lookup_addClass, hl]; rfl) fun d hd => hf d (by simp [hd])]
    by_cases hcn : c.name = some n
    · rw [addClass_dup f c n hcn (by rw [hl]; rfl)]
    · apply attrs_addClass
      intro m hm
      rcases hf c (by simp) m hm with rfl | h
      · exact absurd hm hcn
      · exact h

/-- **C54.** `factory.<name>` creates the registered class and `factory.<name>_gen` is the class, as long as no other registered name
is the same attribute (as `a_gen` would be for a class `a`). -/
theorem C54_attributes (hist : List (ClassDef α)) (c : ClassDef α) (n : String)
    (hfirst : hist.find? (fun c => c.name = some n ∧ c.fails = none) = some c)
    (hother : ∀ d ∈ hist, ∀ m, d.name = some m → m ++ "_gen" ≠ n ∧ m ≠ n ++ "_gen") :
    ((addClasses Factory.empty hist).attrs).lookup n = some (.create c.id) ∧
      ((addClasses Factory.empty hist).attrs).lookup (n ++ "_gen") = some (.cls c.id) := by
  obtain ⟨hp, pre, post, rfl, hpre⟩ := List.find?_eq_some_iff_append.1 hfirst
  simp only [Bool.decide_and, Bool.and_eq_true, decide_eq_true_eq] at hp
  set f := addClasses Factory.empty pre with hfdef
  have hrun : addClasses Factory.empty (pre ++ c :: post) = addClasses (addClass f c).2 post := by
    simp [addClasses, hfdef]
  have hnone : f.classes.lookup n = none := by
    rw [hfdef, C54_first_wins, Option.map_eq_none_iff, List.find?_eq_none]
    intro d hd
    have := hpre d hd
    simp only [Bool.decide_and, Bool.not_and, Bool.or_eq_true, Bool.not_eq_true', decide_eq_false_iff_not] at this
    simp only [Bool.decide_and, Bool.and_eq_true, decide_eq_true_eq]
    tauto
  have hstep : (addClass f c).2 = { f.remap c with
          classes := f.classes ++ [(n, c.id)]
          attrs := (n, .create c.id) :: (n ++ "_gen", .cls c.id) :: f.attrs } := by
    unfold addClass
    simp [hp.1, hp.2, hnone]
  have hl : (addClass f c).2.classes.lookup n = some c.id := by
    rw [hstep]; simp [List.lookup_append, hnone, List.lookup]
  have hne : n ++ "_gen" ≠ n := by
    intro e
    have := congrArg String.length e
    simp at this
  rw [hrun]
  constructor
  · rw [attrs_after post _ n c.id hl n, hstep]
    · simp [List.lookup]
    · intro d hd m hm
      by_cases e : m = n
      · exact Or.inl e
      · exact Or.inr ⟨e, (hother d (by simp [hd]) m hm).1⟩
  · rw [attrs_after post _ n c.id hl (n ++ "_gen"), hstep]
    · have e1 : (n ++ "_gen" == n) = false := by simp
      simp [List.lookup, e1]
    · intro d hd m hm
      by_cases e : m = n
      · exact Or.inl e
      · refine Or.inr ⟨(hother d (by simp [hd]) m hm).2, fun h => e ?_⟩
        have h2 : (m ++ "_gen").toList = (n ++ "_gen").toList := congrArg _ h
        rw [String.toList_append, String.toList_append] at h2
        exact String.toList_inj.1 (List.append_cancel_right h2)

/-- Two classes called "a" and a nameless one. -/
def exHist : List (ClassDef ℕ) :=
  [⟨0, some "a", [(.creation, none, 7)], none⟩, ⟨1, none, [], none⟩, ⟨2, some "a", [(.creation, none, 8)], none⟩,
   ⟨3, some "b", [], some .ValueError⟩, ⟨4, some "b", [(.creation, some "xy", 9)], none⟩]

example : ((addClasses Factory.empty exHist).classes).lookup "a" = some 0 ∧
    ((addClasses Factory.empty exHist).classes).lookup "b" = some 4 := by
  constructor <;> (rw [C54_first_wins]; rfl)

example : (addClass (addClasses Factory.empty exHist) ⟨5, some "b", [], none⟩).1 = .error .KeyError := by
  rw [C54_outcome _ _ rfl]; exact if_pos ⟨⟨4, some "b", [(.creation, some "xy", 9)], none⟩, by simp [exHist], rfl, rfl⟩

example : (addClasses Factory.empty exHist).maps 0 = some ⟨[(none, 7)], [], []⟩ ∧
    ((addClasses Factory.empty exHist).attrs).lookup "a_gen" = some (.cls 0) := by
  have hf : exHist.find? (fun c => c.name = some "a" ∧ c.fails = none) = some ⟨0, some "a", [(.creation, none, 7)], none⟩ := rfl
  constructor
  · exact (C54_methods exHist (by simp [OneDef, exHist]) _ "a" hf).2
  · refine (C54_attributes exHist _ "a" hf ?_).2
    simp only [exHist, List.mem_cons, List.not_mem_nil, or_false]
    rintro d (rfl | rfl | rfl | rfl | rfl) m hm <;> simp at hm <;> subst hm <;> decide

end Verif.Props.Registry
