import Verif.Model.State
import Verif.Props.Stack

/-!
# C37-C40: histories of operations

Failing operations are part of a history: the state afterwards is whatever the exception left behind.
-/

set_option linter.unusedSectionVars false
set_option autoImplicit false

namespace Verif.Props.State

open Verif Verif.Np Verif.Model Verif.Spec Verif.Lemmas

section
variable {K V : Type} [Field K] [LinearOrder K] [IsStrictOrderedRing K]

/-! ### C37 -/

/-- every ancillary column has one entry per PDF (for a single PDF also a bare number) -/
def AncilOk (e : Ens K) : Prop :=
  ∀ a, e.ancil = some a → ∀ p ∈ a, (p.2.shape.head? = some e.frozen.npdf) ∨ (e.frozen.npdf = 1 ∧ p.2.shape = [])

theorem checkArrayShape_iff (v : Val K) (n : ℕ) :
    checkArrayShape v n = .ok () ↔ (v.shape.head? = some n) ∨ (n = 1 ∧ v.shape = []) := by
  unfold checkArrayShape Val.size
  cases h : v.shape with
  | nil => by_cases hn : n = 1 <;> simp [hn]
  | cons m t =>
    by_cases hs : (m :: t).prod = 1 ∧ n = 1
    · rw [if_pos hs]
      simp only [List.head?_cons, Option.some.injEq, true_iff]
      left
      have := hs.1
      rw [List.prod_cons] at this
      rw [hs.2]
      exact Nat.eq_one_of_mul_eq_one_right this
    · rw [if_neg hs]
      simp only [List.head?_cons, Option.some.injEq]
      by_cases hm : m = n <;> simp [hm]

theorem checkArrayShapes_iff (a : Option (Dict K)) (n : ℕ) :
    checkArrayShapes a n = .ok () ↔ ∀ d, a = some d → ∀ p ∈ d, (p.2.shape.head? = some n) ∨ (n = 1 ∧ p.2.shape = []) := by
  cases a with
  | none => simp [checkArrayShapes]
  | some d =>
    simp only [checkArrayShapes, checkShapes_ok_iff, Option.some.injEq, forall_eq']
    constructor
    · intro h p hp; exact (checkArrayShape_iff p.2 n).1 (h p hp)
    · intro h p hp; exact (checkArrayShape_iff p.2 n).2 (h p hp)

theorem ancilOk_iff (e : Ens K) : AncilOk e ↔ checkArrayShapes e.ancil e.frozen.npdf = .ok () := by
  rw [checkArrayShapes_iff]; rfl

theorem setAncil_ok (e : Ens K) (a : Option (Dict K)) (h : AncilOk e) : AncilOk (setAncil e a).2 := by
  unfold setAncil
  cases hc : checkArrayShapes a e.frozen.npdf with
  | error err => exact h
  | ok u => rw [ancilOk_iff]; exact hc

theorem addToAncil_ok (e : Ens K) (a : Dict K) (h : AncilOk e) : AncilOk (addToAncil e a).2 := by
  unfold addToAncil
  cases hc : checkArrayShapes (some a) e.frozen.npdf with
  | error err => exact h
  | ok u =>
    simp only
    cases ha : e.ancil with
    | none => exact h
    | some b =>
      intro d hd p hp
      simp only [Option.some.injEq] at hd
      subst hd
      rcases mem_update hp with hp | hp
      · exact h b ha p hp
      · exact (checkArrayShapes_iff _ _).1 hc a rfl p hp

/-- an update establishes the property when it succeeds, and destroys it only when it raises after replacing the distribution -/
theorem update_ok (e : Ens K) (d : Dict K) (a : Option (Dict K)) (h : AncilOk e)
    (hn : (update e d a).1 = .ok () ∨ (update e d a).2.frozen.npdf = e.frozen.npdf) : AncilOk (update e d a).2 := by
  unfold update at hn ⊢
  cases hg : e.genFunc d with
  | error err => exact h
  | ok fr =>
    rw [hg] at hn
    simp only at hn ⊢
    unfold setAncil at hn ⊢
    simp only at hn ⊢
    cases hc : checkArrayShapes a fr.npdf with
    | ok u => rw [ancilOk_iff]; exact hc
    | error err =>
      rw [hc] at hn
      simp only at hn ⊢
      rcases hn with hn | hn
      · simp at hn
      · intro b hb p hp
        have := h b hb p hp
        rw [← hn] at this
        exact this

/-- what an operation must satisfy for C37: an update that raises after replacing the distribution kept the number of PDFs (any
successful operation is fine), and the distribution is not changed in place to another number of PDFs -/
def Benign (pdf : Frozen K → List K → Except Err V) (s : State K V) (op : Op K) : Prop :=
  (∃ r, (step pdf s op).1 = .ok r) ∧ (∀ f, op ≠ .alterDist f) ∨ (step pdf s op).2.ens.frozen.npdf = s.ens.frozen.npdf

/-- `Benign` at every step of a history -/
def BenignRun (pdf : Frozen K → List K → Except Err V) : State K V → List (Op K) → Prop
  | _, [] => True
  | s, op :: t => Benign pdf s op ∧ BenignRun pdf (step pdf s op).2 t

theorem clearing_ens (s : State K V) (o : Outcome K) : (clearing s o).2.ens = o.2 ∧ ((∃ r, (clearing s o).1 = .ok r) ↔ o.1 = .ok ()) := by
  unfold clearing
  split <;> rename_i h <;> simp [h]

theorem keeping_ens (s : State K V) (o : Outcome K) : (keeping s o).2.ens = o.2 ∧ (keeping s o).2.cache = s.cache ∧
    (keeping s o).2.mem = s.mem := by
  unfold keeping
  split <;> exact ⟨rfl, rfl, rfl⟩

theorem gridded_ens (pdf : Frozen K → List K → Except Err V) (s : State K V) (g : ℕ) :
    (griddedOp pdf s g).2.ens = s.ens ∧ (griddedOp pdf s g).2.mem = s.mem := by
  unfold griddedOp
  split
  · split_ifs
    · exact ⟨rfl, rfl⟩
    · split <;> exact ⟨rfl, rfl⟩
  · split <;> exact ⟨rfl, rfl⟩

theorem append_as_update (e o : Ens K) : append e o = (match appendData e o with
    | .error err => (.error err, e)
    | .ok (d, a) => updateObjdata e d a) := rfl

theorem step_ancil (pdf : Frozen K → List K → Except Err V) (s : State K V) (op : Op K) (h : AncilOk s.ens)
    (hb : Benign pdf s op) : AncilOk (step pdf s op).2.ens := by
  cases op with
  | setAncil a => simp only [step, (keeping_ens s _).1]; exact setAncil_ok _ a h
  | addToAncil a => simp only [step, (keeping_ens s _).1]; exact addToAncil_ok _ a h
  | update d a =>
    simp only [Benign, step, (clearing_ens s _).1, (clearing_ens s _).2] at hb ⊢
    exact update_ok _ d a h (hb.imp And.left id)
  | updateObjdata d a =>
    simp only [Benign, step, (clearing_ens s _).1, (clearing_ens s _).2] at hb ⊢
    exact update_ok _ _ a h (hb.imp And.left id)
  | append o =>
    simp only [Benign, step, (clearing_ens s _).1, (clearing_ens s _).2] at hb ⊢
    rw [append_as_update] at hb ⊢
    cases hd : appendData s.ens o with
    | error err => exact h
    | ok v =>
      rw [hd] at hb
      exact update_ok _ _ v.2 h (hb.imp And.left id)
  | gridded g => simp only [step, (gridded_ens pdf s g).1]; exact h
  | mutate g vals => exact h
  | alterDist f =>
    rcases hb with hb | hb
    · exact absurd rfl (hb.2 f)
    · intro a ha p hp
      have := h a ha p hp
      simp only [step] at hb ⊢
      rw [hb]
      exact this

/-- **C37**: along every history in which no update raises after having replaced the distribution by one with another number of PDFs,
every ancillary column always has one entry per PDF. (The full claim covers those updates too; it is false by
`C37_failed_update_breaks`.) -/
theorem C37_invariant_partial (pdf : Frozen K → List K → Except Err V) (s : State K V) (ops : List (Op K)) (h : AncilOk s.ens)
    (hb : BenignRun pdf s ops) : AncilOk (run pdf s ops).ens := by
  induction ops generalizing s with
  | nil => exact h
  | cons op t ih =>
    simp only [run, List.foldl_cons]
    exact ih _ (step_ancil pdf s op h hb.1) hb.2

/-- construction and selection establish it -/
theorem C37_new (create gen : GenFunc K) (d : Dict K) (a : Option (Dict K)) (e : Ens K) (h : mkEns create gen d a = .ok e) : AncilOk e := by
  obtain ⟨fr, -, hc, rfl⟩ := mkEns_inv h
  rw [ancilOk_iff]
  exact hc

theorem C37_selected (e e' : Ens K) (key : Key) (h : getItem e key = .ok e') : AncilOk e' := by
  unfold getItem at h
  obtain ⟨_, -, h⟩ := bind_ok h
  obtain ⟨_, -, h⟩ := bind_ok h
  obtain ⟨_, -, h⟩ := bind_ok h
  exact C37_new _ _ _ _ _ h

/-- **C37** is false for updates that raise: if the ancillary data passed do not fit the new PDFs, the call raises, but the new PDFs
stay, beside the old ancillary data, whatever number of PDFs those belong to. -/
theorem C37_failed_update_breaks (e : Ens K) (d : Dict K) (a old : Dict K) (fr : Frozen K) (err : Err) (hold : e.ancil = some old)
    (hg : e.genFunc d = .ok fr) (hc : checkArrayShapes (some a) fr.npdf = .error err)
    (hbad : ∃ p ∈ old, p.2.shape.head? ≠ some fr.npdf ∧ p.2.shape ≠ []) :
    (update e d (some a)).1 = .error err ∧ ¬AncilOk (update e d (some a)).2 := by
  have hu : update e d (some a) = (.error err, { e with frozen := fr }) := by
    unfold update
    rw [hg]
    simp only [setAncil, hc]
  rw [hu]
  refine ⟨rfl, ?_⟩
  intro h
  obtain ⟨p, hp, h1, h2⟩ := hbad
  rcases h old hold p hp with h | h
  · exact h1 h
  · exact h2 h.2

/-! ### C38 -/

/-- the values in the cache are those of the current distribution on the grid as it is now -/
def Coherent (pdf : Frozen K → List K → Except Err V) (s : State K V) : Prop :=
  ∀ g v, s.cache = some (g, v) → pdf s.ens.frozen (s.mem g) = .ok v

/-- what an operation must satisfy for C38: it does not raise after replacing the distribution, the program does not write into the
grid array it last passed, and the distribution is not altered in place -/
def Clean (pdf : Frozen K → List K → Except Err V) (s : State K V) : Op K → Prop
  | .mutate g _ => ∀ a v, s.cache = some (a, v) → a ≠ g
  | .alterDist _ => False
  | op => (∃ err, (step pdf s op).1 = .error err) → (step pdf s op).2.ens.frozen = s.ens.frozen

def CleanRun (pdf : Frozen K → List K → Except Err V) : State K V → List (Op K) → Prop
  | _, [] => True
  | s, op :: t => Clean pdf s op ∧ CleanRun pdf (step pdf s op).2 t

theorem clearing_coherent (pdf : Frozen K → List K → Except Err V) (s : State K V) (o : Outcome K) (h : Coherent pdf s)
    (hc : (∃ err, (clearing s o).1 = .error err) → (clearing s o).2.ens.frozen = s.ens.frozen) : Coherent pdf (clearing s o).2 := by
  unfold clearing at hc ⊢
  split
  · rename_i err he
    rw [he] at hc
    simp only at hc
    intro g v hg
    simp only at hg ⊢
    rw [hc ⟨err, rfl⟩]
    exact h g v hg
  · intro g v hg
    simp at hg

theorem step_coherent (pdf : Frozen K → List K → Except Err V) (s : State K V) (op : Op K) (h : Coherent pdf s) (hc : Clean pdf s op) :
    Coherent pdf (step pdf s op).2 := by
  cases op with
  | setAncil a =>
    simp only [step]
    intro g v hg
    rw [(keeping_ens s _).2.1] at hg
    rw [(keeping_ens s _).1, (keeping_ens s _).2.2]
    have : (setAncil s.ens a).2.frozen = s.ens.frozen := by
      unfold setAncil
      split <;> rfl
    rw [this]
    exact h g v hg
  | addToAncil a =>
    simp only [step]
    intro g v hg
    rw [(keeping_ens s _).2.1] at hg
    rw [(keeping_ens s _).1, (keeping_ens s _).2.2]
    have : (addToAncil s.ens a).2.frozen = s.ens.frozen := by
      unfold addToAncil
      split
      · rfl
      · split <;> rfl
    rw [this]
    exact h g v hg
  | update d a => exact clearing_coherent pdf s _ h hc
  | updateObjdata d a => exact clearing_coherent pdf s _ h hc
  | append o => exact clearing_coherent pdf s _ h hc
  | gridded g =>
    simp only [step]
    unfold griddedOp
    split
    · split_ifs
      · exact h
      · split
        · exact h
        · rename_i w hw
          intro g' v' hg'
          simp only [Option.some.injEq, Prod.mk.injEq] at hg'
          obtain ⟨rfl, rfl⟩ := hg'
          exact hw
    · split
      · exact h
      · rename_i w hw
        intro g' v' hg'
        simp only [Option.some.injEq, Prod.mk.injEq] at hg'
        obtain ⟨rfl, rfl⟩ := hg'
        exact hw
  | mutate g vals =>
    intro a v ha
    simp only [step] at ha ⊢
    rw [Function.update_of_ne (hc a v ha)]
    exact h a v ha
  | alterDist f => exact absurd hc id

/-- **C38**: after every clean history starting with a new ensemble, `gridded(grid)` returns the values of the current distribution on
the grid, or raises what the evaluation raises. (False for histories that are not clean, see the three theorems below.) -/
theorem C38_not_stale_partial (pdf : Frozen K → List K → Except Err V) (e : Ens K) (mem : ℕ → List K) (ops : List (Op K))
    (hc : CleanRun pdf (fresh e mem) ops) (g : ℕ) :
    (step pdf (run pdf (fresh e mem) ops) (.gridded g)).1 =
      (pdf (run pdf (fresh e mem) ops).ens.frozen ((run pdf (fresh e mem) ops).mem g)).map some := by
  have hinv : ∀ (ops : List (Op K)) (s : State K V), Coherent pdf s → CleanRun pdf s ops → Coherent pdf (run pdf s ops) := by
    intro ops
    induction ops with
    | nil => intro s h _; exact h
    | cons op t ih =>
      intro s h hc
      simp only [run, List.foldl_cons]
      exact ih _ (step_coherent pdf s op h hc.1) hc.2
  have hco := hinv ops (fresh e mem) (by intro g v h; simp [fresh] at h) hc
  generalize run pdf (fresh e mem) ops = s at hco
  simp only [step, griddedOp]
  split
  · rename_i a v ha
    split_ifs with hm
    · rw [← hm, hco a v ha]; rfl
    · split <;> rename_i h <;> rw [h] <;> rfl
  · split <;> rename_i h <;> rw [h] <;> rfl

/-- **C38** is false after an update that raises because of the ancillary data: the cached values of the old PDFs are returned for the
new ones. -/
theorem C38_stale_after_failed_update (pdf : Frozen K → List K → Except Err V) (s : State K V) (d : Dict K) (a : Dict K) (fr : Frozen K)
    (err : Err) (g : ℕ) (v : V) (hg : s.ens.genFunc d = .ok fr) (hc : checkArrayShapes (some a) fr.npdf = .error err)
    (hv : (step pdf s (.gridded g)).1 = .ok (some v)) (hne : pdf fr (s.mem g) ≠ .ok v) :
    let s' := run pdf s [.gridded g, .update d (some a)]
    s'.ens.frozen = fr ∧ (step pdf s' (.gridded g)).1 = .ok (some v) ∧ (step pdf s' (.gridded g)).1 ≠ (pdf s'.ens.frozen (s'.mem g)).map some := by
  have hca : ∃ a, (step pdf s (.gridded g)).2.cache = some (a, v) ∧ s.mem a = s.mem g := by
    simp only [step, griddedOp] at hv ⊢
    split at hv
    · rename_i a w ha
      split_ifs at hv with hm
      · simp only [Except.ok.injEq, Option.some.injEq] at hv
        subst hv
        rw [if_pos hm]
        exact ⟨a, ha, hm⟩
      · rw [if_neg hm]
        split at hv
        · simp at hv
        · rename_i w' hw'
          simp only [Except.ok.injEq, Option.some.injEq] at hv
          subst hv
          exact ⟨g, rfl, rfl⟩
    · rename_i ha
      split at hv
      · simp at hv
      · rename_i w' hw'
        simp only [Except.ok.injEq, Option.some.injEq] at hv
        subst hv
        exact ⟨g, rfl, rfl⟩
  obtain ⟨ad, hcache, hmem⟩ := hca
  have he := gridded_ens pdf s g
  have hu : update (griddedOp pdf s g).2.ens d (some a) = (.error err, { s.ens with frozen := fr }) := by
    rw [he.1]
    unfold update
    rw [hg]
    simp only [setAncil, hc]
  have hs' : run pdf s [.gridded g, .update d (some a)] = ⟨{ s.ens with frozen := fr }, some (ad, v), s.mem⟩ := by
    simp only [run, List.foldl_cons, List.foldl_nil, step, hu, clearing]
    simp only [step] at hcache
    rw [hcache, he.2]
  rw [hs']
  have hr : (step pdf (⟨{ s.ens with frozen := fr }, some (ad, v), s.mem⟩ : State K V) (.gridded g)).1 = .ok (some v) := by
    simp only [step, griddedOp, hmem, if_true]
  refine ⟨rfl, hr, ?_⟩
  rw [hr]
  simp only
  intro h
  apply hne
  cases hp : pdf fr (s.mem g) with
  | error e => rw [hp] at h; simp [Except.map] at h
  | ok w =>
    rw [hp] at h
    simp only [Except.map, Except.ok.injEq, Option.some.injEq] at h
    rw [h]

/-- **C38** is false when the program writes into the grid array it passed: the reference in the cache changes with it, so the old values
are returned for the new grid. -/
theorem C38_stale_after_grid_mutation (pdf : Frozen K → List K → Except Err V) (e : Ens K) (mem : ℕ → List K) (g : ℕ) (vals : List K)
    (v : V) (hv : pdf e.frozen (mem g) = .ok v) (hne : pdf e.frozen vals ≠ .ok v) :
    let s := run pdf (fresh e mem) [.gridded g, .mutate g vals]
    s.mem g = vals ∧ (step pdf s (.gridded g)).1 = .ok (some v) ∧ pdf s.ens.frozen (s.mem g) ≠ .ok v := by
  have hs : run pdf (fresh e mem) [.gridded g, .mutate g vals] = ⟨e, some (g, v), Function.update mem g vals⟩ := by
    simp only [run, List.foldl_cons, List.foldl_nil, step, griddedOp, fresh, hv]
  rw [hs]
  simp only [Function.update_self, step, griddedOp, if_true, true_and]
  exact hne

/-- **C38** is false after changing the reconstruction of a quantile distribution in place. -/
theorem C38_stale_after_alteration (pdf : Frozen K → List K → Except Err V) (e : Ens K) (mem : ℕ → List K) (g : ℕ) (f : Frozen K)
    (v : V) (hv : pdf e.frozen (mem g) = .ok v) (hne : pdf f (mem g) ≠ .ok v) :
    let s := run pdf (fresh e mem) [.gridded g, .alterDist f]
    s.ens.frozen = f ∧ (step pdf s (.gridded g)).1 = .ok (some v) ∧ pdf s.ens.frozen (s.mem g) ≠ .ok v := by
  have hs : run pdf (fresh e mem) [.gridded g, .alterDist f] = ⟨{ e with frozen := f }, some (g, v), mem⟩ := by
    simp only [run, List.foldl_cons, List.foldl_nil, step, griddedOp, fresh, hv]
  rw [hs]
  simp only [step, griddedOp, if_true, true_and]
  exact hne

/-! ### C39 -/

/-- **C39** for `set_ancil` and `add_to_ancil` -/
theorem C39_ancil_calls (e : Ens K) (a : Option (Dict K)) (b : Dict K) (err : Err) :
    ((setAncil e a).1 = .error err → (setAncil e a).2 = e) ∧ ((addToAncil e b).1 = .error err → (addToAncil e b).2 = e) := by
  constructor
  · unfold setAncil
    split <;> simp
  · unfold addToAncil
    split
    · simp
    · split <;> simp

/-- **C39** for `update`, exactly: when it raises, either nothing has changed (the constructor raised), or the distribution has been
replaced and everything else kept (the ancillary data did not fit). In particular nothing changes when no ancillary data are passed. -/
theorem C39_update_partial (e : Ens K) (d : Dict K) (a : Option (Dict K)) (err : Err) (h : (update e d a).1 = .error err) :
    (e.genFunc d = .error err ∧ (update e d a).2 = e) ∨
    ∃ fr, e.genFunc d = .ok fr ∧ checkArrayShapes a fr.npdf = .error err ∧ a ≠ none ∧ (update e d a).2 = { e with frozen := fr } := by
  unfold update at h ⊢
  cases hg : e.genFunc d with
  | error x => rw [hg] at h; simp only [Except.error.injEq] at h; subst h; exact Or.inl ⟨rfl, rfl⟩
  | ok fr =>
    rw [hg] at h
    right
    refine ⟨fr, rfl, ?_⟩
    simp only [setAncil] at h ⊢
    cases hc : checkArrayShapes a fr.npdf with
    | ok u => rw [hc] at h; simp at h
    | error x =>
      rw [hc] at h
      simp only [Except.error.injEq] at h
      subst h
      refine ⟨rfl, ?_, rfl⟩
      rintro rfl
      simp [checkArrayShapes] at hc

/-- the same for `update_objdata` -/
theorem C39_update_objdata_partial (e : Ens K) (d : Dict K) (err : Err) (h : (updateObjdata e d none).1 = .error err) :
    (updateObjdata e d none).2 = e := by
  rcases C39_update_partial e _ none err h with h | ⟨_, _, _, h, _⟩
  · exact h.2
  · exact absurd rfl h

end
end Verif.Props.State
