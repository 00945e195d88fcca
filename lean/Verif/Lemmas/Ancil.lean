import Verif.Lemmas.Reach

/-! # Ancillary tables under selection -/

set_option linter.unusedSectionVars false
set_option autoImplicit false

namespace Verif.Lemmas

open Verif Verif.Np Verif.Model Verif.Spec

variable {K : Type}

theorem checkShapes_ok_iff (d : Dict K) (n : ℕ) : checkShapes d n = .ok () ↔ ∀ p ∈ d, checkArrayShape p.2 n = .ok () := by
  induction d with
  | nil => simp [checkShapes]
  | cons p t ih =>
    simp only [checkShapes, List.forall_mem_cons]
    cases h : checkArrayShape p.2 n with
    | error e => simp
    | ok u => simpa using ih

theorem checkArrayShape_err {v : Val K} {n : ℕ} {e : Err} (h : checkArrayShape v n = .error e) : e = .IndexError ∨ e = .ValueError := by
  unfold checkArrayShape at h
  split_ifs at h
  split at h
  · exact Or.inl (Except.error.inj h).symm
  · split_ifs at h
    exact Or.inr (Except.error.inj h).symm

theorem index_cols {a : Dict K} {n : ℕ} (h : AncilCols a n) (key : Key) :
    sliceDict a key = (match a with
      | [] => .ok []
      | _ => (key.resolve n).map fun s => a.map fun p => (p.1, .arr (selArr s p.2.toArr))) := by
  have hidx : ∀ p ∈ a, p.2.index key = (key.resolve n).map fun s => .arr (selArr s p.2.toArr) := by
    intro p hp
    obtain ⟨c, hc, hw, hh⟩ := h p hp
    obtain ⟨k, v⟩ := p
    simp only at hc
    subst hc
    obtain ⟨sh, da⟩ := c
    cases sh with
    | nil => simp at hh
    | cons m t =>
      simp only [List.head?_cons, Option.some.injEq] at hh
      subst hh
      simp only [Val.index, Val.toArr]
      cases hr : key.resolve m with
      | error e => simp [Except.map]
      | ok s => cases s <;> simp [Except.map, selArr]
  cases a with
  | nil => rfl
  | cons p t =>
    simp only
    cases hr : key.resolve n with
    | error e =>
      unfold sliceDict
      have h1 := hidx p (by simp)
      rw [hr] at h1
      simp only [Except.map] at h1
      rw [mapM_error_head (e := e)]
      · rfl
      · simp only [sliceVal, h1]
        rcases resolve_err hr with rfl | rfl <;> rfl
    | ok s =>
      unfold sliceDict
      rw [mapM_ok_map _ (fun q : String × Val K => (q.1, .arr (selArr s q.2.toArr)))]
      · rfl
      · intro q hq
        have h1 := hidx q hq
        rw [hr] at h1
        simp only [Except.map] at h1
        simp only [sliceVal, h1, Except.map]

theorem index_cols_ok {a : Dict K} {n : ℕ} (h : AncilCols a n) {key : Key} {s : Sel} (hr : key.resolve n = .ok s) :
    sliceDict a key = .ok (a.map fun p => (p.1, .arr (selArr s p.2.toArr))) := by
  rw [index_cols h, hr]
  cases a <;> rfl

theorem selArr_many_cols {a : Dict K} {n : ℕ} (h : AncilCols a n) (is : List ℕ) (hi : ∀ i ∈ is, i < n) :
    AncilCols (a.map fun p => (p.1, Val.arr (selArr (.many is) p.2.toArr))) is.length := by
  intro q hq
  obtain ⟨p, hp, rfl⟩ := List.mem_map.1 hq
  obtain ⟨c, hc, hw, hh⟩ := h p hp
  refine ⟨_, rfl, ?_, ?_⟩
  · rw [hc]
    simp only [Val.toArr, selArr]
    apply Arr.wf_takeRows _ hw
    intro i hm
    have := hi i hm
    cases hs : c.shape with
    | nil => rw [hs] at hh; simp at hh
    | cons m t => rw [hs] at hh; simp at hh; simp [Arr.nrows, hs, hh, this]
  · simp [selArr, Arr.takeRows, Arr.ofRows]

theorem checkShapes_cols {a : Dict K} {n : ℕ} (h : AncilCols a n) : checkShapes a n = .ok () := by
  rw [checkShapes_ok_iff]
  intro p hp
  obtain ⟨c, hc, hw, hh⟩ := h p hp
  unfold checkArrayShape
  split_ifs
  · rfl
  · have hs : p.2.shape = c.shape := by rw [hc]; rfl
    rw [hs]
    cases hs : c.shape with
    | nil => rw [hs] at hh; simp at hh
    | cons m t => rw [hs] at hh; simp at hh; simp [hh]

end Verif.Lemmas
