import Verif.Model.Dict

/-! Facts about dictionaries and `mapM`. -/

set_option linter.unusedSectionVars false
set_option autoImplicit false

namespace Verif.Lemmas

open Verif Verif.Np Verif.Model

theorem mapM_nil {α β : Type} (f : α → Except Err β) : ([] : List α).mapM f = .ok [] := rfl

theorem mapM_cons {α β : Type} (f : α → Except Err β) (a : α) (t : List α) :
    (a :: t).mapM f = match f a with
      | .error e => .error e
      | .ok b => match t.mapM f with
        | .error e => .error e
        | .ok l => .ok (b :: l) := by
  rw [List.mapM_cons]
  cases f a with
  | error e => rfl
  | ok b =>
    simp only [Bind.bind, Except.bind]
    cases t.mapM f <;> rfl

theorem mapM_ok_iff {α β : Type} (f : α → Except Err β) (l : List α) (r : List β) :
    l.mapM f = .ok r ↔ List.Forall₂ (fun a b => f a = .ok b) l r := by
  induction l generalizing r with
  | nil =>
    rw [mapM_nil]
    constructor
    · intro h; obtain rfl := Except.ok.inj h; exact .nil
    · intro h; cases h; rfl
  | cons a t ih =>
    rw [mapM_cons]
    constructor
    · intro h
      cases ha : f a with
      | error e => rw [ha] at h; simp at h
      | ok b =>
        rw [ha] at h
        cases ht : t.mapM f with
        | error e => rw [ht] at h; simp at h
        | ok l =>
          rw [ht] at h
          simp only [Except.ok.injEq] at h
          subst h
          exact .cons ha ((ih l).1 ht)
    · intro h
      cases h with
      | @cons _ b _ l hab hl => rw [hab, (ih l).2 hl]

theorem mapM_ok_map {α β : Type} (f : α → Except Err β) (g : α → β) (l : List α) (h : ∀ a ∈ l, f a = .ok (g a)) :
    l.mapM f = .ok (l.map g) := by
  rw [mapM_ok_iff]
  induction l with
  | nil => exact .nil
  | cons a t ih => exact .cons (h a (by simp)) (ih fun b hb => h b (by simp [hb]))

theorem mapM_congr {α β : Type} (f g : α → Except Err β) (l : List α) (h : ∀ a ∈ l, f a = g a) :
    l.mapM f = l.mapM g := by
  induction l with
  | nil => rfl
  | cons a t ih => rw [mapM_cons, mapM_cons, h a (by simp), ih fun b hb => h b (by simp [hb])]

theorem mapM_error_head {α β : Type} (f : α → Except Err β) (a : α) (t : List α) (e : Err) (h : f a = .error e) :
    (a :: t).mapM f = .error e := by
  rw [mapM_cons, h]

variable {K : Type}

theorem get?_nil (k : String) : Dict.get? ([] : Dict K) k = none := rfl

theorem get?_cons (p : String × Val K) (t : Dict K) (k : String) :
    Dict.get? (p :: t) k = if p.1 = k then some p.2 else Dict.get? t k := by
  unfold Dict.get?
  rw [List.find?_cons]
  by_cases h : p.1 = k <;> simp [h]

theorem get?_append (a b : Dict K) (k : String) :
    Dict.get? (a ++ b) k = (Dict.get? a k).or (Dict.get? b k) := by
  induction a with
  | nil => rfl
  | cons p t ih =>
    rw [List.cons_append, get?_cons, get?_cons, ih]
    by_cases h : p.1 = k <;> simp [h]

theorem get?_eq_none_iff (d : Dict K) (k : String) : Dict.get? d k = none ↔ k ∉ Dict.keys d := by
  induction d with
  | nil => simp [get?_nil, Dict.keys]
  | cons p t ih =>
    rw [get?_cons]
    by_cases h : p.1 = k
    · simp [h, Dict.keys]
    · rw [if_neg h, ih]
      simp [Dict.keys, Ne.symm h]

theorem get?_isSome_iff (d : Dict K) (k : String) : (∃ v, Dict.get? d k = some v) ↔ k ∈ Dict.keys d := by
  rw [← Option.isSome_iff_exists, ← not_iff_not, Option.not_isSome_iff_eq_none, get?_eq_none_iff]

theorem get?_of_mem {d : Dict K} (hn : (Dict.keys d).Nodup) {k : String} {v : Val K} (h : (k, v) ∈ d) :
    Dict.get? d k = some v := by
  induction d with
  | nil => simp at h
  | cons p t ih =>
    simp only [Dict.keys, List.map_cons, List.nodup_cons] at hn
    rw [get?_cons]
    rcases List.mem_cons.1 h with rfl | h
    · simp
    · rw [if_neg, ih hn.2 h]
      rintro rfl
      exact hn.1 (List.mem_map.2 ⟨_, h, rfl⟩)

theorem mem_of_get? {d : Dict K} {k : String} {v : Val K} (h : Dict.get? d k = some v) : (k, v) ∈ d := by
  induction d with
  | nil => simp [get?_nil] at h
  | cons p t ih =>
    rw [get?_cons] at h
    split_ifs at h with hk
    · simp only [Option.some.injEq] at h
      subst h; subst hk; simp
    · exact List.mem_cons_of_mem _ (ih h)

theorem get?_map (d : Dict K) (f : Val K → Val K) (k : String) :
    Dict.get? (d.map fun p => (p.1, f p.2)) k = (Dict.get? d k).map f := by
  induction d with
  | nil => rfl
  | cons p t ih =>
    rw [List.map_cons, get?_cons, get?_cons, ih]
    by_cases h : p.1 = k <;> simp [h]

theorem get?_set (d : Dict K) (k : String) (v : Val K) (k' : String) :
    Dict.get? (Dict.set d k v) k' = if k = k' then some v else Dict.get? d k' := by
  induction d with
  | nil => simp [Dict.set, get?_cons, get?_nil]
  | cons p t ih =>
    unfold Dict.set
    by_cases h : p.1 = k
    · subst h
      simp only [if_true]
      rw [get?_cons, get?_cons]
      by_cases h2 : p.1 = k' <;> simp [h2]
    · rw [if_neg h, get?_cons, get?_cons, ih]
      by_cases h2 : p.1 = k'
      · subst h2; simp [Ne.symm h]
      · simp [h2]

theorem get?_update (d d2 : Dict K) (hn : (Dict.keys d2).Nodup) (k : String) :
    Dict.get? (Dict.update d d2) k = (Dict.get? d2 k).or (Dict.get? d k) := by
  induction d2 generalizing d with
  | nil => rfl
  | cons p t ih =>
    simp only [Dict.keys, List.map_cons, List.nodup_cons] at hn
    show Dict.get? (Dict.update (Dict.set d p.1 p.2) t) k = _
    rw [ih _ hn.2, get?_set, get?_cons]
    by_cases h : p.1 = k
    · subst h
      have : Dict.get? t p.1 = none := (get?_eq_none_iff _ _).2 hn.1
      simp [this]
    · simp [h]

theorem keys_map (d : Dict K) (f : String → Val K → Val K) :
    Dict.keys (d.map fun p => (p.1, f p.1 p.2)) = Dict.keys d := by
  simp [Dict.keys, Function.comp_def]

theorem get?_filter_ne (d : Dict K) (k k' : String) (h : k' ≠ k) :
    Dict.get? (d.filter fun p => p.1 ≠ k) k' = Dict.get? d k' := by
  induction d with
  | nil => rfl
  | cons p t ih =>
    rw [List.filter_cons, get?_cons]
    by_cases hp : p.1 = k
    · subst hp
      simp only [ne_eq, not_true_eq_false, decide_false, Bool.false_eq_true, if_false]
      rw [ih, if_neg (Ne.symm h)]
    · simp only [ne_eq, hp, not_false_eq_true, decide_true, if_true]
      rw [get?_cons, ih]

/-- two dictionaries with distinct keys in the same order and equal look-ups are equal -/
theorem dict_ext {d e : Dict K} (hk : Dict.keys d = Dict.keys e) (hn : (Dict.keys d).Nodup)
    (h : ∀ k, Dict.get? d k = Dict.get? e k) : d = e := by
  induction d generalizing e with
  | nil =>
    cases e with
    | nil => rfl
    | cons q t => simp [Dict.keys] at hk
  | cons p t ih =>
    cases e with
    | nil => simp [Dict.keys] at hk
    | cons q s =>
      simp only [Dict.keys, List.map_cons, List.cons.injEq, List.nodup_cons] at hk hn
      have hv := h p.1
      rw [get?_cons, get?_cons, if_pos rfl, if_pos hk.1.symm] at hv
      have hpq : p = q := Prod.ext hk.1 (Option.some.inj hv)
      subst hpq
      congr 1
      apply ih hk.2 hn.2
      intro k
      have := h k
      rw [get?_cons, get?_cons] at this
      by_cases hpk : p.1 = k
      · subst hpk
        have h1 : Dict.get? t p.1 = none := (get?_eq_none_iff _ _).2 hn.1
        have h2 : Dict.get? s p.1 = none := (get?_eq_none_iff _ _).2 (by unfold Dict.keys; rw [← hk.2]; exact hn.1)
        rw [h1, h2]
      · simpa [hpk] using this

theorem keys_set_mem (d : Dict K) (k : String) (v : Val K) (h : k ∈ Dict.keys d) : Dict.keys (Dict.set d k v) = Dict.keys d := by
  induction d with
  | nil => simp [Dict.keys] at h
  | cons p t ih =>
    unfold Dict.set
    by_cases hp : p.1 = k
    · subst hp; simp [Dict.keys]
    · rw [if_neg hp]
      simp only [Dict.keys, List.map_cons, List.mem_cons] at h ih ⊢
      rw [ih (h.resolve_left (Ne.symm hp))]

theorem set_not_mem (d : Dict K) (k : String) (v : Val K) (h : k ∉ Dict.keys d) : Dict.set d k v = d ++ [(k, v)] := by
  induction d with
  | nil => rfl
  | cons p t ih =>
    unfold Dict.set
    simp only [Dict.keys, List.map_cons, List.mem_cons, not_or] at h
    rw [if_neg (Ne.symm h.1), ih h.2]
    rfl

/-- adding entries with new keys appends them -/
theorem update_disjoint (d d2 : Dict K) (hn : (Dict.keys d2).Nodup) (hd : ∀ k ∈ Dict.keys d2, k ∉ Dict.keys d) :
    Dict.update d d2 = d ++ d2 := by
  induction d2 generalizing d with
  | nil => simp [Dict.update]
  | cons p t ih =>
    simp only [Dict.keys, List.map_cons, List.nodup_cons] at hn
    show Dict.update (Dict.set d p.1 p.2) t = _
    rw [set_not_mem _ _ _ (hd p.1 (by simp [Dict.keys])), ih _ hn.2]
    · simp
    · intro k hk
      simp only [Dict.keys, List.map_append, List.mem_append, not_or, List.map_cons, List.map_nil, List.mem_singleton]
      refine ⟨hd k (by simp only [Dict.keys, List.map_cons]; exact List.mem_cons_of_mem _ hk), ?_⟩
      rintro rfl
      exact hn.1 hk

theorem mem_keys_update (d d2 : Dict K) (k : String) : k ∈ Dict.keys (Dict.update d d2) ↔ k ∈ Dict.keys d ∨ k ∈ Dict.keys d2 := by
  induction d2 generalizing d with
  | nil => simp [Dict.update, Dict.keys]
  | cons p t ih =>
    show k ∈ Dict.keys (Dict.update (Dict.set d p.1 p.2) t) ↔ _
    rw [ih]
    have : k ∈ Dict.keys (Dict.set d p.1 p.2) ↔ k ∈ Dict.keys d ∨ k = p.1 := by
      by_cases hp : p.1 ∈ Dict.keys d
      · rw [keys_set_mem _ _ _ hp]
        constructor
        · exact Or.inl
        · rintro (h | rfl)
          · exact h
          · exact hp
      · rw [set_not_mem _ _ _ hp]; simp [Dict.keys]
    rw [this]
    simp [Dict.keys, or_assoc]

theorem keys_update_subset (d d2 : Dict K) (h : ∀ k ∈ Dict.keys d2, k ∈ Dict.keys d) :
    Dict.keys (Dict.update d d2) = Dict.keys d := by
  induction d2 generalizing d with
  | nil => rfl
  | cons p t ih =>
    show Dict.keys (Dict.update (Dict.set d p.1 p.2) t) = _
    have hp := keys_set_mem d p.1 p.2 (h p.1 (by simp [Dict.keys]))
    rw [ih, hp]
    intro k hk
    rw [hp]
    exact h k (by simp only [Dict.keys, List.map_cons]; exact List.mem_cons_of_mem _ hk)

end Verif.Lemmas
