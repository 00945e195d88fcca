import Verif.Model.MetricRegistry

/-!
# C75: the metric registry
-/

set_option linter.unusedSectionVars false
set_option autoImplicit false

namespace Verif.Props.MetricRegistry

open Verif Verif.Model

/-- the `metric_name` that Python finds on a class: the one in its body, also when that is `None`, otherwise the one of its parent -/
def nameSeen : Option String → Option (Option String) → Option String
  | _, some n => n
  | inh, none => inh

theorem effName_eq (inh : Option String) (own : Option (Option String)) : effName inh own = nameSeen inh own := by cases own <;> rfl

/-- `Below inh cs i n`: the class `i` is a subclass, direct or not, of a class whose `metric_name` is `inh` and whose direct subclasses are `cs`,
and its `metric_name` is `n` -/
inductive Below : Option String → List MCls → String → Option String → Prop
  | here {inh cs i own subs} (h : MCls.mk i own subs ∈ cs) : Below inh cs i (nameSeen inh own)
  | deeper {inh cs i own subs j n} (h : MCls.mk i own subs ∈ cs) (hb : Below (nameSeen inh own) subs j n) : Below inh cs j n

/-- the word that is taken out of metric names -/
def theWord : List Char := ['M', 'e', 't', 'r', 'i', 'c']

/-- what is left when every occurrence of the word is taken out: the name is a row of parts without the word, with the word between each part and the next -/
def WithoutWord (name key : List Char) : Prop := ∃ parts : List (List Char), name = theWord.intercalate parts ∧ (∀ p ∈ parts, ¬ theWord <:+: p) ∧ key = parts.flatten

theorem dropMetric_spec (l : List Char) : ∃ p ps, l = theWord.intercalate (p :: ps) ∧ (∀ q ∈ p :: ps, ¬ theWord <:+: q) ∧ dropMetric l = (p :: ps).flatten := by
  have hnil : ¬ theWord <:+: [] := by intro h; have := h.length_le; simp [theWord] at this
  induction l using dropMetric.induct with
  | case1 t ih =>
    obtain ⟨p, ps, h1, h2, h3⟩ := ih
    refine ⟨[], p :: ps, ?_, ?_, ?_⟩
    · rw [List.intercalate, List.intersperse_cons_cons, List.flatten_cons, List.flatten_cons, ← List.intercalate, ← h1]; rfl
    · intro q hq
      rcases List.mem_cons.1 hq with rfl | hq
      · exact hnil
      · exact h2 q hq
    · rw [dropMetric, h3]; simp
  | case2 c t hne ih =>
    obtain ⟨p, ps, h1, h2, h3⟩ := ih
    have hcons : theWord.intercalate ((c :: p) :: ps) = c :: theWord.intercalate (p :: ps) := by
      cases ps with
      | nil => simp [List.intercalate]
      | cons q ps => simp [List.intercalate]
    refine ⟨c :: p, ps, by rw [hcons, ← h1], ?_, ?_⟩
    · intro q hq
      rcases List.mem_cons.1 hq with rfl | hq
      · intro hin
        rcases List.infix_cons_iff.1 hin with ⟨r, hr⟩ | hin
        · simp only [theWord, List.cons_append, List.nil_append, List.cons.injEq] at hr
          obtain ⟨rfl, rfl⟩ := hr
          refine hne (r ++ (theWord.intercalate ([] :: ps))) rfl ?_
          rw [h1]
          cases ps with
          | nil => simp [List.intercalate]
          | cons q ps => simp [List.intercalate]
        · exact h2 p (by simp) hin
      · exact h2 q (by simp [hq])
    · rw [dropMetric, h3]
      · simp
      · exact hne
  | case3 => exact ⟨[], [], by simp [List.intercalate], by simpa using hnil, by simp [dropMetric]⟩

/-- The key of a metric is its name without the word. -/
theorem C75_key (name : String) : WithoutWord name.toList (metricKey name).toList := by
  obtain ⟨p, ps, h1, h2, h3⟩ := dropMetric_spec name.toList
  exact ⟨p :: ps, h1, h2, by rw [metricKey, String.toList_ofList, h3]⟩

example : metricKey "KLDMetricMetric" = "KLD" ∧ metricKey "MetrMetricic" = "Metric" ∧ metricKey "Metri" = "Metri" := by decide +kernel

/-- a metric of the class tree: the class, and the key of its name -/
def IsMetric (classes : List MCls) (key ident : String) : Prop := ∃ n, Below none classes ident (some n) ∧ n ≠ "" ∧ metricKey n = key

theorem Below.mono {inh : Option String} {cs cs' : List MCls} {i : String} {n : Option String} (h : Below inh cs i n) (hs : ∀ c ∈ cs, c ∈ cs') :
    Below inh cs' i n := by
  induction h with
  | here h => exact .here (hs _ h)
  | deeper h hb ih => exact .deeper (hs _ h) hb

mutual
theorem walkCls_sound (inh : Option String) (c : MCls) : ∀ p ∈ walkCls inh c, Below inh [c] p.1 p.2 := by
  cases c with
  | mk i own subs =>
    intro p hp
    rw [walkCls, List.mem_cons, effName_eq] at hp
    rcases hp with rfl | hp
    · exact .here (subs := subs) (by simp)
    · exact .deeper (i := i) (subs := subs) (own := own) (by simp) (walkAll_sound _ subs p hp)
theorem walkAll_sound (inh : Option String) (cs : List MCls) : ∀ p ∈ walkAll inh cs, Below inh cs p.1 p.2 := by
  cases cs with
  | nil => intro p hp; simp [walkAll] at hp
  | cons c t =>
    intro p hp
    rw [walkAll, List.mem_append] at hp
    rcases hp with hp | hp
    · exact (walkCls_sound inh c p hp).mono (by simp)
    · exact (walkAll_sound inh t p hp).mono fun c hc => List.mem_cons_of_mem _ hc
end

theorem walkAll_mem {inh : Option String} {cs : List MCls} {c : MCls} (h : c ∈ cs) : ∀ p ∈ walkCls inh c, p ∈ walkAll inh cs := by
  induction cs with
  | nil => simp at h
  | cons a t ih =>
    intro p hp
    rw [walkAll, List.mem_append]
    rcases List.mem_cons.1 h with rfl | h
    · exact Or.inl hp
    · exact Or.inr (ih h p hp)

theorem walkAll_complete {inh : Option String} {cs : List MCls} {i : String} {n : Option String} (h : Below inh cs i n) : (i, n) ∈ walkAll inh cs := by
  induction h with
  | here h => exact walkAll_mem h _ (by simp [walkCls, effName_eq])
  | deeper h hb ih => exact walkAll_mem h _ (by rw [walkCls, effName_eq]; exact List.mem_cons_of_mem _ ih)

theorem walkAll_iff (inh : Option String) (cs : List MCls) (i : String) (n : Option String) : (i, n) ∈ walkAll inh cs ↔ Below inh cs i n :=
  ⟨fun h => walkAll_sound inh cs _ h, walkAll_complete⟩

/-! ### the dictionary -/

theorem putKey_keys (d : List (String × String)) (k v : String) :
    (putKey d k v).map (·.1) = if k ∈ d.map (·.1) then d.map (·.1) else d.map (·.1) ++ [k] := by
  unfold putKey
  have hiff : d.any (fun p => p.1 == k) = true ↔ k ∈ d.map (·.1) := by
    simp [List.any_eq_true]
  by_cases h : d.any (fun p => p.1 == k) = true
  · rw [if_pos h, if_pos (hiff.1 h), List.map_map]
    apply List.map_congr_left
    intro p _
    by_cases hp : p.1 = k <;> simp [hp]
  · rw [if_neg h, if_neg (fun h' => h (hiff.2 h'))]
    simp

theorem putKey_lookup (d : List (String × String)) (k v k' : String) :
    (putKey d k v).lookup k' = if k' = k then some v else d.lookup k' := by
  unfold putKey
  split_ifs with h1 h2 h2
  · subst h2
    induction d with
    | nil => simp at h1
    | cons p t ih =>
      by_cases hp : p.1 = k'
      · simp [hp]
      · have : t.any (fun p => p.1 == k') = true := by simpa [hp] using h1
        have hp' : ¬ k' = p.1 := fun h => hp h.symm
        simp only [List.map_cons, beq_iff_eq, hp, if_false]
        rw [show p = (p.1, p.2) from rfl, List.lookup_cons]
        simp only [beq_iff_eq] at ih
        have hb : (k' == p.1) = false := by simpa using hp'
        rw [hb]
        exact ih this
  · clear h1
    induction d with
    | nil => rfl
    | cons p t ih =>
      by_cases hp : p.1 = k
      · have : (k' == p.1) = false := by simpa [hp] using h2
        have h3 : (k' == k) = false := by simpa using h2
        obtain ⟨a, b⟩ := p
        simp only at hp this
        simp [hp, List.lookup_cons, h3] at ih ⊢
        exact ih
      · obtain ⟨a, b⟩ := p
        simp only at hp
        simp [hp, List.lookup_cons] at ih ⊢
        rw [ih]
  · subst h2
    have : d.lookup k' = none := by
      rw [List.lookup_eq_none_iff]
      intro p hp
      simp only [List.any_eq_true, not_exists, not_and] at h1
      have := h1 p hp
      simp at this
      simpa using fun h => this h.symm
    rw [List.lookup_append, this]
    simp
  · rw [List.lookup_append]
    have : (k' == k) = false := by simpa using h2
    simp [List.lookup_cons, this]

/-- the keys and classes registered by a list of classes, last one wins -/
theorem fold_lookup (l : List (String × Option String)) (d : List (String × String)) (k : String) :
    (l.foldl registerOne d).lookup k =
      match (l.filter fun p => match p.2 with | some n => decide (n ≠ "" ∧ metricKey n = k) | none => false).getLast? with
      | some p => some p.1
      | none => d.lookup k := by
  induction l generalizing d with
  | nil => rfl
  | cons p t ih =>
    rw [List.foldl_cons, ih]
    obtain ⟨i, n⟩ := p
    cases n with
    | none => simp [registerOne]
    | some n =>
      by_cases h : n ≠ "" ∧ metricKey n = k
      · rw [List.filter_cons_of_pos (by simpa using h), List.getLast?_cons]
        cases hg : (t.filter fun p => match p.2 with | some n => decide (n ≠ "" ∧ metricKey n = k) | none => false).getLast? with
        | some q => simp
        | none => simp [registerOne, h.1, putKey_lookup, h.2]
      · rw [List.filter_cons_of_neg (by simpa using h)]
        cases hg : (t.filter fun p => match p.2 with | some n => decide (n ≠ "" ∧ metricKey n = k) | none => false).getLast? with
        | some q => rfl
        | none =>
          simp only [registerOne]
          by_cases hn : n = ""
          · simp [hn]
          · rw [if_neg hn, putKey_lookup, if_neg (fun e => h ⟨hn, e.symm⟩)]

theorem fold_nodup (l : List (String × Option String)) (d : List (String × String)) (hd : (d.map (·.1)).Nodup) : ((l.foldl registerOne d).map (·.1)).Nodup := by
  induction l generalizing d with
  | nil => exact hd
  | cons p t ih =>
    rw [List.foldl_cons]
    apply ih
    unfold registerOne
    split
    · exact hd
    · split_ifs with hn
      · exact hd
      · rw [putKey_keys]
        split_ifs with hk
        · exact hd
        · rw [List.nodup_append]
          exact ⟨hd, by simp, by simpa using fun a b h1 h2 => hk (by simpa using ⟨b, h2 ▸ h1⟩)⟩

theorem lookup_isSome (d : List (String × String)) (k : String) : (∃ v, d.lookup k = some v) ↔ k ∈ d.map (·.1) := by
  induction d with
  | nil => simp
  | cons p t ih =>
    obtain ⟨a, b⟩ := p
    by_cases h : k = a
    · subst h; simp
    · have h' : (k == a) = false := by simpa using h
      simp [List.lookup_cons, h', h] at ih ⊢
      exact ih

theorem update_lookup_mem {classes : List MCls} {k c : String} (h : (updateMetrics classes).lookup k = some c) : IsMetric classes k c := by
  rw [updateMetrics, fold_lookup] at h
  cases hg : ((walkAll none classes).filter fun p => match p.2 with | some n => decide (n ≠ "" ∧ metricKey n = k) | none => false).getLast? with
  | none => rw [hg] at h; simp at h
  | some p =>
    rw [hg] at h
    simp only [Option.some.injEq] at h
    subst h
    have hm := List.mem_of_getLast? hg
    rw [List.mem_filter] at hm
    obtain ⟨i, n⟩ := p
    cases n with
    | none => simp at hm
    | some n => exact ⟨n, (walkAll_iff _ _ _ _).1 hm.1, by simpa using hm.2⟩

theorem update_lookup_exists {classes : List MCls} {k c : String} (h : IsMetric classes k c) : ∃ c', (updateMetrics classes).lookup k = some c' := by
  obtain ⟨n, hb, hn, hk⟩ := h
  rw [updateMetrics, fold_lookup]
  have hm : (c, some n) ∈ (walkAll none classes).filter fun p => match p.2 with | some n => decide (n ≠ "" ∧ metricKey n = k) | none => false := by
    rw [List.mem_filter]
    exact ⟨walkAll_complete hb, by simp [hn, hk]⟩
  cases hg : ((walkAll none classes).filter fun p => match p.2 with | some n => decide (n ≠ "" ∧ metricKey n = k) | none => false).getLast? with
  | none => rw [List.getLast?_eq_none_iff] at hg; rw [hg] at hm; simp at hm
  | some p => exact ⟨p.1, rfl⟩

/-! ### the property -/

/-- **C75**, listing: when the registry is empty or refreshed, the names listed are exactly the keys of the metrics of the class tree, each
once. -/
theorem C75_listed (classes : List MCls) (force : Bool) (d : List (String × String)) (h : d = [] ∨ force = true) :
    (∀ k, k ∈ (listMetrics classes force d).1 ↔ ∃ c, IsMetric classes k c) ∧ (listMetrics classes force d).1.Nodup := by
  simp only [listMetrics, refresh, if_pos h]
  refine ⟨fun k => ?_, fold_nodup _ _ (by simp)⟩
  rw [← lookup_isSome]
  exact ⟨fun ⟨c, hc⟩ => ⟨c, update_lookup_mem hc⟩, fun ⟨c, hc⟩ => update_lookup_exists hc⟩

/-- **C75**, creating: when the registry is empty or refreshed, a name is either the key of a metric, and then the class created is such a
metric; or it is not, and then `KeyError` is raised. -/
theorem C75_create (classes : List MCls) (name : String) (force : Bool) (d : List (String × String)) (h : d = [] ∨ force = true) :
    (∀ c, (createMetric classes name force d).1 = .ok c → IsMetric classes name c) ∧
    ((createMetric classes name force d).1 = .error .KeyError ↔ ∀ c, ¬ IsMetric classes name c) ∧
    ∀ e, (createMetric classes name force d).1 = .error e → e = .KeyError := by
  simp only [createMetric, refresh, if_pos h]
  cases hl : (updateMetrics classes).lookup name with
  | some c =>
    refine ⟨?_, ?_, ?_⟩
    · intro c' hc; cases hc; exact update_lookup_mem hl
    · simp only [reduceCtorEq, false_iff, not_forall, not_not]
      exact ⟨c, update_lookup_mem hl⟩
    · intro e he; cases he
  | none =>
    refine ⟨?_, ?_, ?_⟩
    · intro c hc; cases hc
    · simp only [true_iff]
      intro c hc
      obtain ⟨c', hc'⟩ := update_lookup_exists hc
      rw [hl] at hc'; cases hc'
    · intro e he; cases he; rfl

/-- **C75**, the class of that name, when no two classes have the same key. Without this the last class in the order of the walk is created
(`C75_last_wins`), for example a subclass that only inherits the name (`C75_inherited_wrong`). -/
theorem C75_own_class_partial (classes : List MCls) (name c : String) (force : Bool) (d : List (String × String)) (h : d = [] ∨ force = true)
    (hm : IsMetric classes name c) (hu : ∀ c', IsMetric classes name c' → c' = c) : (createMetric classes name force d).1 = .ok c := by
  obtain ⟨c', hc'⟩ := update_lookup_exists hm
  have := hu c' (update_lookup_mem hc')
  subst this
  simp [createMetric, refresh, if_pos h, hc']

/-- Which class is created in general: the last one of the walk (parents before their subclasses, siblings in order) that has the key. -/
theorem C75_last_wins (classes : List MCls) (name : String) (force : Bool) (d : List (String × String)) (h : d = [] ∨ force = true)
    (pre post : List (String × Option String)) (c n : String) (hw : walkAll none classes = pre ++ (c, some n) :: post) (hn : n ≠ "") (hk : metricKey n = name)
    (hpost : ∀ c' n', (c', some n') ∈ post → n' ≠ "" → metricKey n' ≠ name) : (createMetric classes name force d).1 = .ok c := by
  have : (updateMetrics classes).lookup name = some c := by
    rw [updateMetrics, fold_lookup, hw, List.filter_append, List.filter_cons_of_pos (by simp [hn, hk])]
    have hp : (post.filter fun p => match p.2 with | some n => decide (n ≠ "" ∧ metricKey n = name) | none => false) = [] := by
      rw [List.filter_eq_nil_iff]
      rintro ⟨c', n'⟩ hp
      cases n' with
      | none => simp
      | some n' =>
        have := hpost c' n' hp
        simpa using this
    rw [hp]
    simp
  simp [createMetric, refresh, if_pos h, this]

/-- A subclass that does not set a name takes the place of its parent: the parent's metric cannot be created any more. -/
theorem C75_inherited_wrong : (createMetric [.mk "KLD" (some (some "kld")) [.mk "FastKLD" none []]] "kld" true []).1 = .ok "FastKLD" := by
  decide +kernel

/-- **C75**, refreshing: refreshing again changes nothing, and neither does any call without `force_update` after it. -/
theorem C75_idempotent (classes : List MCls) (force : Bool) (d : List (String × String)) (name : String) :
    (listMetrics classes true (listMetrics classes true d).2) = listMetrics classes true d ∧
    (listMetrics classes force (listMetrics classes true d).2) = listMetrics classes true d ∧
    (createMetric classes name force (listMetrics classes true d).2).2 = (listMetrics classes true d).2 := by
  have hr : refresh classes true d = updateMetrics classes := by simp [refresh]
  have hr2 : ∀ f, refresh classes f (updateMetrics classes) = updateMetrics classes := by intro f; simp [refresh]
  refine ⟨by simp [listMetrics, hr, hr2], by simp [listMetrics, hr, hr2], ?_⟩
  simp only [listMetrics, hr, createMetric, hr2]
  split <;> rfl

/-- Without `force_update` a registry that is not empty is used as it is: classes defined after it was filled are not found. -/
theorem C75_stale (classes : List MCls) (d : List (String × String)) (hd : d ≠ []) (name : String) :
    (listMetrics classes false d) = (d.map (·.1), d) ∧ (createMetric classes name false d).2 = d ∧
    (name ∉ d.map (·.1) → (createMetric classes name false d).1 = .error .KeyError) := by
  have hr : refresh classes false d = d := by simp [refresh, hd]
  refine ⟨by simp [listMetrics, hr], ?_, ?_⟩
  · simp only [createMetric, hr, listMetrics]
    split <;> rfl
  · intro h
    have : d.lookup name = none := by
      by_contra hc
      obtain ⟨v, hv⟩ := Option.ne_none_iff_exists'.1 hc
      exact h ((lookup_isSome d name).1 ⟨v, hv⟩)
    simp [createMetric, hr, this]

/-- the tree of `concrete_metric_classes.py` and `point_estimate_metric_classes.py` -/
def qpTree : List MCls :=
  [.mk "SingleEnsembleMetric" none [.mk "MomentMetric" (some (some "moment")) [], .mk "RBPEMetric" (some (some "rbpe")) [],
      .mk "OutlierMetric" (some (some "outlier")) []],
   .mk "DistToDistMetric" none [.mk "KLDMetric" (some (some "kld")) [], .mk "RMSEMetric" (some (some "rmse")) [], .mk "ADMetric" (some (some "ad")) [],
      .mk "CvMMetric" (some (some "cvm")) [], .mk "KSMetric" (some (some "ks")) []],
   .mk "DistToPointMetric" none [.mk "DistToPointMetricDigester" none [.mk "BrierMetric" (some (some "brier")) [],
      .mk "PITMetric" (some (some "pit")) [], .mk "CDELossMetric" (some (some "cdeloss")) []]],
   .mk "PointToPointMetric" none [.mk "PointToPointMetricDigester" none [.mk "PointSigmaIQR" (some (some "point_stats_iqr")) [],
      .mk "PointBias" (some (some "point_bias")) [], .mk "PointOutlierRate" (some (some "point_outlier_rate")) [],
      .mk "PointSigmaMAD" (some (some "point_stats_sigma_mad")) []], .mk "PointStatsEz" (some (some "point_stats_ez")) []],
   .mk "PointToDistMetric" none []]

example : (listMetrics qpTree false []).1 = ["moment", "rbpe", "outlier", "kld", "rmse", "ad", "cvm", "ks", "brier", "pit", "cdeloss",
      "point_stats_iqr", "point_bias", "point_outlier_rate", "point_stats_sigma_mad", "point_stats_ez"] ∧
    (createMetric qpTree "brier" false []).1 = .ok "BrierMetric" ∧ (createMetric qpTree "Brier" false []).1 = .error .KeyError := by decide +kernel

example : metricKey "MyMetricMetric2" = "My2" := by decide +kernel

end Verif.Props.MetricRegistry
