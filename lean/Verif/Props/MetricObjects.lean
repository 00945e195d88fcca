import Verif.Model.MetricObjects
import Verif.Props.Divergence
import Mathlib.Algebra.Order.Ring.Rat
import Mathlib.Data.Rat.Floor

/-!
# C99: metric objects use the settings they are given, and which keywords they ignore
-/

set_option linter.unusedSectionVars false
set_option autoImplicit false

namespace Verif.Props.MetricObjects

open Verif Verif.Np Verif.Model

section
variable {K : Type} [Field K] [LinearOrder K]

/-! ## Specification -/

/-- the settings of each metric: keyword, attribute that keeps it, default -/
def settings : Metric → List (String × String × MVal K)
  | .moment => [("moment_order", "_moment_order", .nat 1), ("limits", "_limits", .pair 0 3), ("dx", "_dx", .num (1 / 100))]
  | .kld | .rmse => [("limits", "_limits", .pair 0 3), ("dx", "_dx", .num (1 / 100))]
  | .rbpe => [("limits", "_limits", .infPair)]
  | .brier => [("limits", "_limits", .pair 0 3), ("dx", "_dx", .num (1 / 100)), ("tdigest_compression", "_tdigest_compression", .nat 1000)]
  | .outlier => [("cdf_limits", "_cdf_limits", .pair (1 / 10000) (9999 / 10000))]
  | .ad | .cvm | .ks => [("num_samples", "_num_samples", .nat 100), ("_random_state", "_random_state", .none_)]
  | .pit => [("eval_grid", "_eval_grid", .grid (linspace 0 1 100)), ("tdigest_compression", "_tdigest_compression", .nat 1000),
      ("limits", "_limits", .pair 0 3), ("dx", "_dx", .num (1 / 100))]
  | .cdeloss => [("eval_grid", "_xvals", .grid (linspace 0 (5 / 2) 301))]
  | .ez => []
  | .iqr | .bias | .pointOutlier => [("tdigest_compression", "_tdigest_compression", .nat 1000)]
  | .mad => [("tdigest_compression", "_tdigest_compression", .nat 1000), ("num_bins", "_num_bins", .nat 1000000)]

/-- the keywords that a metric knows -/
def known (K : Type) [Field K] [LinearOrder K] (m : Metric) : List String := (settings (K := K) m).map Prod.fst

/-- the metrics that refuse keywords they do not know -/
def Strict (m : Metric) : Prop := m = .brier ∨ m = .pit ∨ m = .ez

instance (m : Metric) : Decidable (Strict m) := by unfold Strict; infer_instance

/-- the value a setting should have: the given one, otherwise the default -/
def Chosen (kw : Kw K) (k : String) (d v : MVal K) : Prop := kw.lookup k = some v ∨ (kw.lookup k = none ∧ v = d)

/-! ## Lemmas -/

theorem lookup_filter (kw : Kw K) (P : String → Bool) (k : String) (h : P k = true) :
    (kw.filter fun p => P p.1).lookup k = kw.lookup k := by
  induction kw with
  | nil => rfl
  | cons p kw ih =>
    obtain ⟨a, v⟩ := p
    by_cases ha : P a = true
    · simp only [List.filter_cons, ha, if_true, List.lookup_cons]
      rw [ih]
    · have hk : (k == a) = false := by
        rw [beq_eq_false_iff_ne]; rintro rfl; exact ha h
      simp only [List.filter_cons, ha, List.lookup_cons, hk]
      exact ih

theorem lookup_filter_none (kw : Kw K) (P : String → Bool) (k : String) (h : P k = false) :
    (kw.filter fun p => P p.1).lookup k = none := by
  induction kw with
  | nil => rfl
  | cons p kw ih =>
    obtain ⟨a, v⟩ := p
    by_cases ha : P a = true
    · have hk : (k == a) = false := by
        rw [beq_eq_false_iff_ne]; rintro rfl; rw [h] at ha; exact absurd ha (by simp)
      simp only [List.filter_cons, ha, if_true, List.lookup_cons, hk]
      exact ih
    · simp only [List.filter_cons, ha]
      exact ih

theorem lookup_other (kw : Kw K) (ks : List String) (k : String) (h : k ∉ ks) : (otherArgs kw ks).lookup k = kw.lookup k :=
  lookup_filter kw (fun s => !ks.contains s) k (by simpa using h)

theorem lookup_other_none (kw : Kw K) (ks : List String) (k : String) (h : k ∈ ks) : (otherArgs kw ks).lookup k = none :=
  lookup_filter_none kw (fun s => !ks.contains s) k (by simpa using h)

theorem other_nil (kw : Kw K) (ks : List String) : otherArgs kw ks = [] ↔ ∀ p ∈ kw, p.1 ∈ ks := by
  unfold otherArgs
  rw [List.filter_eq_nil_iff]
  simp

theorem other_append (a b : Kw K) (ks : List String) : otherArgs (a ++ b) ks = otherArgs a ks ++ otherArgs b ks := by
  simp [otherArgs]

theorem mem_other (kw : Kw K) (ks : List String) (p : String × MVal K) : p ∈ otherArgs kw ks ↔ p ∈ kw ∧ p.1 ∉ ks := by
  simp [otherArgs]

theorem chosen_argOr (kw : Kw K) (k : String) (d : MVal K) : Chosen kw k d (argOr kw k d) := by
  unfold Chosen argOr
  cases h : kw.lookup k <;> simp

/-- what the chain of constructors computes when the resolution and the limits come as keywords -/
theorem base_pair (a b : MVal K) : baseInit [("limits", a), ("dx", b)] = .ok [("_limits", a), ("_dx", b)] := by
  simp [baseInit, otherArgs, argOr, List.lookup]

theorem base_one (a : MVal K) : baseInit [("limits", a)] = .ok [("_limits", a), ("_dx", defDx)] := by
  simp [baseInit, otherArgs, argOr, List.lookup]

theorem base_nil : baseInit ([] : Kw K) = .ok [("_limits", defLimits), ("_dx", defDx)] := by
  simp [baseInit, otherArgs, argOr, List.lookup]

theorem digester_eq (kw : Kw K) : distDigesterInit kw =
    if (∀ p ∈ kw, p.1 ∈ ["limits", "dx", "tdigest_compression"]) then
      .ok [("_limits", argOr kw "limits" defLimits), ("_dx", argOr kw "dx" defDx), ("_tdigest_compression", argOr kw "tdigest_compression" defCompression)]
    else .error .TypeError := by
  have hiff : otherArgs (otherArgs kw ["tdigest_compression"]) ["limits", "dx"] = [] ↔
      ∀ p ∈ kw, p.1 ∈ ["limits", "dx", "tdigest_compression"] := by
    rw [other_nil]
    simp only [mem_other, List.mem_cons, List.not_mem_nil, or_false]
    constructor
    · intro h p hp
      by_cases ht : p.1 = "tdigest_compression"
      · exact Or.inr (Or.inr ht)
      · rcases h p ⟨hp, ht⟩ with h | h
        · exact Or.inl h
        · exact Or.inr (Or.inl h)
    · rintro h p ⟨hp, ht⟩
      rcases h p hp with h | h | h
      · exact Or.inl h
      · exact Or.inr h
      · exact absurd h ht
  unfold distDigesterInit baseInit
  by_cases h : ∀ p ∈ kw, p.1 ∈ ["limits", "dx", "tdigest_compression"]
  · rw [if_pos h, if_neg (by rw [ne_eq, not_not]; exact hiff.2 h)]
    simp only [argOr, lookup_other kw ["tdigest_compression"] "limits" (by decide), lookup_other kw ["tdigest_compression"] "dx" (by decide)]
    rfl
  · rw [if_neg h, if_pos (by intro h'; exact h (hiff.1 h'))]
    rfl

theorem lookup_append (a b : Kw K) (k : String) : (a ++ b).lookup k = (a.lookup k).or (b.lookup k) := by
  induction a with
  | nil => simp
  | cons p a ih =>
    obtain ⟨x, v⟩ := p
    simp only [List.cons_append, List.lookup_cons]
    cases k == x <;> simp [ih]

theorem brier_eq (kw : Kw K) : metricInit .brier kw =
    if (∀ p ∈ kw, p.1 ∈ ["limits", "dx", "tdigest_compression"]) then
      .ok [("_limits", argOr kw "limits" defLimits), ("_dx", argOr kw "dx" defDx), ("_tdigest_compression", argOr kw "tdigest_compression" defCompression)]
    else .error .TypeError := by
  simp only [metricInit, digester_eq]
  have hiff : (∀ p ∈ otherArgs kw ["limits", "dx"] ++ [("limits", argOr kw "limits" defLimits), ("dx", argOr kw "dx" defDx)],
      p.1 ∈ ["limits", "dx", "tdigest_compression"]) ↔ ∀ p ∈ kw, p.1 ∈ ["limits", "dx", "tdigest_compression"] := by
    constructor
    · intro h p hp
      by_cases h' : p.1 ∈ ["limits", "dx"]
      · simp only [List.mem_cons, List.not_mem_nil, or_false] at h' ⊢
        tauto
      · exact h p (List.mem_append_left _ ((mem_other _ _ _).2 ⟨hp, h'⟩))
    · intro h p hp
      rcases List.mem_append.1 hp with hp | hp
      · exact h p ((mem_other _ _ _).1 hp).1
      · simp only [List.mem_cons, List.not_mem_nil, or_false] at hp
        rcases hp with rfl | rfl <;> simp
  by_cases h : ∀ p ∈ kw, p.1 ∈ ["limits", "dx", "tdigest_compression"]
  · rw [if_pos (hiff.2 h), if_pos h]
    simp only [argOr, lookup_append, lookup_other_none kw ["limits", "dx"] "limits" (by decide),
      lookup_other_none kw ["limits", "dx"] "dx" (by decide), lookup_other kw ["limits", "dx"] "tdigest_compression" (by decide)]
    simp [List.lookup]
  · rw [if_neg (fun h' => h (hiff.1 h')), if_neg h]

theorem pit_eq (kw : Kw K) : metricInit .pit kw =
    if (∀ p ∈ kw, p.1 ∈ ["eval_grid", "tdigest_compression", "limits", "dx"]) then
      .ok [("_limits", argOr kw "limits" defLimits), ("_dx", argOr kw "dx" defDx), ("_tdigest_compression", argOr kw "tdigest_compression" defCompression),
        ("_eval_grid", argOr kw "eval_grid" (.grid (linspace 0 1 100)))]
    else .error .TypeError := by
  simp only [metricInit, digester_eq]
  have hiff : (∀ p ∈ otherArgs kw ["eval_grid"], p.1 ∈ ["limits", "dx", "tdigest_compression"]) ↔
      ∀ p ∈ kw, p.1 ∈ ["eval_grid", "tdigest_compression", "limits", "dx"] := by
    simp only [mem_other, List.mem_cons, List.not_mem_nil, or_false]
    constructor
    · intro h p hp
      by_cases h' : p.1 = "eval_grid"
      · exact Or.inl h'
      · have := h p ⟨hp, h'⟩
        tauto
    · rintro h p ⟨hp, hn⟩
      have := h p hp
      tauto
  by_cases h : ∀ p ∈ kw, p.1 ∈ ["eval_grid", "tdigest_compression", "limits", "dx"]
  · rw [if_pos (hiff.2 h), if_pos h]
    simp only [argOr, lookup_other kw ["eval_grid"] "limits" (by decide), lookup_other kw ["eval_grid"] "dx" (by decide),
      lookup_other kw ["eval_grid"] "tdigest_compression" (by decide)]
    rfl
  · rw [if_neg (fun h' => h (hiff.1 h')), if_neg h]
    rfl

/-- all constructors at once -/
theorem init_cases (m : Metric) (kw : Kw K) :
    (Strict m ∧ (∃ p ∈ kw, p.1 ∉ known K m) ∧ metricInit m kw = .error .TypeError) ∨
    ((Strict m → ∀ p ∈ kw, p.1 ∈ known K m) ∧
      ∃ s, metricInit m kw = .ok s ∧ (∀ t ∈ settings m, s.lookup t.2.1 = some (argOr kw t.1 t.2.2)) ∧
      ∀ kw' : Kw K, (Strict m → ∀ p ∈ kw', p.1 ∈ known K m) → (∀ k ∈ known K m, kw'.lookup k = kw.lookup k) → metricInit m kw' = .ok s) := by
  cases m
  case brier =>
    by_cases h : ∀ p ∈ kw, p.1 ∈ ["limits", "dx", "tdigest_compression"]
    · refine Or.inr ⟨fun _ => h, _, by rw [brier_eq, if_pos h], ?_, ?_⟩
      · intro t ht
        simp only [settings, List.mem_cons, List.not_mem_nil, or_false] at ht
        rcases ht with rfl | rfl | rfl <;> rfl
      · intro kw' hs hk
        have hs' : ∀ p ∈ kw', p.1 ∈ ["limits", "dx", "tdigest_compression"] := hs (Or.inl rfl)
        rw [brier_eq, if_pos hs']
        simp only [argOr, hk "limits" (by simp [known, settings]), hk "dx" (by simp [known, settings]),
          hk "tdigest_compression" (by simp [known, settings])]
    · refine Or.inl ⟨Or.inl rfl, ?_, by rw [brier_eq, if_neg h]⟩
      push Not at h
      exact h
  case pit =>
    by_cases h : ∀ p ∈ kw, p.1 ∈ ["eval_grid", "tdigest_compression", "limits", "dx"]
    · refine Or.inr ⟨fun _ => h, _, by rw [pit_eq, if_pos h], ?_, ?_⟩
      · intro t ht
        simp only [settings, List.mem_cons, List.not_mem_nil, or_false] at ht
        rcases ht with rfl | rfl | rfl | rfl <;> rfl
      · intro kw' hs hk
        have hs' : ∀ p ∈ kw', p.1 ∈ ["eval_grid", "tdigest_compression", "limits", "dx"] := hs (Or.inr (Or.inl rfl))
        rw [pit_eq, if_pos hs']
        simp only [argOr, hk "limits" (by simp [known, settings]), hk "dx" (by simp [known, settings]),
          hk "tdigest_compression" (by simp [known, settings]), hk "eval_grid" (by simp [known, settings])]
    · refine Or.inl ⟨Or.inr (Or.inl rfl), ?_, by rw [pit_eq, if_neg h]⟩
      push Not at h
      exact h
  case ez =>
    cases kw with
    | nil =>
      refine Or.inr ⟨by simp, _, by simp only [metricInit, ne_eq, not_true_eq_false, if_false]; exact base_nil, by simp [settings], ?_⟩
      intro kw' hs _
      cases kw' with
      | nil => simp only [metricInit, ne_eq, not_true_eq_false, if_false]; exact base_nil
      | cons p l => exact absurd (hs (Or.inr (Or.inr rfl)) p (List.mem_cons_self)) (by simp [known, settings])
    | cons p l =>
      exact Or.inl ⟨Or.inr (Or.inr rfl), ⟨p, List.mem_cons_self, by simp [known, settings]⟩, by simp [metricInit]⟩
  all_goals
    refine Or.inr ⟨fun h => absurd h (by decide), _,
      by simp only [metricInit, pointDigesterInit, digester_eq, base_pair, base_one, base_nil, Bind.bind, Except.bind]; rfl, ?_, ?_⟩
    · intro t ht
      simp only [settings, List.mem_cons, List.not_mem_nil, or_false] at ht
      rcases ht with rfl | rfl | rfl <;> rfl
    · intro kw' _ hk
      simp [known, settings] at hk
      simp only [metricInit, pointDigesterInit, digester_eq, base_pair, base_one, base_nil, Bind.bind, Except.bind, argOr, hk]
      try rfl

/-! ## C99 -/

/-- A constructor succeeds or raises `TypeError`; it raises exactly when the metric is the Brier score, the PIT or the point statistic `ez` and a
keyword is not one of its settings. -/
theorem C99_refused (m : Metric) (kw : Kw K) :
    (metricInit m kw = .error .TypeError ↔ Strict m ∧ ∃ p ∈ kw, p.1 ∉ known K m) ∧
    (metricInit m kw ≠ .error .TypeError → ∃ s, metricInit m kw = .ok s) := by
  rcases init_cases m kw with ⟨h1, h2, h3⟩ | ⟨h1, s, h2, _⟩
  · exact ⟨⟨fun _ => ⟨h1, h2⟩, fun _ => h3⟩, fun h => absurd h3 h⟩
  · refine ⟨⟨fun h => absurd (h2.symm.trans h) (by simp), ?_⟩, fun _ => ⟨s, h2⟩⟩
    rintro ⟨hs, p, hp, hn⟩
    exact absurd (h1 hs p hp) hn

/-- Every setting of the constructed object is the given one, and the default when none is given.
Missing: unknown keywords, which most classes ignore (`C99_misspelt`). -/
theorem C99_settings_partial (m : Metric) (kw s : Kw K) (h : metricInit m kw = .ok s) (k a : String) (d : MVal K) (ht : (k, a, d) ∈ settings m) :
    ∃ v, s.lookup a = some v ∧ Chosen kw k d v := by
  rcases init_cases m kw with ⟨_, _, h3⟩ | ⟨_, s', h2, h3, _⟩
  · rw [h3] at h; cases h
  · rw [h2] at h
    cases h
    exact ⟨_, h3 _ ht, chosen_argOr kw k d⟩

/-- Keywords that are not settings are ignored by the other metrics: the object is the one without them. -/
theorem C99_ignored (m : Metric) (kw : Kw K) (h : ¬ Strict m) :
    metricInit m kw = metricInit m (kw.filter fun p => (known K m).contains p.1) := by
  rcases init_cases m kw with ⟨h1, _⟩ | ⟨_, s, h2, _, h4⟩
  · exact absurd h1 h
  · rw [h2]
    exact (h4 _ (fun hs => absurd hs h) fun k hk => lookup_filter kw (fun s => (known K m).contains s) k (by simpa using hk)).symm

/-- Every setting matters: two values of it give different objects. -/
theorem C99_matters (m : Metric) (k : String) (hk : k ∈ known K m) (u v : MVal K) (huv : u ≠ v) :
    metricInit m [(k, u)] ≠ metricInit m [(k, v)] := by
  intro h
  obtain ⟨t, ht, rfl⟩ := List.mem_map.1 hk
  have key : ∀ w : MVal K, ∃ s, metricInit m [(t.1, w)] = .ok s ∧ s.lookup t.2.1 = some w := by
    intro w
    rcases init_cases m [(t.1, w)] with ⟨_, ⟨p, hp, hn⟩, _⟩ | ⟨_, s, h2, h3, _⟩
    · rw [List.mem_singleton] at hp
      rw [hp] at hn
      exact absurd hk hn
    · exact ⟨s, h2, by rw [h3 t ht]; simp [argOr, List.lookup]⟩
  obtain ⟨s, hs, hu⟩ := key u
  obtain ⟨s', hs', hv⟩ := key v
  rw [hs, hs'] at h
  cases h
  rw [hu] at hv
  exact huv (Option.some.inj hv)

/-- Finding: a keyword that is not spelt as the parameter (`limit` for `limits`) is dropped without an error by the divergence, which then uses the
default limits, and by twelve more metrics; three metrics raise `TypeError`. -/
theorem C99_misspelt (m : Metric) (k : String) (v : MVal K) (hk : k ∉ known K m) :
    if Strict m then metricInit m [(k, v)] = .error .TypeError else metricInit m [(k, v)] = metricInit m [] := by
  split
  · rename_i h
    exact ((C99_refused m _).1).2 ⟨h, _, List.mem_singleton.2 rfl, hk⟩
  · rename_i h
    rw [C99_ignored m _ h]
    congr 1
    simp only [List.filter_cons, List.filter_nil]
    rw [if_neg (by simpa using hk)]

end

example : metricInit (K := ℚ) .kld [("limit", .pair 0 1), ("dx", .num 1)] = .ok [("_limits", .pair 0 3), ("_dx", .num 1)] := by decide +kernel

example : metricInit (K := ℚ) .brier [("limit", .pair 0 1)] = .error .TypeError := by decide +kernel

example : metricInit (K := ℚ) .brier [("limits", .pair 0 1), ("tdigest_compression", .nat 50)] =
    .ok [("_limits", .pair 0 1), ("_dx", .num (1 / 100)), ("_tdigest_compression", .nat 50)] := by decide +kernel

example := C99_settings_partial (K := ℚ) .mad [("num_bins", .nat 10)] _ rfl "num_bins" "_num_bins" (.nat 1000000) (by simp [settings])

example := C99_misspelt (K := ℚ) .outlier "limits" (.pair 0 1) (by decide +kernel)

example := C99_matters (K := ℚ) .pit "eval_grid" (by simp [known, settings]) (.grid [0, 1]) (.grid [0, 1, 2]) (by simp)

/-! ### Evaluation -/

/-- The divergence and the root mean square error of an object are those of the functions with the chosen limits and resolution. -/
theorem C99_evaluate_real (kw : Kw ℝ) (l0 l1 dx : ℝ) (hl : Chosen kw "limits" (.pair 0 3) (.pair l0 l1)) (hd : Chosen kw "dx" (.num (1 / 100)) (.num dx))
    (e r : FnEns ℝ) :
    (metricInit .kld kw >>= fun s => kldEvaluate s e r) = calculateKld e r l0 l1 dx ∧
    (metricInit .rmse kw >>= fun s => rmseEvaluate s e r) = calculateRmse e r l0 l1 dx := by
  have hl' : argOr kw "limits" defLimits = .pair l0 l1 := by
    rcases hl with h | ⟨h, h'⟩
    · simp [argOr, h]
    · simp [argOr, h, defLimits, h']
  have hd' : argOr kw "dx" defDx = .num dx := by
    rcases hd with h | ⟨h, h'⟩
    · simp [argOr, h]
    · simp only [argOr, h, defDx, h', Option.getD_none]
  constructor <;> simp only [metricInit, base_pair, hl', hd'] <;> rfl

example := C99_evaluate_real [("dx", .num 1)] 0 3 1 (Or.inr ⟨rfl, rfl⟩) (Or.inl rfl) ⟨[1], [fun _ => 1 / 3]⟩ ⟨[1], [fun x => x]⟩

section
variable {K : Type} [Field K] [LinearOrder K] [FloorRing K]

/-- The moment, the Brier score and the outlier rate of an object are those of the functions with the chosen settings; the Brier score needs that no
other keyword is given. -/
theorem C99_evaluate (kw : Kw K) (n : ℕ) (l0 l1 dx : K) (hn : Chosen kw "moment_order" (.nat 1) (.nat n))
    (hl : Chosen kw "limits" (.pair 0 3) (.pair l0 l1)) (hd : Chosen kw "dx" (.num (1 / 100)) (.num dx)) (e : FnEns K) :
    (metricInit .moment kw >>= fun s => momentEvaluate s e) = calculateMoment e n l0 l1 dx ∧
    ∀ r : List K, (∀ p ∈ kw, p.1 ∈ ["limits", "dx", "tdigest_compression"]) →
      (metricInit .brier kw >>= fun s => brierMetricEvaluate s e r) = calculateBrier e r l0 l1 dx := by
  have hl' : argOr kw "limits" defLimits = .pair l0 l1 := by
    rcases hl with h | ⟨h, h'⟩
    · simp [argOr, h]
    · simp [argOr, h, defLimits, h']
  have hd' : argOr kw "dx" defDx = .num dx := by
    rcases hd with h | ⟨h, h'⟩
    · simp [argOr, h]
    · simp only [argOr, h, defDx, h', Option.getD_none]
  have hn' : argOr kw "moment_order" (.nat 1) = .nat n := by
    rcases hn with h | ⟨h, h'⟩
    · simp [argOr, h]
    · simp only [argOr, h, h', Option.getD_none]
  constructor
  · simp only [metricInit, base_pair, hl', hd', hn']
    rfl
  · intro r hk
    rw [brier_eq, if_pos hk, hl', hd']
    rfl

/-- The outlier rate with the chosen interval, whatever the other keywords are: with an interval `(a, b)` it is the mass below `a` and above `b`. -/
theorem C99_outlier (kw : Kw K) (a b : K) (h : Chosen kw "cdf_limits" (.pair (1 / 10000) (9999 / 10000)) (.pair a b)) (e : FnEns K) :
    (metricInit .outlier kw >>= fun s => outlierEvaluate s e) = .ok (e.fns.map fun F => F a + (1 - F b)) := by
  have h' : argOr kw "cdf_limits" (.pair (1 / 10000) (9999 / 10000)) = .pair a b := by
    rcases h with h | ⟨h, h'⟩
    · simp [argOr, h]
    · simp only [argOr, h, h', Option.getD_none]
  simp only [metricInit, base_nil, h']
  rfl

end

example : (metricInit (K := ℚ) .moment [("moment_order", .nat 2), ("dx", .num 1), ("limits", .pair 0 2)] >>= fun s =>
    momentEvaluate s ⟨[1], [fun _ => 1 / 2]⟩) = calculateMoment ⟨[1], [fun _ => 1 / 2]⟩ 2 0 2 1 :=
  (C99_evaluate (K := ℚ) _ 2 0 2 1 (Or.inl rfl) (Or.inl rfl) (Or.inl rfl) _).1

example := C99_evaluate (K := ℚ) [("limits", .pair 0 2)] 1 0 2 (1 / 100) (Or.inr ⟨rfl, rfl⟩) (Or.inl rfl) (Or.inr ⟨rfl, rfl⟩) ⟨[1], [fun _ => 1 / 2]⟩

example := C99_outlier (K := ℚ) [("limits", .pair 0 2)] (1 / 10000) (9999 / 10000) (Or.inr ⟨rfl, rfl⟩) ⟨[1], [id]⟩

/-- Finding: the object hands the estimate over as the distribution "closer to the truth" and the reference as the one that approximates it
(documentation of `calculate_kld`, `metrics.py` 89-92). With the roles as documented the value is another one. -/
theorem C99_kld_direction : ∃ (f h : ℝ → ℝ) (kw : Kw ℝ) (v : ℝ),
    (metricInit .kld kw >>= fun s => kldEvaluate s ⟨[1], [f]⟩ ⟨[1], [h]⟩) = .ok [v] ∧ calculateKld ⟨[1], [h]⟩ ⟨[1], [f]⟩ 0 2 1 = .ok [machEps] ∧
    kw.lookup "limits" = some (.pair 0 2) ∧ kw.lookup "dx" = some (.num 1) ∧ v ≠ machEps := by
  have hlog : 0 < Real.log 2 := Real.log_pos (by norm_num)
  have heps : machEps ≤ 1 / 2 := by unfold machEps; norm_num
  have m1 : max (1 : ℝ) machEps = 1 := max_eq_left (by linarith)
  have m2 : max (1 / 2 : ℝ) machEps = 1 / 2 := max_eq_left heps
  have l2 : Real.log (1 / 2) = - Real.log 2 := by rw [one_div, Real.log_inv]
  have k1 : Props.Metrics.kldOn [0, 2] 2 (fun _ => 1) (fun _ => 1 / 2) = 4 * Real.log 2 := by
    simp only [Props.Metrics.kldOn, m1, m2, l2, Real.log_one, List.map_cons, List.map_nil, List.sum_cons, List.sum_nil]; ring
  have k2 : Props.Metrics.kldOn [0, 2] 2 (fun _ => 1 / 2) (fun _ => 1) = - 2 * Real.log 2 := by
    simp only [Props.Metrics.kldOn, m1, m2, l2, Real.log_one, List.map_cons, List.map_nil, List.sum_cons, List.sum_nil]; ring
  refine ⟨fun _ => 1, fun _ => 1 / 2, [("limits", .pair 0 2), ("dx", .num 1)], 4 * Real.log 2, ?_, ?_, rfl, rfl, ?_⟩
  · rw [(C99_evaluate_real _ 0 2 1 (Or.inl rfl) (Or.inl rfl) _ _).1,
      Props.Metrics.kld_unfold (p := ⟨[1], [fun _ => 1]⟩) (q := ⟨[1], [fun _ => 1 / 2]⟩) rfl Props.Metrics.grid_0_2_1, if_neg]
    · simp only [List.zipWith_cons_cons, List.zipWith_nil_left, k1]
    · rintro ⟨v, hv, hn⟩
      simp only [List.zipWith_cons_cons, List.zipWith_nil_left, List.mem_singleton, k1] at hv
      rw [hv] at hn
      linarith
  · rw [Props.Metrics.C68_any_negative ⟨[1], [fun _ => 1 / 2]⟩ ⟨[1], [fun _ => 1]⟩ _ _ _ _ Props.Metrics.grid_0_2_1 rfl]
    · rfl
    · refine ⟨_, by simp only [List.zipWith_cons_cons, List.zipWith_nil_left]; exact List.mem_singleton.2 rfl, ?_⟩
      rw [k2]
      linarith
  · have h4 : (1 / 2 : ℝ) < 4 * Real.log 2 := by
      have := Real.one_sub_inv_le_log_of_pos (show (0 : ℝ) < 2 by norm_num)
      norm_num at this
      linarith
    exact ne_of_gt (lt_of_le_of_lt heps h4)

end Verif.Props.MetricObjects
