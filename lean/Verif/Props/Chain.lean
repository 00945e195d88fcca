import Verif.Props.Contraction
import Verif.Props.MetricClose
import Verif.Props.FineConvert

/-!
# C151: errors of repeated conversions add up

A user converts an ensemble to a histogram, the result to another histogram, and so on.
-/

set_option linter.unusedSectionVars false
set_option autoImplicit false

namespace Verif.Props.Chain

open Verif Verif.Np Verif.Model Verif.Spec Verif.Lemmas Verif.Props.Convert Verif.Props.Hist Verif.Props.ConvertError Verif.Props.Contraction Verif.Props.MetricClose Set

/-- `ens.convert_to(hist_gen, bins=b₁).convert_to(hist_gen, bins=b₂)…`: `Ensemble.convert_to` (`ensemble.py` 127-163) again and again; `ev` answers for the class of the first ensemble, `hev` for histograms -/
noncomputable def chainHist (hev : Evals ℝ) : Evals ℝ → Ens ℝ → List (List ℝ) → Except Err (Ens ℝ)
  | _, e, [] => .ok e
  | ev, e, b :: bs => do
    let e' ← convertTo (histPy ev) e none [("bins", .arr (vec b))]
    chainHist hev hev e' bs

/-- distribution functions with all the mass between `a` and `z`: what `cdf` answers at increasing points -/
structure Within (ev : Evals ℝ) (e : Ens ℝ) (F : ℕ → ℝ → ℝ) (a z : ℝ) : Prop where
  shape : e.frozen.shape ≠ []
  cdf : ∀ t : List ℝ, t.Pairwise (· < ·) →
    ev.cdf e.frozen (.arr (vec t)) = .ok ⟨e.frozen.shape ++ [t.length], nums ((List.range e.frozen.shape.prod).map fun i => t.map (F i)).flatten⟩
  mono : ∀ i, Monotone (F i)
  left : ∀ i x, x ≤ a → F i x = 0
  right : ∀ i x, z ≤ x → F i x = 1

/-- a line between two values that are close to two others is close to what lies between those -/
theorem line_close {p q P Q f l s d : ℝ} (h0 : 0 ≤ l) (h1 : l ≤ 1) (hp : |p - P| ≤ s) (hq : |q - Q| ≤ s) (hP : P ≤ f) (hQ : f ≤ Q) (hd : Q - P ≤ d) : |p + (q - p) * l - f| ≤ s + d := by
  have e1 := abs_le.1 hp
  have e2 := abs_le.1 hq
  have e3 : p + (q - p) * l - f = (1 - l) * (p - P) + l * (q - Q) + (P + (Q - P) * l - f) := by ring
  have e4 : 0 ≤ (Q - P) * l := mul_nonneg (by linarith) h0
  have e5 : (Q - P) * l ≤ Q - P := mul_le_of_le_one_right (by linarith) h1
  rw [e3, abs_le]
  constructor <;> nlinarith [mul_le_mul_of_nonneg_left e1.1 (sub_nonneg.2 h1), mul_le_mul_of_nonneg_left e1.2 (sub_nonneg.2 h1), mul_le_mul_of_nonneg_left e2.1 h0, mul_le_mul_of_nonneg_left e2.2 h0]

/-- one conversion of an ensemble that is already an approximation of another -/
theorem one_step {ev : Evals ℝ} {e : Ens ℝ} {F H : ℕ → ℝ → ℝ} {b : List ℝ} {a z : ℝ} (hb : Equal b a z) (k : Within ev e H a z) (hF : ∀ i, Monotone (F i)) (hl : ∀ i x, x ≤ a → F i x = 0)
    (hr : ∀ i x, z ≤ x → F i x = 1) (s d : ℝ) (hs : ∀ i x, |H i x - F i x| ≤ s) (hd : ∀ i (j : ℕ) u v, b[j]? = some u → b[j + 1]? = some v → F i v - F i u ≤ d) (hev : Evals ℝ) (hh : hev.cdf = ensArr histCdfElem) :
    ∃ (c : Ens ℝ) (G : ℕ → ℝ → ℝ), convertTo (histPy ev) e none [("bins", .arr (vec b))] = .ok c ∧ c.frozen.shape = e.frozen.shape ∧ Within hev c G a z ∧ (∀ i x, |G i x - F i x| ≤ s + d) ∧
      (∀ i, ∀ x ∈ b, G i x = H i x) ∧ ∀ i < e.frozen.shape.prod, ∀ x, histCdfRow c.frozen i x = some (G i x) := by
  obtain ⟨w, hw⟩ := hb.width
  choose P G g hP hlen hG hg hl' hr' hm hcell using fun i => row_cells b w hw hb.two hb.strict (H i) (k.mono i) (fun c hc => by rw [hb.first] at hc; rw [← Option.some.inj hc]; exact k.left i a le_rfl)
    (fun c hc => by rw [hb.last] at hc; rw [← Option.some.inj hc]; exact k.right i z le_rfl)
  have hlow : ∀ v ∈ b, a ≤ v := by
    intro v hv
    match b, hb.first, hb.strict, hv with
    | c :: t, hc, hst, hv =>
      obtain rfl : c = a := by simpa using hc
      rcases List.mem_cons.1 hv with rfl | h
      · exact le_rfl
      · exact ((List.pairwise_cons.1 hst).1 v h).le
  have hbne : b ≠ [] := by rintro rfl; simpa using hb.two
  have hlast : b.getLast hbne = z := by have := hb.last; rw [List.getLast?_eq_getLast_of_ne_nil hbne] at this; exact Option.some.inj this
  have hhigh : ∀ v ∈ b, v ≤ z := fun v hv => hlast ▸ Verif.Lemmas.InterpPdf.getLast_max hb.strict hbne hv
  have hl2 : ∀ i x, x ≤ a → G i x = 0 := fun i x hx => hl' i x fun v hv => hx.trans (hlow v hv)
  have hr2 : ∀ i x, z ≤ x → G i x = 1 := fun i x hx => hr' i x fun v hv => (hhigh v hv).trans hx
  have hd0 : 0 ≤ d := by
    match b, hb.two, hb.strict with
    | c :: c' :: t, _, hst =>
      have := hd 0 0 c c' rfl rfl
      have := hF 0 ((List.pairwise_cons.1 hst).1 c' (by simp)).le
      linarith
  have hs0 : 0 ≤ s := (abs_nonneg _).trans (hs 0 a)
  have hcl : ∀ i (j : ℕ) u v, b[j]? = some u → b[j + 1]? = some v → ∀ x, u ≤ x → x ≤ v → |G i x - F i x| ≤ s + d := by
    intro i j u v hu hv x hux hxv
    have huv : u < v := by
      obtain ⟨hi, rfl⟩ := List.getElem?_eq_some_iff.1 hu
      obtain ⟨hj, rfl⟩ := List.getElem?_eq_some_iff.1 hv
      exact List.pairwise_iff_getElem.1 hb.strict _ _ hi hj (by omega)
    rw [(hcell i j u v hu hv).2 x ⟨hux, hxv⟩, div_mul_eq_mul_div, mul_div_assoc]
    exact line_close (div_nonneg (by linarith) (by linarith)) (div_le_one_of_le₀ (by linarith) (by linarith)) (hs i u) (hs i v) (hF i hux) (hF i hxv) (hd i j u v hu hv)
  refine ⟨_, G, hist_conversion ev e b hb.two H k.shape (k.cdf b hb.strict) P fun i _ => hP i, rfl, ⟨k.shape, ?_, hm, hl2, hr2⟩, ?_, ?_, ?_⟩
  · intro t ht
    rw [hh]
    exact histCdf_at b t ht _ P G (fun i _ => hlen i) fun i _ => hG i
  · intro i x
    rcases lt_or_ge x a with hx | hx
    · rw [hl2 i x hx.le, hl i x hx.le]; simpa using add_nonneg hs0 hd0
    rcases lt_or_ge x z with hz | hz
    · obtain ⟨j, u, v, hu, hv, h1, h2⟩ := bracket b x a z hb.first hb.last hx hz
      exact hcl i j u v hu hv x h1 h2.le
    · rw [hr2 i x hz, hr i x hz]; simpa using add_nonneg hs0 hd0
  · intro i x hx
    rcases lt_or_ge x z with hz | hz
    · obtain ⟨j, hj⟩ := List.mem_iff_getElem?.1 hx
      have hj1 : j + 1 < b.length := by
        obtain ⟨hi, e1⟩ := List.getElem?_eq_some_iff.1 hj
        by_contra hc
        have : x = b.getLast hbne := by rw [List.getLast_eq_getElem]; rw [← e1]; congr 1; omega
        rw [this, hlast] at hz
        exact lt_irrefl _ hz
      have := (hcell i j x _ hj (List.getElem?_eq_getElem hj1)).2 x ⟨le_rfl, ?_⟩
      · rw [this]; ring
      · obtain ⟨hi, rfl⟩ := List.getElem?_eq_some_iff.1 hj
        exact (List.pairwise_iff_getElem.1 hb.strict _ _ hi hj1 (by omega)).le
    · rw [hr2 i x hz, k.right i x hz]
  · intro i hi x
    unfold histCdfRow
    rw [tableRow_hist b e.frozen.shape.prod P e.frozen.shape (fun i _ => hlen i) i hi, finites_nums, metaGrid_hist]
    simp [hG i x]

theorem chain_steps {hev : Evals ℝ} (hh : hev.cdf = ensArr histCdfElem) {F : ℕ → ℝ → ℝ} {a z : ℝ} (hF : ∀ i, Monotone (F i)) (hl : ∀ i x, x ≤ a → F i x = 0) (hr : ∀ i x, z ≤ x → F i x = 1) :
    ∀ (bs : List (List ℝ × ℝ)) (ev : Evals ℝ) (e : Ens ℝ) (H : ℕ → ℝ → ℝ) (s : ℝ), Within ev e H a z → (∀ i x, |H i x - F i x| ≤ s) →
      (∀ b ∈ bs, Equal b.1 a z ∧ ∀ i (j : ℕ) u v, b.1[j]? = some u → b.1[j + 1]? = some v → F i v - F i u ≤ b.2) → bs ≠ [] →
      ∃ (c : Ens ℝ) (G : ℕ → ℝ → ℝ), chainHist hev ev e (bs.map Prod.fst) = .ok c ∧ c.frozen.shape = e.frozen.shape ∧ Within hev c G a z ∧ (∀ i x, |G i x - F i x| ≤ s + (bs.map Prod.snd).sum) ∧
        (∀ i x, (∀ b ∈ bs, x ∈ b.1) → G i x = H i x) ∧ ∀ i < e.frozen.shape.prod, ∀ x, histCdfRow c.frozen i x = some (G i x) := by
  intro bs
  induction bs with
  | nil => intro _ _ _ _ _ _ _ h; exact absurd rfl h
  | cons b bs ih =>
    intro ev e H s k hs hb _
    obtain ⟨hb1, hb2⟩ := hb b (by simp)
    obtain ⟨c, G, h1, h2, h3, h4, h5, h6⟩ := one_step hb1 k hF hl hr s b.2 hs hb2 hev hh
    by_cases hbs : bs = []
    · subst hbs
      refine ⟨c, G, ?_, h2, h3, by simpa using h4, fun i x hx => h5 i x (hx b (by simp)), h6⟩
      simp [chainHist, h1, Bind.bind, Except.bind]
    · obtain ⟨c', G', e1, e2, e3, e4, e5, e6⟩ := ih hev c G (s + b.2) h3 h4 (fun b' hb' => hb b' (by simp [hb'])) hbs
      refine ⟨c', G', ?_, e2.trans h2, e3, ?_, ?_, fun i hi => e6 i (h2 ▸ hi)⟩
      · simp only [List.map_cons, chainHist, h1, Bind.bind, Except.bind]
        exact e1
      · intro i x
        simpa [add_assoc] using e4 i x
      · intro i x hx
        rw [e5 i x fun b' hb' => hx b' (by simp [hb']), h5 i x (hx b (by simp))]

/-- **C151.** An ensemble of any class whose PDFs have all their mass between `a` and `z` is converted to a histogram, the result to another histogram, and so on, with any number of sets of equal bins
from `a` to `z`; no bin of the `k`-th set holds more than `d k` of the mass of an original PDF. All conversions succeed. At every point the `cdf` of the last ensemble differs from that of the first by at
most the sum of the `d k` (errors add up, they are not amplified); at the edges common to all sets it is the same. -/
theorem C151_chain (ev hev : Evals ℝ) (hh : hev.cdf = ensArr histCdfElem) (e : Ens ℝ) (F : ℕ → ℝ → ℝ) (a z : ℝ) (k : Within ev e F a z) (bs : List (List ℝ × ℝ)) (hne : bs ≠ [])
    (hb : ∀ b ∈ bs, Equal b.1 a z ∧ ∀ i (j : ℕ) u v, b.1[j]? = some u → b.1[j + 1]? = some v → F i v - F i u ≤ b.2) :
    ∃ (c : Ens ℝ) (G : ℕ → ℝ → ℝ), chainHist hev ev e (bs.map Prod.fst) = .ok c ∧
      (∀ t : List ℝ, t.Pairwise (· < ·) → ensArr histCdfElem c.frozen (.arr (vec t))
        = .ok ⟨e.frozen.shape ++ [t.length], nums ((List.range e.frozen.shape.prod).map fun i => t.map (G i)).flatten⟩) ∧
      (∀ i, Monotone (G i) ∧ (∀ x ≤ a, G i x = 0) ∧ ∀ x ≥ z, G i x = 1) ∧ (∀ i x, |G i x - F i x| ≤ (bs.map Prod.snd).sum) ∧
      ∀ i x, (∀ b ∈ bs, x ∈ b.1) → G i x = F i x := by
  obtain ⟨c, G, h1, h2, h3, h4, h5, -⟩ := chain_steps hh k.mono k.left k.right bs ev e F 0 k (fun i x => by simp) hb hne
  refine ⟨c, G, h1, ?_, fun i => ⟨h3.mono i, h3.left i, h3.right i⟩, by simpa using h4, h5⟩
  intro t ht
  rw [← h2, ← hh]
  exact h3.cdf t ht

/-- **C151, PIT.** After such a chain the PIT values, their quantiles and the Kolmogorov-Smirnov statistic are those of the original up to the sum of the `d k`, Cramer-von Mises up to `2 n` times that. -/
theorem C151_pit (ev hev : Evals ℝ) (hh : hev.cdf = ensArr histCdfElem) (e : Ens ℝ) (F : ℕ → ℝ → ℝ) (a z : ℝ) (k : Within ev e F a z) (bs : List (List ℝ × ℝ)) (hne : bs ≠ [])
    (hb : ∀ b ∈ bs, Equal b.1 a z ∧ ∀ i (j : ℕ) u v, b.1[j]? = some u → b.1[j + 1]? = some v → F i v - F i u ≤ b.2)
    (zs grid : List ℝ) (hz : zs.length = e.frozen.shape.prod) (hz2 : 2 ≤ zs.length) (hg : ∀ p ∈ grid, 0 ≤ p ∧ p ≤ 1) :
    ∃ c, chainHist hev ev e (bs.map Prod.fst) = .ok c ∧
      ∃ s s' q q' l l' d d' w w', pitInit ((List.range e.frozen.shape.prod).map fun i x => some (F i x)) zs grid = .ok (s, q, l) ∧
        pitInit ((List.range e.frozen.shape.prod).map (histCdfRow c.frozen)) zs grid = .ok (s', q', l') ∧ List.Forall₂ (fun v v' => |v' - v| ≤ (bs.map Prod.snd).sum) s s' ∧
        pitKs s = .ok d ∧ pitKs s' = .ok d' ∧ |d' - d| ≤ (bs.map Prod.snd).sum ∧ pitCvm s = .ok w ∧ pitCvm s' = .ok w' ∧ |w' - w| ≤ 2 * zs.length * (bs.map Prod.snd).sum ∧
        ∀ p, 0 ≤ p → p ≤ 1 → ∃ v v', npQuantile p s = .ok v ∧ npQuantile p s' = .ok v' ∧ |v' - v| ≤ (bs.map Prod.snd).sum := by
  obtain ⟨c, G, h1, -, -, h4, -, h6⟩ := chain_steps hh k.mono k.left k.right bs ev e F 0 k (fun i x => by simp) hb hne
  refine ⟨c, h1, C150_pit _ _ zs grid (by simp [hz]) (by simp [hz]) hz2 hg _ ?_⟩
  intro i f f' y hf hf' _
  rw [List.getElem?_map] at hf hf'
  obtain ⟨j, hj, rfl⟩ := Option.map_eq_some_iff.1 hf
  obtain ⟨j', hj', rfl⟩ := Option.map_eq_some_iff.1 hf'
  rw [hj] at hj'
  obtain rfl := Option.some.inj hj'
  exact ⟨_, G j y, rfl, h6 j (List.mem_range.1 (List.mem_of_getElem? hj)) y, by simpa using h4 j y⟩

/-! three conversions of two uniform PDFs: halves, thirds, halves again -/

open Verif.Props.FineConvert (ramp rampEv rampEns ramp_known) in
theorem ramp_within : Within rampEv rampEns (fun _ => ramp) 0 1 where
  shape := by simp [rampEns, frozenOf]
  cdf := (ramp_known 0 1 (by norm_num [ramp])).cdf
  mono := (ramp_known 0 1 (by norm_num [ramp])).mono
  left := fun _ x hx => by unfold ramp; rw [max_eq_left hx]; norm_num
  right := fun _ x hx => by unfold ramp; rw [max_eq_right (by linarith), min_eq_left hx]

theorem three_equal : Equal [0, 1/3, 2/3, 1] 0 1 := ⟨by norm_num, by simp, rfl, rfl, 1/3, fun i u v hu hv => by
  match i with
  | 0 | 1 | 2 => simp at hu hv; subst hu hv; norm_num
  | i + 3 => simp at hv⟩

theorem chain_case : ∀ b ∈ [([0, 1/2, 1], 1/2), ([0, 1/3, 2/3, 1], 1/3), ([0, 1/2, 1], (1/2 : ℝ))], Equal b.1 0 1 ∧
    ∀ (i j : ℕ) u v, b.1[j]? = some u → b.1[j + 1]? = some v → (fun _ : ℕ => FineConvert.ramp) i v - (fun _ : ℕ => FineConvert.ramp) i u ≤ b.2 := by
  intro b hb
  simp only [List.mem_cons, List.not_mem_nil, or_false] at hb
  rcases hb with rfl | rfl | rfl
  · refine ⟨two_equal, fun i j u v hu hv => ?_⟩
    match j with
    | 0 | 1 => simp at hu hv; subst hu hv; norm_num [FineConvert.ramp]
    | j + 2 => simp at hv
  · refine ⟨three_equal, fun i j u v hu hv => ?_⟩
    match j with
    | 0 | 1 | 2 => simp at hu hv; subst hu hv; norm_num [FineConvert.ramp]
    | j + 3 => simp at hv
  · refine ⟨two_equal, fun i j u v hu hv => ?_⟩
    match j with
    | 0 | 1 => simp at hu hv; subst hu hv; norm_num [FineConvert.ramp]
    | j + 2 => simp at hv

example (hev : Evals ℝ) (hh : hev.cdf = ensArr histCdfElem) := C151_chain FineConvert.rampEv hev hh FineConvert.rampEns (fun _ => FineConvert.ramp) 0 1 ramp_within _ (by simp) chain_case

example (hev : Evals ℝ) (hh : hev.cdf = ensArr histCdfElem) := C151_pit FineConvert.rampEv hev hh FineConvert.rampEns (fun _ => FineConvert.ramp) 0 1 ramp_within _ (by simp) chain_case
  [3 / 10, 4 / 5] [0, 1 / 2, 1] rfl (by simp) (by intro p hp; simp at hp; rcases hp with rfl | rfl | rfl <;> norm_num)

end Verif.Props.Chain
