import Verif.Props.ConvertGrid

/-!
# C85: how far the CDF of a converted histogram can be from the original
-/

set_option linter.unusedSectionVars false
set_option autoImplicit false

namespace Verif.Props.ConvertError

open Verif Verif.Np Verif.Model Verif.Spec Verif.Lemmas Verif.Props.Convert Verif.Props.Bins Verif.Props.Hist

variable {K : Type} [Field K] [LinearOrder K] [IsStrictOrderedRing K]

/-- a point at or right of the first and left of the last edge lies between two consecutive edges -/
theorem bracket (b : List K) (x : K) : ∀ (a z : K), b.head? = some a → b.getLast? = some z → a ≤ x → x < z →
    ∃ (j : ℕ) (u v : K), b[j]? = some u ∧ b[j + 1]? = some v ∧ u ≤ x ∧ x < v := by
  induction b with
  | nil => intro a z ha; simp at ha
  | cons c t ih =>
    intro a z ha hz hax hxz
    obtain rfl : c = a := by simpa using ha
    match t with
    | [] => obtain rfl : c = z := by simpa using hz
            exact absurd hxz (not_lt.2 hax)
    | d :: t =>
      by_cases hd : d ≤ x
      · obtain ⟨j, u, v, hu, hv, h1, h2⟩ := ih d z rfl (by simpa using hz) hd hxz
        exact ⟨j + 1, u, v, by simpa using hu, by simpa using hv, h1, h2⟩
      · exact ⟨0, c, d, rfl, rfl, hax, not_le.1 hd⟩

/-- one PDF: the converted histogram's CDF is within the mass of the bin of the original CDF -/
theorem row_error (b : List K) (F : K → K) (h2 : 2 ≤ b.length) (hs : b.Pairwise (· < ·)) (hu : Uniform b) (hF : Monotone F)
    (h01 : ∀ x, 0 ≤ F x ∧ F x ≤ 1) (hF0 : ∀ a, b.head? = some a → F a = 0) (hF1 : ∀ z, b.getLast? = some z → F z = 1) :
    ∃ p, converted b F = some p ∧ p.length = b.length - 1 ∧ ∀ x, ∃ y, histCdf b p x = some y ∧
      (∀ (j : ℕ) u v, b[j]? = some u → b[j + 1]? = some v → u ≤ x → x ≤ v → |y - F x| ≤ F v - F u) ∧
      ((∀ e ∈ b, x ≤ e) ∨ (∀ e ∈ b, e ≤ x) → y = F x) := by
  obtain ⟨p, hp, hk⟩ := C57_equal_bins_partial b F h2 hs hu hF0 hF1
  have hlen : p.length = b.length - 1 := by
    rw [(histNormRow_idem b _ _ hp).2, Np.length_diff, List.length_map]
  have hne : totalMass b (Np.diff (b.map F)) ≠ 0 := by
    intro h0
    rw [show converted b F = none from (C07_row_normalised b _).1 h0] at hp
    simp at hp
  obtain ⟨p', hp', h1, -, hpos⟩ := (C07_row_normalised b _).2 hne
  obtain rfl : p' = p := by rw [show converted b F = some p' from hp'] at hp; simpa using hp
  have hdiff : ∀ v ∈ Np.diff (b.map F), 0 ≤ v := by
    have : ∀ l : List K, l.Pairwise (· < ·) → ∀ v ∈ Np.diff (l.map F), 0 ≤ v := by
      intro l
      induction l with
      | nil => intro _ v hv; simp [Np.diff] at hv
      | cons a t ih =>
        intro hl v hv
        match t, hl with
        | [], _ => simp [Np.diff] at hv
        | c :: t, hl =>
          have hl' := List.pairwise_cons.1 hl
          rw [List.map_cons, List.map_cons, Np.diff] at hv
          rcases List.mem_cons.1 hv with rfl | hv
          · exact sub_nonneg.2 (hF (hl'.1 c (by simp)).le)
          · exact ih hl'.2 v hv
    exact this b hs
  have hp0 := hpos hs hdiff
  have hg : Grid b p'.length := ⟨hs, by omega, by omega⟩
  obtain ⟨hl, hr, hm⟩ := C08_cdf_shape b p' hg h1 hp0
  refine ⟨p', hp, hlen, ?_⟩
  intro x
  obtain ⟨y, -, hy, -⟩ := hm x x le_rfl
  refine ⟨y, hy, ?_, ?_⟩
  · intro j u v hu' hv' hux hxv
    obtain ⟨u1, y1, e1, e2, -, e3, -⟩ := hm u x hux
    obtain ⟨y2, v2, e4, e5, -, e6, -⟩ := hm x v hxv
    rw [hk u (List.mem_of_getElem? hu')] at e1
    rw [hk v (List.mem_of_getElem? hv')] at e5
    rw [hy] at e2 e4
    simp only [Option.some.injEq] at e1 e2 e4 e5
    have := hF hux
    have := hF hxv
    rw [abs_le]
    constructor <;> linarith
  · have hbne : b ≠ [] := by rintro rfl; simp at h2
    rintro (hx | hx)
    · have := hl x hx
      rw [hy] at this
      obtain ⟨a, t, rfl⟩ := List.exists_cons_of_ne_nil hbne
      have h0 : F x ≤ F a := hF (hx a (by simp))
      rw [hF0 a rfl] at h0
      rw [show y = 0 by simpa using this]
      exact le_antisymm (h01 x).1 h0
    · have := hr x hx
      rw [hy] at this
      have h0 : F (b.getLast hbne) ≤ F x := hF (hx _ (List.getLast_mem _))
      rw [hF1 _ (List.getLast?_eq_getLast_of_ne_nil hbne)] at h0
      rw [show y = 1 by simpa using this]
      exact le_antisymm h0 (h01 x).2

/-- the CDF array of a histogram ensemble at any increasing list of points -/
theorem histCdf_at (b x : List K) (hx : x.Pairwise (· < ·)) (s : List ℕ) (P : ℕ → List K) (G : ℕ → K → K)
    (hlen : ∀ i < s.prod, (P i).length = b.length - 1) (hG : ∀ i < s.prod, ∀ v, histCdf b (P i) v = some (G i v)) :
    ensArr histCdfElem (frozenOf histCls [("bins", vec b)] [b.length - 1] ((List.range s.prod).map fun i => [nums (P i)]) s) (.arr (vec x))
      = .ok ⟨s ++ [x.length], nums ((List.range s.prod).map fun i => x.map (G i)).flatten⟩ := by
  unfold ensArr
  simp only [Val.toArr]
  rw [show (vec x).data = nums x from rfl, finites_nums]
  simp only [show (vec x).shape = [x.length] from rfl]
  unfold ensEval
  rw [Evaluation.C01_shared_grid_partial _ _ _ (Or.inl hx)]
  simp only [Bind.bind, Except.bind]
  congr 2
  rw [nums_flatten, List.map_map]
  congr 1
  unfold Evaluation.SharedSpec
  rw [show (frozenOf histCls [("bins", vec b)] [b.length - 1] ((List.range s.prod).map fun i => [nums (P i)]) s).npdf = s.prod by simp [frozenOf]]
  apply List.map_congr_left
  intro i hi
  have hi := List.mem_range.1 hi
  simp only [Function.comp]
  rw [show nums (x.map (G i)) = x.map fun v => .num (some (G i v)) by simp [nums]]
  apply List.map_congr_left
  intro v _
  simp only [histCdfElem]
  rw [tableRow_hist b s.prod P s hlen i hi, finites_nums, metaGrid_hist]
  simp [hG i hi v]

/-- **C85.** Take an ensemble of any class, with distribution functions `F i` (non-decreasing, values in [0, 1]) whose mass
lies inside the equal bins `b`, and suppose that no bin holds more than `δ i` of the mass of PDF `i`. The conversion to a histogram
succeeds; the converted ensemble's `cdf` differs from that of the original by at most `δ i`, at *every* point (it agrees at the edges
and outside the bins). (With bins of different width the code uses masses as densities: `C57_unequal_bins_wrong`.) -/
theorem C85_hist_error (ev : Evals K) (e : Ens K) (b : List K) (h2 : 2 ≤ b.length) (hb : b.Pairwise (· < ·)) (hu : Uniform b)
    (F : ℕ → K → K) (hs : e.frozen.shape ≠ [])
    (hcdf : ev.cdf e.frozen (.arr (vec b)) = .ok ⟨e.frozen.shape ++ [b.length],
      nums ((List.range e.frozen.shape.prod).map fun i => b.map (F i)).flatten⟩)
    (hF : ∀ i, Monotone (F i)) (h01 : ∀ i x, 0 ≤ F i x ∧ F i x ≤ 1)
    (hF0 : ∀ i a, b.head? = some a → F i a = 0) (hF1 : ∀ i a, b.getLast? = some a → F i a = 1)
    (δ : ℕ → K) (hδ : ∀ i (j : ℕ) u v, b[j]? = some u → b[j + 1]? = some v → F i v - F i u ≤ δ i) :
    ∃ (e' : Ens K) (G : ℕ → K → K), convertTo (histPy ev) e none [("bins", .arr (vec b))] = .ok e' ∧
      (∀ x : List K, x.Pairwise (· < ·) → ensArr histCdfElem e'.frozen (.arr (vec x))
        = .ok ⟨e.frozen.shape ++ [x.length], nums ((List.range e.frozen.shape.prod).map fun i => x.map (G i)).flatten⟩) ∧
      ∀ i x, |G i x - F i x| ≤ δ i ∧ (x ∈ b ∨ (∀ v ∈ b, x ≤ v) ∨ (∀ v ∈ b, v ≤ x) → G i x = F i x) := by
  have hp := fun i => row_error b (F i) h2 hb hu (hF i) (h01 i) (hF0 i) (hF1 i)
  choose P hP1 hlen G hG1 hG2 hG3 using hp
  have hbne : b ≠ [] := by rintro rfl; simp at h2
  refine ⟨_, G, hist_conversion ev e b h2 F hs hcdf P (fun i _ => hP1 i), ?_, ?_⟩
  · intro x hx
    exact histCdf_at b x hx e.frozen.shape P G (fun i _ => hlen i) (fun i _ => hG1 i)
  · intro i x
    have hδ0 : 0 ≤ δ i := by
      match b, h2, hb with
      | a :: c :: t, _, hb =>
        have := hδ i 0 a c rfl rfl
        have := hF i ((List.pairwise_cons.1 hb).1 c (by simp)).le
        linarith
    constructor
    · by_cases hl : ∀ v ∈ b, x ≤ v
      · rw [hG3 i x (Or.inl hl)]; simpa using hδ0
      by_cases hr : ∀ v ∈ b, v ≤ x
      · rw [hG3 i x (Or.inr hr)]; simpa using hδ0
      push Not at hl hr
      obtain ⟨v1, hv1, hv1x⟩ := hl
      obtain ⟨v2, hv2, hv2x⟩ := hr
      have hhead : b.head hbne ≤ v1 := by
        obtain ⟨a, t, rfl⟩ := List.exists_cons_of_ne_nil hbne
        rcases List.mem_cons.1 hv1 with rfl | h
        · exact le_rfl
        · exact ((List.pairwise_cons.1 hb).1 v1 h).le
      obtain ⟨j, u, v, hu', hv', h1, h2'⟩ := bracket b x (b.head hbne) (b.getLast hbne) (List.head?_eq_some_head hbne)
        (List.getLast?_eq_getLast_of_ne_nil hbne) (hhead.trans hv1x.le)
        (hv2x.trans_le (Verif.Lemmas.InterpPdf.getLast_max hb hbne hv2))
      exact (hG2 i x j u v hu' hv' h1 h2'.le).trans (hδ i j u v hu' hv')
    · rintro (hx | hx)
      · obtain ⟨p, hp, hk⟩ := C57_equal_bins_partial b (F i) h2 hb hu (hF0 i) (hF1 i)
        obtain rfl : P i = p := by rw [hP1 i] at hp; simpa using hp
        have := hk x hx
        rw [hG1 i x] at this
        simpa using this
      · exact hG3 i x hx

/-- the uniform distributions on [0, 2] and [0, 1] put into four bins: no value of the CDF moves by more than 1/4 and 1/2 -/
example := C85_hist_error (K := ℚ) ⟨ensArr histCdfElem, ensArr histCdfElem, ensArr histCdfElem⟩
  ⟨rowCreate histCls, rowCreate histCls, eqFrozen, none⟩ [0, 1/2, 1, 3/2, 2] (by decide) (by decide +kernel)
  ⟨1/2, fun i a b ha hb => by
    match i with
    | 0 | 1 | 2 | 3 => simp at ha hb; subst ha hb; norm_num
    | i + 4 => simp at hb⟩
  (fun i x => if i = 0 then max 0 (min 1 (x / 2)) else max 0 (min 1 x)) (by simp [eqFrozen, frozenOf]) (by decide +kernel)
  (by
    intro i x y h
    dsimp only
    split
    · exact max_le_max le_rfl (min_le_min le_rfl (by linarith))
    · exact max_le_max le_rfl (min_le_min le_rfl h))
  (by intro i x; split <;> exact ⟨le_max_left _ _, max_le zero_le_one (min_le_left _ _)⟩)
  (by rintro i a ⟨⟩; split <;> decide +kernel) (by rintro i a ⟨⟩; split <;> decide +kernel)
  (fun i => if i = 0 then 1/4 else 1/2)
  (by
    intro i j u v hu hv
    match j with
    | 0 | 1 | 2 | 3 => simp at hu hv; subst hu hv; split <;> decide +kernel
    | j + 4 => simp at hv)

end Verif.Props.ConvertError
