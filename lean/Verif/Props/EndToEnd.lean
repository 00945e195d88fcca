import Verif.Model.EnsCurves
import Verif.Spec.Curves
import Verif.Props.ConvertQuant
import Verif.Props.InterpPdf
import Verif.Props.Hist
import Verif.Props.Bins
import Verif.Props.Evaluation
import Verif.Props.Mixmod

/-!
# C104: what is created is what is evaluated

From the numbers handed to the constructor to the numbers returned by `ens.pdf(x)` / `ens.cdf(x)`, through the packing of the rows into tables,
the normalisation in the constructor, the freezing and the row lookup of the evaluation.
-/

set_option linter.unusedSectionVars false
set_option autoImplicit false

namespace Verif.Props.EndToEnd

open Verif Verif.Np Verif.Model Verif.Spec Verif.Lemmas Verif.Props.ConvertQuant Verif.Props.Evaluation Verif.Props.Bins Verif.Props.Hist Verif.Props.InterpPdf

variable {K : Type} [Field K] [LinearOrder K] [IsStrictOrderedRing K]

/-- a table with one row of `w` numbers per PDF -/
def table (w : ℕ) (rows : List (List K)) : Val K := .arr (Arr.ofRows [w] (rows.map nums))

/-! ### the curves -/

theorem stepLeft_in : ∀ (edges row : List K) (x : K) (i : ℕ) (a b v : K), edges.Pairwise (· < ·) → edges[i]? = some a → edges[i+1]? = some b →
    row[i]? = some v → a ≤ x → x < b → stepLeft edges row x = v
  | [], _, _, _, _, _, _, _, h, _, _, _, _ => by simp at h
  | [_], _, _, _, _, _, _, _, _, h, _, _, _ => by simp at h
  | _ :: _ :: _, [], _, _, _, _, _, _, _, _, h, _, _ => by simp at h
  | a0 :: b0 :: e, v0 :: r, x, 0, a, b, v, _, ha, hb, hv, h1, h2 => by
    simp at ha hb hv
    subst ha hb hv
    simp [stepLeft, h1, h2]
  | a0 :: b0 :: e, v0 :: r, x, i + 1, a, b, v, hs, ha, hb, hv, h1, h2 => by
    simp only [List.getElem?_cons_succ] at ha hb hv
    have hs' := (List.pairwise_cons.1 hs).2
    have hb0 : b0 ≤ a := by
      cases i with
      | zero => simp at ha; exact ha.le
      | succ j =>
        simp only [List.getElem?_cons_succ] at ha
        exact ((List.pairwise_cons.1 hs').1 a (List.mem_of_getElem? ha)).le
    rw [stepLeft, if_neg (fun h => absurd h.2 (not_lt.2 (hb0.trans h1)))]
    exact stepLeft_in (b0 :: e) r x i a b v hs' ha (by simpa using hb) hv h1 h2

theorem stepLeft_out : ∀ (edges row : List K) (x : K),
    (∀ (i : ℕ) a b, edges[i]? = some a → edges[i+1]? = some b → ¬(a ≤ x ∧ x < b)) → stepLeft edges row x = 0
  | [], _, _, _ => rfl
  | [_], _, _, _ => rfl
  | _ :: _ :: _, [], _, _ => rfl
  | a0 :: b0 :: e, v0 :: r, x, h => by
    rw [stepLeft, if_neg (h 0 a0 b0 rfl rfl)]
    exact stepLeft_out (b0 :: e) r x fun i a b ha hb => h (i + 1) a b (by simpa using ha) (by simpa using hb)

theorem stepRight_in : ∀ (edges row : List K) (x : K) (i : ℕ) (a b v : K), edges.Pairwise (· < ·) → edges[i]? = some a → edges[i+1]? = some b →
    row[i]? = some v → a < x → x ≤ b → stepRight edges row x = v
  | [], _, _, _, _, _, _, _, h, _, _, _, _ => by simp at h
  | [_], _, _, _, _, _, _, _, _, h, _, _, _ => by simp at h
  | _ :: _ :: _, [], _, _, _, _, _, _, _, _, h, _, _ => by simp at h
  | a0 :: b0 :: e, v0 :: r, x, 0, a, b, v, _, ha, hb, hv, h1, h2 => by
    simp at ha hb hv
    subst ha hb hv
    simp [stepRight, h1, h2]
  | a0 :: b0 :: e, v0 :: r, x, i + 1, a, b, v, hs, ha, hb, hv, h1, h2 => by
    simp only [List.getElem?_cons_succ] at ha hb hv
    have hs' := (List.pairwise_cons.1 hs).2
    have hb0 : b0 ≤ a := by
      cases i with
      | zero => simp at ha; exact ha.le
      | succ j =>
        simp only [List.getElem?_cons_succ] at ha
        exact ((List.pairwise_cons.1 hs').1 a (List.mem_of_getElem? ha)).le
    rw [stepRight, if_neg (fun h => absurd h.2 (not_le.2 (lt_of_le_of_lt hb0 h1)))]
    exact stepRight_in (b0 :: e) r x i a b v hs' ha (by simpa using hb) hv h1 h2

theorem stepRight_out : ∀ (edges row : List K) (x : K),
    (∀ (i : ℕ) a b, edges[i]? = some a → edges[i+1]? = some b → ¬(a < x ∧ x ≤ b)) → stepRight edges row x = 0
  | [], _, _, _ => rfl
  | [_], _, _, _ => rfl
  | _ :: _ :: _, [], _, _ => rfl
  | a0 :: b0 :: e, v0 :: r, x, h => by
    rw [stepRight, if_neg (h 0 a0 b0 rfl rfl)]
    exact stepRight_out (b0 :: e) r x fun i a b ha hb => h (i + 1) a b (by simpa using ha) (by simpa using hb)

theorem getBinIndex_some [FloorRing K] (edges : List K) (h2 : 2 ≤ edges.length) (x : K) : ∃ i m, getBinIndex edges x = .ok (i, m) ∧ i + 1 < edges.length := by
  match edges, h2 with
  | b0 :: b1 :: t, _ =>
    refine ⟨_, _, rfl, ?_⟩
    simp only [List.length_cons]
    have : ∀ z : ℤ, (max 0 (min z (((t.length + 1 + 1 : ℕ) : ℤ) - 1 - 1))).toNat + 1 < t.length + 1 + 1 := by
      intro z
      omega
    exact this _

theorem hist_left [FloorRing K] (edges p : List K) (hg : Grid edges p.length) (hu : Uniform edges) (x : K) :
    histPdf edges p x = .ok (stepLeft edges p x) := by
  have h2 : 2 ≤ edges.length := by have := hg.size; have := hg.pos; omega
  obtain ⟨i, m, hi, hl⟩ := getBinIndex_some edges h2 x
  have hp : i < p.length := by have := hg.size; omega
  unfold histPdf evalHist
  rw [hi]
  simp only [List.getElem?_eq_getElem hp]
  cases m with
  | true =>
    obtain ⟨a, b, ha, hb, h3, h4⟩ := (C05_uniform_iff edges h2 hg.strict hu x i).1 hi
    rw [stepLeft_in edges p x i a b _ hg.strict ha hb (List.getElem?_eq_getElem hp) h3 h4]
    rfl
  | false =>
    rw [stepLeft_out edges p x]
    · rfl
    · rintro j a b ha hb ⟨h3, h4⟩
      have := (C05_uniform_iff edges h2 hg.strict hu x j).2 ⟨a, b, ha, hb, h3, h4⟩
      rw [hi] at this
      simp at this

theorem hist_right [FloorRing K] (edges p : List K) (hg : Grid edges p.length) (hu : DetectablyNonUniform edges) (x : K) :
    histPdf edges p x = .ok (stepRight edges p x) := by
  have h2 : 2 ≤ edges.length := by have := hg.size; have := hg.pos; omega
  obtain ⟨i, m, hi, hl⟩ := getBinIndex_some edges h2 x
  have hp : i < p.length := by have := hg.size; omega
  unfold histPdf evalHist
  rw [hi]
  simp only [List.getElem?_eq_getElem hp]
  cases m with
  | true =>
    obtain ⟨a, b, ha, hb, h3, h4⟩ := (C05_nonuniform_iff edges h2 hg.strict hu x i).1 hi
    rw [stepRight_in edges p x i a b _ hg.strict ha hb (List.getElem?_eq_getElem hp) h3 h4]
    rfl
  | false =>
    rw [stepRight_out edges p x]
    · rfl
    · rintro j a b ha hb ⟨h3, h4⟩
      have := (C05_nonuniform_iff edges h2 hg.strict hu x j).2 ⟨a, b, ha, hb, h3, h4⟩
      rw [hi] at this
      simp at this

theorem line_in : ∀ (xs ys : List K) (x : K) (i : ℕ) (a b u v : K), xs.Pairwise (· < ·) → xs[i]? = some a → xs[i+1]? = some b →
    ys[i]? = some u → ys[i+1]? = some v → a ≤ x → x ≤ b → brokenLine xs ys x = u + (v - u) / (b - a) * (x - a)
  | [], _, _, _, _, _, _, _, _, h, _, _, _, _, _ => by simp at h
  | [_], _, _, _, _, _, _, _, _, _, h, _, _, _, _ => by simp at h
  | _ :: _ :: _, [], _, _, _, _, _, _, _, _, _, h, _, _, _ => by simp at h
  | _ :: _ :: _, [_], _, _, _, _, _, _, _, _, _, _, h, _, _ => by simp at h
  | a0 :: b0 :: e, u0 :: v0 :: r, x, 0, a, b, u, v, _, ha, hb, hu, hv, h1, h2 => by
    simp at ha hb hu hv
    subst ha hb hu hv
    simp [brokenLine, h1, h2]
  | a0 :: b0 :: e, u0 :: v0 :: r, x, i + 1, a, b, u, v, hs, ha, hb, hu, hv, h1, h2 => by
    simp only [List.getElem?_cons_succ] at ha hb hu hv
    have hs' := (List.pairwise_cons.1 hs).2
    have hlt := (List.pairwise_cons.1 hs).1 b0 (by simp)
    have ih := line_in (b0 :: e) (v0 :: r) x i a b u v hs' ha (by simpa using hb) hu (by simpa using hv) h1 h2
    have hb0 : b0 ≤ a := by
      cases i with
      | zero => simp at ha; exact ha.le
      | succ j =>
        simp only [List.getElem?_cons_succ] at ha
        exact ((List.pairwise_cons.1 hs').1 a (List.mem_of_getElem? ha)).le
    rw [brokenLine]
    split_ifs with hc
    · have hx : x = b0 := le_antisymm hc.2 (hb0.trans h1)
      have hab : a = b0 := le_antisymm (h1.trans hc.2) hb0
      have hv0 : u = v0 := by
        cases i with
        | zero => simp at hu; exact hu.symm
        | succ j =>
          simp only [List.getElem?_cons_succ] at ha
          have := (List.pairwise_cons.1 hs').1 a (List.mem_of_getElem? ha)
          exact absurd this (by rw [hab]; exact lt_irrefl _)
      subst hx hab hv0
      have : a - a0 ≠ 0 := by linarith
      rw [div_mul_cancel₀ _ this]
      ring
    · exact ih

theorem line_out : ∀ (xs ys : List K) (x : K), (∀ (i : ℕ) a b, xs[i]? = some a → xs[i+1]? = some b → ¬(a ≤ x ∧ x ≤ b)) → brokenLine xs ys x = 0
  | [], _, _, _ => by cases ‹List K› <;> rfl
  | [_], _, _, _ => rfl
  | _ :: _ :: _, [], _, _ => rfl
  | _ :: _ :: _, [_], _, _ => rfl
  | a0 :: b0 :: e, u0 :: v0 :: r, x, h => by
    rw [brokenLine, if_neg (h 0 a0 b0 rfl rfl)]
    exact line_out (b0 :: e) (v0 :: r) x fun i a b ha hb => h (i + 1) a b (by simpa using ha) (by simpa using hb)

theorem between : ∀ (xs : List K) (x : K), xs ≠ [] → (∃ (i : ℕ) (a b : K), xs[i]? = some a ∧ xs[i+1]? = some b ∧ a ≤ x ∧ x ≤ b) ∨ xs.head? = some x ∨
    ((∀ h : xs ≠ [], x < xs.head h) ∨ (∀ h : xs ≠ [], xs.getLast h < x))
  | [], _, h => absurd rfl h
  | [a], x, _ => by
    rcases lt_trichotomy x a with h | h | h
    · exact .inr (.inr (.inl fun _ => h))
    · exact .inr (.inl (by simp [h]))
    · exact .inr (.inr (.inr fun _ => h))
  | a :: b :: t, x, _ => by
    by_cases h1 : x < a
    · exact .inr (.inr (.inl fun _ => h1))
    by_cases h2 : x ≤ b
    · exact .inl ⟨0, a, b, rfl, rfl, not_lt.1 h1, h2⟩
    rcases between (b :: t) x (by simp) with ⟨i, c, d, hc, hd, h3, h4⟩ | h | h | h
    · exact .inl ⟨i + 1, c, d, by simpa using hc, by simpa using hd, h3, h4⟩
    · simp at h; exact absurd h.ge h2
    · exact absurd (h (by simp)).le h2
    · exact .inr (.inr (.inr fun _ => by simpa using h (by simp)))

theorem interp_line (xs ys : List K) (hg : XGrid xs ys.length) (x : K) : interpPdf xs ys x = some (brokenLine xs ys x) := by
  obtain ⟨-, h2, h3, -⟩ := C15_pdf_through_points xs ys hg
  have hlen : 2 ≤ xs.length := by have := hg.size; have := hg.two; omega
  have hne : xs ≠ [] := by rintro rfl; simp at hlen
  have seg : ∀ (i : ℕ) a b, xs[i]? = some a → xs[i+1]? = some b → a ≤ x → x ≤ b → interpPdf xs ys x = some (brokenLine xs ys x) := by
    intro i a b ha hb h4 h5
    have hi : i + 1 < ys.length := by
      have := (List.getElem?_eq_some_iff.1 hb).1
      have := hg.size; omega
    have hu : ys[i]? = some ys[i] := List.getElem?_eq_getElem (by omega)
    have hv : ys[i+1]? = some ys[i+1] := List.getElem?_eq_getElem hi
    obtain ⟨d, e1, e2, -⟩ := h2 i a b _ _ x ha hb hu hv h4 h5
    rw [e1, line_in xs ys x i a b _ _ hg.strict ha hb hu hv h4 h5]
    have hab : a < b := by
      obtain ⟨p1, q1⟩ := List.getElem?_eq_some_iff.1 ha
      obtain ⟨p2, q2⟩ := List.getElem?_eq_some_iff.1 hb
      rw [← q1, ← q2]
      exact List.pairwise_iff_getElem.1 hg.strict i (i+1) p1 p2 (by omega)
    have : b - a ≠ 0 := by linarith
    congr 1
    field_simp
    linarith [e2]
  have mono : ∀ e ∈ xs, xs.head hne ≤ e ∧ e ≤ xs.getLast hne := by
    intro e he
    obtain ⟨j, hj, rfl⟩ := List.mem_iff_getElem.1 he
    have hp := List.pairwise_iff_getElem.1 hg.strict
    constructor
    · rw [List.head_eq_getElem]
      rcases Nat.eq_zero_or_pos j with rfl | h
      · exact le_rfl
      · exact (hp 0 j (by omega) hj h).le
    · rw [List.getLast_eq_getElem]
      rcases Nat.lt_or_ge j (xs.length - 1) with h | h
      · exact (hp j _ hj (by omega) h).le
      · have : j = xs.length - 1 := by omega
        subst this; exact le_rfl
  rcases between xs x hne with ⟨i, a, b, ha, hb, h4, h5⟩ | h | h | h
  · exact seg i a b ha hb h4 h5
  · have h0 : xs[0]? = some x := by rw [← h, List.head?_eq_getElem?]
    have h1 : xs[0+1]? = some xs[1] := List.getElem?_eq_getElem (by omega)
    have hm := List.mem_of_getElem? h1
    have : xs.head hne = x := by
      rw [List.head?_eq_some_head hne] at h; exact Option.some.inj h
    exact seg 0 x xs[1] h0 h1 le_rfl (by rw [← this]; exact (mono _ hm).1)
  · rw [h3 x (.inl fun e he => lt_of_lt_of_le (h hne) (mono e he).1), line_out xs ys x]
    rintro i a b ha - ⟨h4, -⟩
    exact absurd (lt_of_lt_of_le (h hne) (mono a (List.mem_of_getElem? ha)).1) (not_lt.2 h4)
  · rw [h3 x (.inr fun e he => lt_of_le_of_lt (mono e he).2 (h hne)), line_out xs ys x]
    rintro i a b - hb ⟨-, h4⟩
    exact absurd (lt_of_le_of_lt (mono b (List.mem_of_getElem? hb)).2 (h hne)) (not_lt.2 h4)

theorem stepLeft_div : ∀ (edges row : List K) (c x : K), stepLeft edges (row.map (· / c)) x = stepLeft edges row x / c
  | [], _, _, _ => by simp [stepLeft]
  | [_], _, _, _ => by simp [stepLeft]
  | _ :: _ :: _, [], _, _ => by simp [stepLeft]
  | a :: b :: e, v :: r, c, x => by
    rw [List.map_cons, stepLeft, stepLeft, stepLeft_div (b :: e) r c x]
    split_ifs <;> rfl

theorem stepRight_div : ∀ (edges row : List K) (c x : K), stepRight edges (row.map (· / c)) x = stepRight edges row x / c
  | [], _, _, _ => by simp [stepRight]
  | [_], _, _, _ => by simp [stepRight]
  | _ :: _ :: _, [], _, _ => by simp [stepRight]
  | a :: b :: e, v :: r, c, x => by
    rw [List.map_cons, stepRight, stepRight, stepRight_div (b :: e) r c x]
    split_ifs <;> rfl

theorem massUpTo_div : ∀ (edges row : List K) (c x : K), massUpTo edges (row.map (· / c)) x = massUpTo edges row x / c
  | [], _, _, _ => by simp [massUpTo]
  | [_], _, _, _ => by simp [massUpTo]
  | _ :: _ :: _, [], _, _ => by simp [massUpTo]
  | a :: b :: e, v :: r, c, x => by
    rw [List.map_cons, massUpTo, massUpTo, massUpTo_div (b :: e) r c x]
    ring

theorem areaTo_div : ∀ (i : ℕ) (xs ys : List K) (c : K), areaTo i xs (ys.map (· / c)) = areaTo i xs ys / c
  | 0, _, _, _ => by simp [areaTo]
  | _ + 1, [], _, _ => by simp [areaTo]
  | _ + 1, [_], _, _ => by simp [areaTo]
  | _ + 1, _ :: _ :: _, [], _ => by simp [areaTo]
  | _ + 1, _ :: _ :: _, [_], _ => by simp [areaTo]
  | i + 1, a :: b :: xs, u :: v :: ys, c => by
    have := areaTo_div i (b :: xs) (v :: ys) c
    simp only [List.map_cons, areaTo] at *
    rw [this]; ring

theorem brokenLine_div : ∀ (xs ys : List K) (c x : K), brokenLine xs (ys.map (· / c)) x = brokenLine xs ys x / c
  | [], _, _, _ => by simp [brokenLine]
  | [_], _, _, _ => by simp [brokenLine]
  | _ :: _ :: _, [], _, _ => by simp [brokenLine]
  | _ :: _ :: _, [_], _, _ => by simp [brokenLine]
  | a :: b :: xs, u :: v :: ys, c, x => by
    have := brokenLine_div (b :: xs) (v :: ys) c x
    simp only [List.map_cons, brokenLine] at *
    rw [this]
    split_ifs
    · ring
    · rfl

/-! ### creation and row lookup -/

/-- the object that is created from one set of rows `R s` per PDF `s`, and what it evaluates to -/
theorem create_eval {σ : Type} (src : List σ) (R G : σ → List (List (Elem K))) {c : RowCls K} (names : Names c)
    {mo mo' : List (String × Arr (Elem K))} {ws ws' : List ℕ} (mok : ∀ p ∈ mo, p.1 ∈ c.metaArgs.map (·.1)) (wl : ws.length = c.rowArgs.length)
    (len : ∀ s ∈ src, (R s).map List.length = ws) {m : Dict K} (hm : c.metaArgs.mapM (argVal (metaDict mo)) = .ok m) {data : Dict K}
    (hd : data = metaDict mo ++ storeRows c.rowArgs ws (src.map R)) (hne : c.needsRows = true → src.length * ws.headD 0 ≠ 0)
    (hmo : c.metaOut m = .ok mo') (hws : c.widths m ws = .ok ws') (hout : ∀ s ∈ src, c.norm m (R s) = .ok (G s))
    (wl' : ws'.length = c.rowArgs.length) (len' : ∀ s ∈ src, (G s).map List.length = ws') :
    ∃ e, mkEns (rowCreate c) (rowCreate c) data none = .ok e ∧ e.frozen.npdf = src.length ∧
      ∀ {β : Type} (f : Dict K → (String → List (Elem K)) → K → β) (g : σ → K → β),
        (∀ s ∈ src, ∀ row : String → List (Elem K), (∀ j (hj : j < c.rowArgs.length), row c.rowArgs[j] = (G s).getD j []) →
          f (classMeta c.name c.version ++ mo'.map fun p => (p.1, .arr p.2.expand0)) row = g s) →
        ∀ x : List K, x.Pairwise (· < ·) → ensEval f e.frozen x = .ok (src.map fun s => x.map (g s)) := by
  have hout' : (src.map R).mapM (c.norm m) = .ok (src.map G) := by
    rw [List.mapM_map]
    exact mapM_ok_map _ _ _ hout
  have len1 : ∀ r ∈ src.map R, r.map List.length = ws := by
    intro r hr
    obtain ⟨s, hs, rfl⟩ := List.mem_map.1 hr
    exact len s hs
  have len2 : ∀ r ∈ src.map G, r.map List.length = ws' := by
    intro r hr
    obtain ⟨s, hs, rfl⟩ := List.mem_map.1 hr
    exact len' s hs
  refine ⟨⟨rowCreate c, rowCreate c, frozenOf c mo' ws' (src.map G) [src.length], none⟩, ?_, by simp [frozenOf], ?_⟩
  · unfold mkEns
    rw [reread names mok wl len1 hm data (fun k => by rw [hd]), if_neg (fun h => hne h.1 (by simpa using h.2)), hmo, hws, hout']
    simp [Bind.bind, Except.bind, checkArrayShapes, frozenOf]
  · intro β f g hf x hx
    unfold ensEval
    rw [C01_shared_grid_partial _ _ _ (Or.inl hx)]
    congr 1
    unfold SharedSpec
    apply List.ext_getElem
    · simp [frozenOf]
    · intro i h1 h2
      have hi : i < src.length := by simpa using h2
      simp only [List.getElem_map, List.getElem_range]
      rw [← hf src[i] (List.getElem_mem hi)]
      · rfl
      intro j hj
      unfold tableRow
      have := get?_storeRows c.rowArgs ws' (src.map G) wl' (List.nodup_append.1 names.nd).2.1 j hj
      simp only [frozenOf, this]
      rw [tab_row len2 j (by omega) i (by simpa using hi), List.getElem_map]

theorem sum_eq (l : List K) : Np.sum l = l.sum := rfl

theorem nums_length (l : List K) : (nums l).length = l.length := by simp [nums]

theorem liftRow_nums (f : List K → Option (List K)) (r r' : List K) (h : f r = some r') : liftRow f (nums r) = .ok (nums r') := by
  simp [liftRow, allNum_nums, finites_nums, h]

/-! ### histograms -/

/-- the keyword arguments of `qp.hist(bins=..., pdfs=...)` -/
def histArgs (bins : List K) (rows : List (List K)) : Dict K := [("bins", .arr (vec bins)), ("pdfs", table (bins.length - 1) rows)]

theorem hist_made (bins : List K) (rows : List (List K)) (h2 : 2 ≤ bins.length) (hlen : ∀ r ∈ rows, r.length = bins.length - 1)
    (hm : ∀ r ∈ rows, totalMass bins r ≠ 0) :
    ∃ e, mkEns (rowCreate histCls) (rowCreate histCls) (histArgs bins rows) none = .ok e ∧ e.frozen.npdf = rows.length ∧
      ∀ {β : Type} (f : Dict K → (String → List (Elem K)) → K → β) (g : List K → K → β),
        (∀ r ∈ rows, ∀ md row, metaGrid md "bins" = bins → row "pdfs" = nums (r.map (· / totalMass bins r)) → f md row = g r) →
        ∀ x : List K, x.Pairwise (· < ·) → ensEval f e.frozen x = .ok (rows.map fun r => x.map (g r)) := by
  have hne : bins ≠ [] := by rintro rfl; simp at h2
  have hgrid : grid1 [("bins", .arr (vec bins)), ("check_input", (.py (.bool true) : Val K))] "bins" = .ok bins := by
    simp [grid1, get?_cons, Val.toArr, vec, finites_nums]
  obtain ⟨e, h1, h3, h4⟩ := create_eval rows (fun r => [nums r]) (fun r => [nums (r.map (· / totalMass bins r))]) (c := histCls (K := K)) names_hist
    (mo := [("bins", vec bins)]) (mo' := [("bins", vec bins)])
    (ws := [bins.length - 1]) (ws' := [bins.length - 1]) (by simp [histCls]) (by simp [histCls])
    (fun r hr => by simp [nums_length, hlen r hr])
    (m := [("bins", .arr (vec bins)), ("check_input", .py (.bool true))])
    (by simp [histCls, metaDict, checkInputArg, argVal, get?_cons, get?_nil, Bind.bind, Except.bind, pure, Except.pure])
    (data := histArgs bins rows)
    (by simp [histArgs, metaDict, storeRows, histCls, table, Function.comp_def])
    (by simp [histCls]) (by simp [histCls, hgrid, hne, Bind.bind, Except.bind]) (by simp [histCls, hgrid, Bind.bind, Except.bind])
    (by
      intro r hr
      obtain ⟨p, hp, -, rfl, -⟩ := (C07_row_normalised bins r).2 (hm r hr)
      simp only [histCls, hgrid, Bind.bind, Except.bind, List.mapM_cons, List.mapM_nil, liftRow_nums _ _ _ hp]
      rfl)
    (by simp [histCls])
    (fun r hr => by simp [nums_length, hlen r hr])
  refine ⟨e, h1, h3, fun f g hf x hx => h4 f g (fun r hr row hrow => hf r hr _ row ?_ ?_) x hx⟩
  · simp [metaGrid, classMeta, histCls, get?_cons, Val.toArr, Arr.expand0, vec, finites_nums]
  · exact hrow 0 (by simp [histCls])

/-- **C104: histograms.** An ensemble made from bin edges and one row of contents per PDF evaluates, for increasing points, to the step functions
of the contents divided by their mass. Equal bins are closed on the left, detectably unequal ones on the right; the CDF is the mass to the left. -/
theorem C104_hist [FloorRing K] (bins : List K) (rows : List (List K)) (hs : bins.Pairwise (· < ·)) (h2 : 2 ≤ bins.length)
    (hlen : ∀ r ∈ rows, r.length + 1 = bins.length) (hm : ∀ r ∈ rows, totalMass bins r ≠ 0) :
    ∃ e, mkEns (rowCreate histCls) (rowCreate histCls) (histArgs bins rows) none = .ok e ∧ e.frozen.npdf = rows.length ∧
      ∀ x : List K, x.Pairwise (· < ·) →
        (Uniform bins → ensEval histEval e.frozen x =
          .ok (rows.map fun r => x.map fun t => some (.ok (stepLeft bins r t / totalMass bins r)))) ∧
        (DetectablyNonUniform bins → ensEval histEval e.frozen x =
          .ok (rows.map fun r => x.map fun t => some (.ok (stepRight bins r t / totalMass bins r)))) ∧
        ensEval histCdfElem e.frozen x = .ok (rows.map fun r => x.map fun t => .num (some (massUpTo bins r t / totalMass bins r))) := by
  obtain ⟨e, h1, h3, h4⟩ := hist_made bins rows h2 (fun r hr => by have := hlen r hr; omega) hm
  refine ⟨e, h1, h3, fun x hx => ⟨fun hu => ?_, fun hu => ?_, ?_⟩⟩
  · refine h4 histEval _ (fun r hr md row hb hrow => ?_) x hx
    funext t
    have hg : Grid bins (r.map (· / totalMass bins r)).length := ⟨hs, by simp [hlen r hr], by rw [List.length_map]; have := hlen r hr; omega⟩
    simp only [histEval, hb, hrow, finites_nums, Option.map_some]
    rw [hist_left _ _ hg hu, stepLeft_div]
  · refine h4 histEval _ (fun r hr md row hb hrow => ?_) x hx
    funext t
    have hg : Grid bins (r.map (· / totalMass bins r)).length := ⟨hs, by simp [hlen r hr], by rw [List.length_map]; have := hlen r hr; omega⟩
    simp only [histEval, hb, hrow, finites_nums, Option.map_some]
    rw [hist_right _ _ hg hu, stepRight_div]
  · refine h4 histCdfElem _ (fun r hr md row hb hrow => ?_) x hx
    funext t
    have hg : Grid bins (r.map (· / totalMass bins r)).length := ⟨hs, by simp [hlen r hr], by rw [List.length_map]; have := hlen r hr; omega⟩
    obtain ⟨p, -, hp1, rfl, -⟩ := (C07_row_normalised bins r).2 (hm r hr)
    simp only [histCdfElem, hb, hrow, finites_nums, Option.bind_some]
    rw [C08_cdf_is_mass _ _ hg hp1, massUpTo_div]

/-! ### densities interpolated on a common grid -/

/-- the keyword arguments of `qp.interp(xvals=..., yvals=...)` -/
def interpArgs (xs : List K) (rows : List (List K)) : Dict K := [("xvals", .arr (vec xs)), ("yvals", table xs.length rows)]

/-- **C104: interpolation on a common grid.** The ensemble evaluates to the broken lines through the given points divided by the area below them; the
CDF at the grid points after the first is the area up to that point divided by the whole area. -/
theorem C104_interp (xs : List K) (rows : List (List K)) (hs : xs.Pairwise (· < ·)) (h2 : 2 ≤ xs.length)
    (hlen : ∀ r ∈ rows, r.length = xs.length) (ha : ∀ r ∈ rows, area xs r ≠ 0) :
    ∃ e, mkEns (rowCreate interpCls) (rowCreate interpCls) (interpArgs xs rows) none = .ok e ∧ e.frozen.npdf = rows.length ∧
      (∀ x : List K, x.Pairwise (· < ·) →
        ensEval interpEval e.frozen x = .ok (rows.map fun r => x.map fun t => some (brokenLine xs r t / area xs r))) ∧
      ∀ (i : ℕ) (t : K), xs[i+1]? = some t →
        ensEval interpCdfEval e.frozen [t] = .ok (rows.map fun r => [some (areaTo (i+1) xs r / area xs r)]) := by
  have hgrid : grid1 [("xvals", .arr (vec xs)), ("check_input", (.py (.bool true) : Val K))] "xvals" = .ok xs := by
    simp [grid1, get?_cons, Val.toArr, vec, finites_nums]
  have hg : ∀ r ∈ rows, XGrid xs r.length := fun r hr => ⟨hs, (hlen r hr).symm, by rw [hlen r hr]; exact h2⟩
  obtain ⟨e, h1, h3, h4⟩ := create_eval rows (fun r => [nums r]) (fun r => [nums (r.map (· / area xs r))]) (c := interpCls (K := K)) names_interp
    (mo := [("xvals", vec xs)]) (mo' := [("xvals", vec xs)])
    (ws := [xs.length]) (ws' := [xs.length]) (by simp [interpCls]) (by simp [interpCls])
    (fun r hr => by simp [nums_length, hlen r hr])
    (m := [("xvals", .arr (vec xs)), ("check_input", .py (.bool true))])
    (by simp [interpCls, metaDict, checkInputArg, argVal, get?_cons, get?_nil, Bind.bind, Except.bind, pure, Except.pure])
    (data := interpArgs xs rows)
    (by simp [interpArgs, metaDict, storeRows, interpCls, table, Function.comp_def])
    (by simp [interpCls]) (by simp [interpCls, hgrid, Bind.bind, Except.bind]; omega) (by simp [interpCls, hgrid, Bind.bind, Except.bind])
    (by
      intro r hr
      obtain ⟨y, c, hy, -, rfl, -⟩ := (C12_interp_normalises xs r (hg r hr)).2 (ha r hr)
      have : interpNorm xs r = some (r.map (· / area xs r)) := by simp [interpNorm, hy]
      simp only [interpCls, hgrid, Bind.bind, Except.bind, List.mapM_cons, List.mapM_nil, liftRow_nums _ _ _ this]
      rfl)
    (by simp [interpCls])
    (fun r hr => by simp [nums_length, hlen r hr])
  have hmd : metaGrid (classMeta (interpCls (K := K)).name (interpCls (K := K)).version ++ [("xvals", vec xs)].map fun p => (p.1, .arr p.2.expand0)) "xvals" = xs := by
    simp [metaGrid, classMeta, interpCls, get?_cons, Val.toArr, Arr.expand0, vec, finites_nums]
  refine ⟨e, h1, h3, fun x hx => h4 interpEval _ (fun r hr row hrow => ?_) x hx, fun i t ht => ?_⟩
  · funext t
    have hr0 : row "yvals" = nums (r.map (· / area xs r)) := hrow 0 (by simp [interpCls])
    simp only [interpEval, hmd, hr0, finites_nums, Option.bind_some]
    rw [interp_line _ _ (by rw [List.length_map]; exact hg r hr), brokenLine_div]
  · refine (h4 interpCdfEval (fun r s => if s = t then some (areaTo (i+1) xs r / area xs r) else interpCdfEval
      (classMeta (interpCls (K := K)).name (interpCls (K := K)).version ++ [("xvals", vec xs)].map fun p => (p.1, .arr p.2.expand0))
      (fun _ => nums (r.map (· / area xs r))) s) (fun r hr row hrow => ?_) [t] (by simp)).trans (by simp)
    funext s
    have hr0 : row "yvals" = nums (r.map (· / area xs r)) := hrow 0 (by simp [interpCls])
    split_ifs with hst
    · subst hst
      obtain ⟨y, c, hy, -, rfl, hidem⟩ := (C12_interp_normalises xs r (hg r hr)).2 (ha r hr)
      simp only [interpCdfEval, hmd, hr0, finites_nums, Option.bind_some, hidem]
      rw [(C13_cdf_at_grid xs _ c ⟨r, hg r hr, hy⟩).1 i s ht, areaTo_div]
    · simp only [interpCdfEval, hr0]

/-! ### densities interpolated on one grid per PDF -/

/-- the keyword arguments of `qp.interp_irregular(xvals=..., yvals=...)`, from pairs (grid, values) -/
def irrArgs (n : ℕ) (rows : List (List K × List K)) : Dict K := [("xvals", table n (rows.map (·.1))), ("yvals", table n (rows.map (·.2)))]

/-- **C104: interpolation on separate grids.** The density is the broken line through the PDF's own points divided by the sum of the rectangles of
height `y_{k+1}`; the CDF is the mass of these rectangles to the left. -/
theorem C104_irregular (n : ℕ) (h2 : 2 ≤ n) (rows : List (List K × List K)) (hne : rows ≠ []) (hs : ∀ r ∈ rows, r.1.Pairwise (· < ·))
    (hx : ∀ r ∈ rows, r.1.length = n) (hy : ∀ r ∈ rows, r.2.length = n) (hm : ∀ r ∈ rows, totalMass r.1 r.2.tail ≠ 0) :
    ∃ e, mkEns (rowCreate irrCls) (rowCreate irrCls) (irrArgs n rows) none = .ok e ∧ e.frozen.npdf = rows.length ∧
      ∀ x : List K, x.Pairwise (· < ·) →
        ensEval irrEval e.frozen x = .ok (rows.map fun r => x.map fun t => some (brokenLine r.1 r.2 t / totalMass r.1 r.2.tail)) ∧
        ensEval irrCdfEval e.frozen x = .ok (rows.map fun r => x.map fun t => some (massUpTo r.1 r.2.tail t / totalMass r.1 r.2.tail)) := by
  have hnorm : ∀ r ∈ rows, Np.sum (rightRects r.1 r.2) = totalMass r.1 r.2.tail ∧ ∀ t c, irrCdf r.1 (r.2.map (· / c)) t = histCdf r.1 (r.2.tail.map (· / c)) t := by
    rintro ⟨xs, ys⟩ hr
    have h5 := hx _ hr
    have h6 := hy _ hr
    simp only at h5 h6
    match xs, ys, h5, h6 with
    | a :: xs, u :: ys, h5, h6 =>
      have hl : xs.length = ys.length := by simp at h5 h6; omega
      refine ⟨(irr_hist a u xs ys hl 0).2, fun t c => ?_⟩
      exact (irr_hist a (u / c) xs (ys.map (· / c)) (by simpa using hl) t).1
    | [], _, h5, _ => simp at h5; omega
    | _ :: _, [], _, h6 => simp at h6; omega
  have hln : ∀ r ∈ rows, irrNormRow r.1 r.2 = some (r.2.map (· / totalMass r.1 r.2.tail)) := by
    intro r hr
    unfold irrNormRow
    simp only [(hnorm r hr).1, if_neg (hm r hr)]
  obtain ⟨e, h1, h3, h4⟩ := create_eval rows (fun r => [nums r.1, nums r.2]) (fun r => [nums r.1, nums (r.2.map (· / totalMass r.1 r.2.tail))])
    (c := irrCls (K := K)) names_irr (mo := []) (mo' := [])
    (ws := [n, n]) (ws' := [n, n]) (by simp [irrCls]) (by simp [irrCls])
    (fun r hr => by simp [nums_length, hx r hr, hy r hr])
    (m := [("check_input", .py (.bool true))])
    (by simp [irrCls, metaDict, checkInputArg, argVal, get?_nil, Bind.bind, Except.bind, pure, Except.pure])
    (data := irrArgs n rows)
    (by simp [irrArgs, metaDict, storeRows, irrCls, table, Function.comp_def])
    (by
      intro _
      have : rows.length ≠ 0 := by simpa using hne
      simp only [List.headD_cons]
      exact Nat.mul_ne_zero this (by omega))
    (by simp [irrCls]) (by simp [irrCls])
    (by
      intro r hr
      simp only [irrCls, irrNorm, finites_nums, liftRow_nums _ _ _ (hln r hr), Bind.bind, Except.bind])
    (by simp [irrCls])
    (fun r hr => by simp [nums_length, hx r hr, hy r hr])
  have hg : ∀ r ∈ rows, XGrid r.1 (r.2.map (· / totalMass r.1 r.2.tail)).length := fun r hr =>
    ⟨hs r hr, by simp [hx r hr, hy r hr], by simpa [hy r hr] using h2⟩
  refine ⟨e, h1, h3, fun x hx' => ⟨h4 irrEval _ (fun r hr row hrow => ?_) x hx', h4 irrCdfEval _ (fun r hr row hrow => ?_) x hx'⟩⟩
  · funext t
    have hr0 : row "xvals" = nums r.1 := hrow 0 (by simp [irrCls])
    have hr1 : row "yvals" = nums (r.2.map (· / totalMass r.1 r.2.tail)) := hrow 1 (by simp [irrCls])
    simp only [irrEval, hr0, hr1, finites_nums]
    rw [interp_line _ _ (hg r hr), brokenLine_div]
  · funext t
    have hr0 : row "xvals" = nums r.1 := hrow 0 (by simp [irrCls])
    have hr1 : row "yvals" = nums (r.2.map (· / totalMass r.1 r.2.tail)) := hrow 1 (by simp [irrCls])
    simp only [irrCdfEval, hr0, hr1, finites_nums]
    obtain ⟨p, -, hp1, rfl, -⟩ := (C07_row_normalised r.1 r.2.tail).2 (hm r hr)
    have hg' : Grid r.1 (r.2.tail.map (· / totalMass r.1 r.2.tail)).length := ⟨hs r hr, by simp [hx r hr, hy r hr]; omega, by simp [hy r hr]; omega⟩
    rw [(hnorm r hr).2, C08_cdf_is_mass _ _ hg' hp1, massUpTo_div]

/-! ### mixtures -/

/-- the keyword arguments of `qp.mixmod(means=..., stds=..., weights=...)`, from one list of components (mean, width, weight) per PDF -/
def mixArgs (n : ℕ) (rows : List (List (K × K × K))) : Dict K :=
  [("means", table n (rows.map fun r => r.map (·.1))), ("stds", table n (rows.map fun r => r.map (·.2.1))),
   ("weights", table n (rows.map fun r => r.map (·.2.2)))]

/-- **C104: mixtures.** For every family `phi mean width` of component densities (or CDFs) the ensemble evaluates to the mixtures of the given
components with weights divided by their sum. -/
theorem C104_mixture (phi : K → K → K → K) (n : ℕ) (rows : List (List (K × K × K))) (hn : ∀ r ∈ rows, r.length = n)
    (hw : ∀ r ∈ rows, ∀ c ∈ r, 0 ≤ c.2.2) (hs : ∀ r ∈ rows, (r.map (·.2.2)).sum ≠ 0) :
    ∃ e, mkEns (rowCreate mixCls) (rowCreate mixCls) (mixArgs n rows) none = .ok e ∧ e.frozen.npdf = rows.length ∧
      ∀ x : List K, x.Pairwise (· < ·) →
        ensEval (mixRowEval phi) e.frozen x = .ok (rows.map fun r => x.map fun t => some (mixture phi r t)) := by
  obtain ⟨e, h1, h3, h4⟩ := create_eval rows (fun r => [nums (r.map (·.1)), nums (r.map (·.2.1)), nums (r.map (·.2.2))])
    (fun r => [nums (r.map (·.1)), nums (r.map (·.2.1)), nums ((r.map (·.2.2)).map (· / (r.map (·.2.2)).sum))])
    (c := mixCls (K := K)) names_mix (mo := []) (mo' := [])
    (ws := [n, n, n]) (ws' := [n, n, n]) (by simp) (by simp [mixCls])
    (fun r hr => by simp [nums_length, hn r hr])
    (m := [])
    (by simp [mixCls, pure, Except.pure])
    (data := mixArgs n rows)
    (by simp [mixArgs, metaDict, storeRows, mixCls, table, Function.comp_def])
    (by simp [mixCls])
    (by simp [mixCls]) (by simp [mixCls])
    (by
      intro r hr
      have hneg : (nums (r.map (·.2.2))).any Elem.neg = false := by
        rw [List.any_eq_false]
        intro v hv
        simp only [nums, List.map_map, List.mem_map, Function.comp] at hv
        obtain ⟨c, hc, rfl⟩ := hv
        simpa [Elem.neg] using hw r hr c hc
      have hnorm : mixNormRow (r.map (·.2.2)) = some ((r.map (·.2.2)).map (· / (r.map (·.2.2)).sum)) := by
        unfold mixNormRow
        rw [sum_eq, if_neg (hs r hr)]
      simp only [mixCls, hneg, Bool.false_eq_true, if_false, liftRow_nums _ _ _ hnorm, Bind.bind, Except.bind])
    (by simp [mixCls])
    (fun r hr => by simp [nums_length, hn r hr])
  refine ⟨e, h1, h3, fun x hx' => h4 (mixRowEval phi) _ (fun r hr row hrow => ?_) x hx'⟩
  funext t
  have hr0 : row "means" = nums (r.map (·.1)) := hrow 0 (by simp [mixCls])
  have hr1 : row "stds" = nums (r.map (·.2.1)) := hrow 1 (by simp [mixCls])
  have hr2 : row "weights" = nums ((r.map (·.2.2)).map (· / (r.map (·.2.2)).sum)) := hrow 2 (by simp [mixCls])
  simp only [mixRowEval, hr0, hr1, hr2, finites_nums, mixture, mixEval, sum_eq]
  congr 2
  generalize (r.map (·.2.2)).sum = S
  clear hrow hr0 hr1 hr2 hr
  induction r with
  | nil => rfl
  | cons c r ih => simp only [List.map_cons, List.zipWith_cons_cons, ih]

/-! ### quantiles -/

/-- the keyword arguments of `qp.quant(quants=..., locs=...)` -/
def quantArgs (quants : List K) (rows : List (List K)) : Dict K := [("quants", .arr (vec quants)), ("locs", table quants.length rows)]

theorem quantInit_of_pad (quants qs : List K) (locs ls : List (List K)) (h : padQuantiles quants locs = .ok (qs, ls)) (hl : ∀ r ∈ ls, r.length = qs.length) :
    quantInit quants locs true = .ok (qs, ls) := by
  unfold quantInit
  simp only [if_true, h]
  rw [if_neg]
  simp only [List.any_eq_true, decide_eq_true_eq, not_exists, not_and, not_not]
  exact hl

theorem pad_rows (quants : List K) (rows : List (List K)) (hq : Quant.QuantData quants rows) : ∃ qs : List K, qs.Pairwise (· < ·) ∧
    quantInit quants [] true = .ok (qs, []) ∧ ∃ L : List K → List K, ∀ r ∈ rows, quantInit quants [r] true = .ok (qs, [L r]) ∧
      (L r).length = qs.length ∧ (L r).Pairwise (· < ·) ∧ ∃ k, (qs.drop k).take quants.length = quants ∧ ((L r).drop k).take quants.length = r := by
  obtain ⟨qs, ls, k, h1, h2, -, -, -, h3, -, h4, -, -⟩ := Quant.C18_padding quants [] ⟨hq.strict, hq.two, hq.unit, by simp⟩
  obtain rfl : ls = [] := List.length_eq_zero_iff.1 (by simpa using h4)
  have hi0 := quantInit_of_pad quants qs [] [] h1 (by simp)
  refine ⟨qs, h2, hi0, ?_⟩
  have : ∀ r ∈ rows, ∃ l, quantInit quants [r] true = .ok (qs, [l]) ∧
      l.length = qs.length ∧ l.Pairwise (· < ·) ∧ ∃ k, (qs.drop k).take quants.length = quants ∧ (l.drop k).take quants.length = r := by
    intro r hr
    obtain ⟨qs', ls', k', g1, -, -, -, -, g3, -, g4, g5, -⟩ := Quant.C18_padding quants [r] ⟨hq.strict, hq.two, hq.unit, by simpa using hq.rows r hr⟩
    obtain ⟨l, rfl⟩ : ∃ l, ls' = [l] := List.length_eq_one_iff.1 (by simpa using g4)
    obtain ⟨l', e1, e2, e3, e4⟩ := g5 0 r rfl
    simp only [List.getElem?_cons_zero, Option.some.injEq] at e1
    subst e1
    have hi := quantInit_of_pad quants qs' [r] [l] g1 (by simpa using e2)
    have : qs' = qs := (quantInit_spec hi0).2.2.2 _ _ _ hi
    subst this
    exact ⟨l, hi, e2, e3, k', g3, e4⟩
  choose! L hL using this
  exact ⟨L, hL⟩

theorem get_window {α : Type} {l w : List α} {k n j : ℕ} {a : α} (h : (l.drop k).take n = w) (ha : w[j]? = some a) : l[k + j]? = some a := by
  rw [← h, List.getElem?_take] at ha
  split_ifs at ha
  rwa [List.getElem?_drop] at ha

/-- **C104: quantiles.** For every way `spl` of interpolating increasing knots, the CDF of the ensemble at the location given for a quantile is that
quantile, and its inverse at a quantile is the location given for it, for every PDF. -/
theorem C104_quantiles (spl : List (K × K) → K → K)
    (hspl : ∀ kn : List (K × K), (kn.map (·.1)).Pairwise (· < ·) → ∀ p ∈ kn, spl kn p.1 = p.2) (lo hi : K)
    (quants : List K) (rows : List (List K)) (hq : Quant.QuantData quants rows) (hne : rows ≠ []) :
    ∃ e, mkEns (rowCreate quantCls) (rowCreate quantCls) (quantArgs quants rows) none = .ok e ∧ e.frozen.npdf = rows.length ∧
      ∀ (i k : ℕ) (r : List K) (l q : K), rows[i]? = some r → r[k]? = some l → quants[k]? = some q →
        (∃ vals, ensEval (quantCdfElem spl) e.frozen [l] = .ok vals ∧ vals.length = rows.length ∧ vals[i]? = some [.num (some q)]) ∧
        ∃ vals, ensEval (quantPpfRow spl lo hi) e.frozen [q] = .ok vals ∧ vals.length = rows.length ∧ vals[i]? = some [some l] := by
  obtain ⟨qs, hqs, hi0, L, hL⟩ := pad_rows quants rows hq
  have hgrid : grid1 ([("quants", .arr (vec quants)), ("pdf_constructor_name", .py (.str "piecewise_linear")), ("check_input", .py (.bool true))] : Dict K)
      "quants" = .ok quants := by
    simp [grid1, get?_cons, Val.toArr, vec, finites_nums]
  have htr : truthy ([("quants", .arr (vec quants)), ("pdf_constructor_name", .py (.str "piecewise_linear")), ("check_input", .py (.bool true))] : Dict K)
      "check_input" = true := by
    simp [truthy, argData, get?_cons, Val.toArr]
  have hstr : strArg ([("quants", .arr (vec quants)), ("pdf_constructor_name", .py (.str "piecewise_linear")), ("check_input", .py (.bool true))] : Dict K)
      "pdf_constructor_name" = .ok "piecewise_linear" := by
    simp [strArg, argData, get?_cons, Val.toArr]
  have hqm : quantMeta ([("quants", .arr (vec quants)), ("pdf_constructor_name", .py (.str "piecewise_linear")), ("check_input", .py (.bool true))] : Dict K)
      = .ok qs := by
    simp [quantMeta, hgrid, htr, hi0, Bind.bind, Except.bind]
  obtain ⟨e, h1, h3, h4⟩ := create_eval rows (fun r => [nums r]) (fun r => [nums (L r)]) (c := quantCls (K := K)) names_quant
    (mo := [("quants", vec quants)]) (mo' := quantOut qs)
    (ws := [quants.length]) (ws' := [qs.length]) (by simp [quantCls]) (by simp [quantCls])
    (fun r hr => by simp [nums_length, (hq.rows r hr).1])
    (m := [("quants", .arr (vec quants)), ("pdf_constructor_name", .py (.str "piecewise_linear")), ("check_input", .py (.bool true))])
    (by simp [quantCls, metaDict, checkInputArg, argVal, get?_cons, get?_nil, Bind.bind, Except.bind, pure, Except.pure])
    (data := quantArgs quants rows)
    (by simp [quantArgs, metaDict, storeRows, quantCls, table, Function.comp_def])
    (by
      intro _
      have : rows.length ≠ 0 := by simpa using hne
      have := hq.two
      simp only [List.headD_cons]
      exact Nat.mul_ne_zero ‹_› (by omega))
    (by simp [quantCls, hqm, hstr, htr, Bind.bind, Except.bind, pdfConstructors, quantOut])
    (by simp [quantCls, hgrid, hqm, Bind.bind, Except.bind])
    (by
      intro r hr
      simp only [quantCls, finites_nums]
      simp [quantRow, hgrid, htr, (hL r hr).1, Bind.bind, Except.bind])
    (by simp [quantCls])
    (fun r hr => by simp [nums_length, (hL r hr).2.1])
  have hmd : metaGrid (classMeta (quantCls (K := K)).name (quantCls (K := K)).version ++ (quantOut qs).map fun p => (p.1, .arr p.2.expand0)) "quants" = qs := by
    simp [metaGrid, classMeta, quantCls, quantOut, get?_cons, Val.toArr, Arr.expand0, vec, finites_nums]
  refine ⟨e, h1, h3, fun i k r l q hr hl hqk => ?_⟩
  obtain ⟨-, g1, g2, j, g3, g4⟩ := hL r (List.mem_of_getElem? hr)
  have hl' := get_window g4 hl
  have hq' := get_window g3 hqk
  constructor
  · refine ⟨_, h4 (quantCdfElem spl) (fun r t => .num (quantCdf spl qs (L r) t)) (fun r hr row hrow => ?_) [l] (by simp), by simp, ?_⟩
    · funext t
      have hr0 : row "locs" = nums (L r) := hrow 0 (by simp [quantCls])
      simp only [quantCdfElem, hmd, hr0, finites_nums, Option.bind_some]
    · rw [List.getElem?_map, hr]
      have hne' : L r ≠ [] := by rintro h0; rw [h0] at hl'; simp at hl'
      have := (Quant.C19_knots_partial spl qs (L r) (hspl _ (by rw [List.map_fst_zip (by omega)]; exact g2)) g1.symm g2 hne').1 (j + k) l q hl' hq'
      simp [this]
  · refine ⟨_, h4 (quantPpfRow spl lo hi) (fun r t => quantPpf spl lo hi qs (L r) t) (fun r hr row hrow => ?_) [q] (by simp), by simp, ?_⟩
    · funext t
      have hr0 : row "locs" = nums (L r) := hrow 0 (by simp [quantCls])
      simp only [quantPpfRow, hmd, hr0, finites_nums, Option.bind_some]
    · rw [List.getElem?_map, hr]
      have := quantPpf_knot spl lo hi qs (L r) hqs (hspl _ (by rw [List.map_fst_zip (by omega)]; exact hqs)) (j + k) q l hq' hl'
      simp [this]

/-! ## instances -/

example := C104_hist (K := ℚ) [0, 1, 2] [[1, 3], [2, 2]] (by decide +kernel) (by decide) (by decide) (by decide +kernel)

example : histArgs ([0, 1, 2] : List ℚ) [[1, 3], [2, 2]] =
    [("bins", .arr ⟨[3], [.num (some 0), .num (some 1), .num (some 2)]⟩),
     ("pdfs", .arr ⟨[2, 2], [.num (some 1), .num (some 3), .num (some 2), .num (some 2)]⟩)] := rfl

example := C104_interp (K := ℚ) [0, 1, 3] [[0, 1, 2], [1, 1, 1]] (by decide +kernel) (by decide) (by decide) (by decide +kernel)
example := C104_irregular (K := ℚ) 3 (by decide) [([0, 1, 3], [0, 1, 2]), ([1, 2, 3], [1, 1, 1])] (by decide) (by decide +kernel) (by decide)
  (by decide) (by decide +kernel)
example := C104_mixture (K := ℚ) (fun m s x => m + s * x) 2 [[(0, 1, 1), (1, 2, 3)], [(5, 1, 1), (2, 1, 1)]] (by decide) (by decide +kernel)
  (by decide +kernel)
example : mixture (fun m s x => m + s * x) [(0, 1, 1), (1, 2, 3)] (2 : ℚ) = 17 / 4 := by decide +kernel

end Verif.Props.EndToEnd
