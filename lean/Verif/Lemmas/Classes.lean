import Verif.Model.Classes
import Verif.Lemmas.RowCls
import Verif.Lemmas.InterpPdf
import Mathlib.Algebra.Order.Field.Basic
import Mathlib.Tactic.FieldSimp

/-!
# The row classes reproduce what they store
-/

set_option linter.unusedSectionVars false
set_option autoImplicit false

namespace Verif.Lemmas

open Verif Verif.Np Verif.Model Verif.Lemmas.InterpPdf

section
variable {K : Type} [IntCast K]

/-- every array in the dictionary has as many elements as its shape says -/
def DictWf (d : Dict K) : Prop := ∀ p ∈ d, p.2.toArr.Wf

/-- what the constructor of `c` must satisfy, for common arguments `m`, so that its objects are reproduced -/
structure Reinit (c : RowCls K) (m : Dict K) (mo : List (String × Arr (Elem K))) : Prop where
  mok : ∀ p ∈ mo, p.1 ∈ c.metaArgs.map (·.1)
  mnd : (mo.map (·.1)).Nodup
  sq : ∀ p ∈ mo, p.2.expand0.squeeze = p.2
  fix : ∃ m', c.metaArgs.mapM (argVal (metaDict mo)) = .ok m' ∧ c.metaOut m' = .ok mo ∧
    ∀ ws ws', c.widths m ws = .ok ws' → c.widths m' ws' = .ok ws' ∧ ws'.length = ws.length ∧
      (ws.headD 0 ≠ 0 → ws'.headD 0 ≠ 0) ∧
      ∀ r r', r.map List.length = ws → c.norm m r = .ok r' → c.norm m' r' = .ok r' ∧ r'.map List.length = ws'

theorem bind_ok {α β : Type} {x : Except Err α} {f : α → Except Err β} {b : β} (h : (x >>= f) = .ok b) :
    ∃ a, x = .ok a ∧ f a = .ok b := by
  cases x with
  | error e => simp [Bind.bind, Except.bind] at h
  | ok a => exact ⟨a, rfl, h⟩

/-- what a successful construction looks like -/
theorem rowCreate_inv {c : RowCls K} {data : Dict K} {fr : Frozen K} (h : rowCreate c data = .ok fr) :
    ∃ m rs mo ws out, c.metaArgs.mapM (argVal data) = .ok m ∧ c.rowArgs.mapM (rowArr data) = .ok rs ∧
      (∀ a ∈ rs, a.shape.dropLast = (rs.headD ⟨[], []⟩).shape.dropLast) ∧
      (c.needsRows = true → (rs.headD ⟨[], []⟩).size ≠ 0) ∧
      c.metaOut m = .ok mo ∧ c.widths m (rs.map fun a => a.shape.getLastD 0) = .ok ws ∧
      (List.range (rs.headD ⟨[], []⟩).shape.dropLast.prod).mapM (fun i => c.norm m (pdfRows rs i)) = .ok out ∧
      fr = { metadata := classMeta c.name c.version ++ mo.map fun p => (p.1, .arr p.2.expand0)
             objdata := storeRows c.rowArgs ws out
             npdf := (rs.headD ⟨[], []⟩).shape.dropLast.prod
             shape := (rs.headD ⟨[], []⟩).shape.dropLast } := by
  unfold rowCreate at h
  split at h
  · simp at h
  · obtain ⟨m, hm, h⟩ := bind_ok h
    obtain ⟨rs, hrs, h⟩ := bind_ok h
    simp only at h
    split at h
    · simp at h
    next hlead =>
    split at h
    · simp at h
    next hrank =>
    split at h
    · simp at h
    next hne =>
    obtain ⟨mo, hmo, h⟩ := bind_ok h
    obtain ⟨ws, hws, h⟩ := bind_ok h
    obtain ⟨out, hout, h⟩ := bind_ok h
    refine ⟨m, rs, mo, ws, out, hm, hrs, ?_, ?_, hmo, hws, hout, ?_⟩
    · simpa only [List.any_eq_true, decide_eq_true_eq, not_exists, not_and, not_not] using hlead
    · intro hn h0; exact hne ⟨hn, h0⟩
    · exact (Except.ok.inj h).symm

theorem rowArr_wf {data : Dict K} (hw : DictWf data) {k : String} {a : Arr (Elem K)} (h : rowArr data k = .ok a) :
    a.Wf ∧ a.shape ≠ [] := by
  unfold rowArr at h
  cases hg : Dict.get? data k with
  | none => rw [hg] at h; simp at h
  | some v =>
    rw [hg] at h
    cases v with
    | arr b =>
      simp only at h
      split at h
      · simp at h
      next hs =>
      obtain rfl := Except.ok.inj h
      exact ⟨hw _ (mem_of_get? hg), hs⟩
    | py e => simp at h
    | lst l => simp at h

theorem prod_dropLast (s : List ℕ) (h : s ≠ []) : s.dropLast.prod * s.getLastD 0 = s.prod := by
  conv_rhs => rw [← List.dropLast_append_getLast h]
  rw [List.prod_append]
  simp [List.getLastD_eq_getLast?, List.getLast?_eq_getLast_of_ne_nil h]

theorem flat2_wf {a : Arr (Elem K)} (h : a.Wf) (hs : a.shape ≠ []) : (flat2 a).Wf := by
  unfold Arr.Wf at h ⊢
  simp only [flat2, List.prod_cons, List.prod_nil, mul_one]
  rw [h, prod_dropLast _ hs]

/-- **objects of a lawful class are fixed points**: a successful construction (on well-formed arrays) yields metadata and tables that
the constructor reproduces. -/
theorem fixed_of_create {c : RowCls K} (hn : Names c) {data : Dict K} (hw : DictWf data) {fr : Frozen K}
    (h : rowCreate c data = .ok fr)
    (hre : ∀ m mo, c.metaArgs.mapM (argVal data) = .ok m → c.metaOut m = .ok mo → Reinit c m mo) :
    ∃ mo ws out, fr = frozenOf c mo ws out fr.shape ∧ Fixed c mo ws out ∧
      (c.needsRows = true → out.length * ws.headD 0 ≠ 0) := by
  obtain ⟨m, rs, mo, ws, out, hm, hrs, hlead, hne, hmo, hws, hout, rfl⟩ := rowCreate_inv h
  have hr := hre m mo hm hmo
  obtain ⟨m', hm', hmo', hfix⟩ := hr.fix
  obtain ⟨hw', hwl, hhd, hnorm⟩ := hfix _ _ hws
  have hrsF := (mapM_ok_iff _ _ _).1 hrs
  have houtF := (mapM_ok_iff _ _ _).1 hout
  have hrsl : rs.length = c.rowArgs.length := hrsF.length_eq.symm
  have hwf : ∀ a ∈ rs, a.Wf ∧ a.shape ≠ [] := by
    intro a ha
    obtain ⟨j, hj, rfl⟩ := List.mem_iff_getElem.1 ha
    have := (List.forall₂_iff_get.1 hrsF).2 j (by omega) hj
    simp only [List.get_eq_getElem] at this
    exact rowArr_wf hw this
  have houtl : out.length = (rs.headD ⟨[], []⟩).shape.dropLast.prod := by
    have := houtF.length_eq; rw [List.length_range] at this; exact this.symm
  have hrow : ∀ i, i < out.length → (pdfRows rs i).map List.length = rs.map fun a => a.shape.getLastD 0 := by
    intro i hi
    simp only [pdfRows, List.map_map]
    apply List.map_congr_left
    intro a ha
    have h2 := hwf a ha
    have := Arr.length_row (flat2 a) (flat2_wf h2.1 h2.2) i (by
      simp only [flat2, Arr.nrows, List.headD_cons]
      rw [hlead a ha, ← houtl]; exact hi)
    simp only [Function.comp]
    rw [this]
    simp [flat2, Arr.rowSize]
  have hmem : ∀ r' ∈ out, c.norm m' r' = .ok r' ∧ r'.map List.length = ws := by
    intro r' hr'
    obtain ⟨i, hi, rfl⟩ := List.mem_iff_getElem.1 hr'
    have := (List.forall₂_iff_get.1 houtF).2 i (by rw [List.length_range, ← houtl]; exact hi) hi
    simp only [List.get_eq_getElem, List.getElem_range] at this
    exact hnorm _ _ (hrow i hi) this
  refine ⟨mo, ws, out, ?_, ⟨hn, hr.mok, hr.mnd, hr.sq, by rw [hwl]; simpa using hrsl,
    ⟨m', hm', hmo', hw', fun r hr => (hmem r hr).1⟩, fun r hr => (hmem r hr).2⟩, ?_⟩
  · simp only [frozenOf]
    rw [houtl]
  · intro hneed
    have h0 := hne hneed
    cases hrs' : rs with
    | nil => rw [hrs'] at hrsl; exact absurd (List.length_eq_zero_iff.1 hrsl.symm) hn.rne
    | cons a t =>
      rw [hrs'] at h0 houtl hhd
      simp only [List.headD_cons, List.map_cons] at h0 houtl hhd
      have ha := hwf a (by rw [hrs']; simp)
      have hp := prod_dropLast a.shape ha.2
      unfold Arr.size at h0
      rw [houtl]
      intro hz
      rcases Nat.mul_eq_zero.1 hz with hz | hz
      · rw [hz] at hp; simp at hp; exact h0 hp.symm
      · apply hhd _ hz
        intro h1; rw [h1] at hp; simp at hp; exact h0 hp.symm

end

section
variable {K : Type} [Field K] [LinearOrder K] [IsStrictOrderedRing K]

theorem finites_nums (l : List K) : finites (nums l) = some l := by
  unfold finites nums
  induction l with
  | nil => rfl
  | cons a t ih => simp only [List.map_cons, List.mapM_cons, ih]; rfl

theorem allNum_nums (l : List K) : allNum (nums l) = true := by simp [allNum, nums]

theorem allNum_nanRow (l : List (Elem K)) : allNum (nanRow l) = true := by simp [allNum, nanRow]

theorem finites_length {l : List (Elem K)} {r : List K} (h : finites l = some r) : r.length = l.length := by
  induction l generalizing r with
  | nil => simp [finites] at h; subst h; rfl
  | cons a t ih =>
    simp only [finites, List.mapM_cons] at h
    cases ha : a.finite? with
    | none => rw [ha] at h; simp at h
    | some v =>
      rw [ha] at h
      cases ht : t.mapM Elem.finite? with
      | none => rw [ht] at h; simp at h
      | some s =>
        rw [ht] at h
        simp at h
        subst h
        simp [ih (r := s) (by unfold finites; exact ht)]

theorem finites_nanRow_ne {l : List (Elem K)} (h : l ≠ []) : finites (nanRow l) = none := by
  cases l with
  | nil => simp at h
  | cons a t => simp [finites, nanRow, Elem.finite?]

theorem nanRow_nanRow (l : List (Elem K)) : nanRow (nanRow l) = nanRow l := by simp [nanRow]

/-- dividing by a homogeneous total is idempotent -/
theorem liftRow_idem (f : List K → Option (List K)) (hf : ∀ r r', f r = some r' → f r' = some r' ∧ r'.length = r.length)
    (row row' : List (Elem K)) (h : liftRow f row = .ok row') : liftRow f row' = .ok row' ∧ row'.length = row.length := by
  unfold liftRow at h
  split at h
  next hnum =>
    cases hfin : finites row with
    | none =>
      rw [hfin] at h
      obtain rfl := Except.ok.inj h
      have hne : row ≠ [] := by rintro rfl; simp [finites] at hfin
      refine ⟨?_, by simp [nanRow]⟩
      unfold liftRow
      rw [if_pos (allNum_nanRow _), finites_nanRow_ne hne]
      simp only [nanRow_nanRow]
    | some r =>
      rw [hfin] at h
      cases hr : f r with
      | none =>
        simp only [hr] at h
        obtain rfl := Except.ok.inj h
        refine ⟨?_, by simp [nanRow]⟩
        unfold liftRow
        rw [if_pos (allNum_nanRow _)]
        by_cases hne : row = []
        · subst hne
          simp [finites] at hfin
          subst hfin
          simp only [nanRow, List.map_nil, finites, List.mapM_nil, pure, hr]
        · rw [finites_nanRow_ne hne]
          simp only [nanRow_nanRow]
      | some r' =>
        simp only [hr] at h
        obtain rfl := Except.ok.inj h
        have := hf r r' hr
        refine ⟨?_, ?_⟩
        · unfold liftRow
          rw [if_pos (allNum_nums _), finites_nums]
          simp only [this.1]
        · simp [nums, this.2, finites_length hfin]
  next => simp at h

theorem div_idem (s : List K → K) (hs : ∀ r c, s (r.map (· / c)) = s r / c) (r r' : List K)
    (h : (if s r = 0 then none else some (r.map (· / s r))) = some r') :
    (if s r' = 0 then none else some (r'.map (· / s r'))) = some r' ∧ r'.length = r.length := by
  split_ifs at h with h0
  obtain rfl := Option.some.inj h
  have : s (r.map (· / s r)) = 1 := by rw [hs, div_self h0]
  rw [this]
  simp

theorem histNormRow_idem (b r r' : List K) (h : histNormRow b r = some r') :
    histNormRow b r' = some r' ∧ r'.length = r.length := by
  refine div_idem (histSum b) ?_ r r' h
  intro r c
  unfold histSum
  generalize binWidths b = w
  induction r generalizing w with
  | nil => simp [Np.mul, Np.sum]
  | cons a t ih =>
    cases w with
    | nil => simp [Np.mul, Np.sum]
    | cons w ws =>
      have := ih ws
      simp only [Np.mul, Np.sum, List.map_cons, List.zipWith_cons_cons, List.foldr_cons] at this ⊢
      rw [this]; ring

theorem sum_map_div (r : List K) (c : K) : Np.sum (r.map (· / c)) = Np.sum r / c := by
  induction r with
  | nil => simp [Np.sum]
  | cons a t ih =>
    simp only [Np.sum, List.map_cons, List.foldr_cons] at ih ⊢
    rw [ih]; ring

theorem mixNormRow_idem (r r' : List K) (h : mixNormRow r = some r') :
    mixNormRow r' = some r' ∧ r'.length = r.length :=
  div_idem Np.sum sum_map_div r r' h

theorem rightRects_div (xs ys : List K) (c : K) : rightRects xs (ys.map (· / c)) = (rightRects xs ys).map (· / c) := by
  induction xs generalizing ys with
  | nil => simp [rightRects]
  | cons a xs ih =>
    cases xs with
    | nil => simp [rightRects]
    | cons b xs =>
      match ys with
      | [] => simp [rightRects]
      | [u] => simp [rightRects]
      | u :: v :: ys =>
        have := ih (v :: ys)
        simp only [rightRects, List.map_cons] at this ⊢
        rw [this]
        congr 1; ring

theorem irrNormRow_idem (xs r r' : List K) (h : irrNormRow xs r = some r') :
    irrNormRow xs r' = some r' ∧ r'.length = r.length :=
  div_idem (fun ys => Np.sum (rightRects xs ys)) (fun r c => by simp only [rightRects_div, sum_map_div]) r r' h

/-- the total by which a row of `interp_gen` is divided -/
def interpTotal (xs ys : List K) : K :=
  match interpCumul xs ys with
  | .ok c => c.getLast?.getD 0
  | .error _ => 0

theorem interpNorm_eq (xs ys : List K) :
    interpNorm xs ys = if interpTotal xs ys = 0 then none else some (ys.map (· / interpTotal xs ys)) := by
  unfold interpNorm interpNormRow interpTotal
  cases hc : interpCumul xs ys with
  | error e => simp
  | ok c =>
    cases hl : c.getLast? with
    | none => simp [hl]
    | some s =>
      simp only [hl, Option.getD_some]
      by_cases h : s = 0 <;> simp [h]

theorem interpTotal_div (xs ys : List K) (c : K) : interpTotal xs (ys.map (· / c)) = interpTotal xs ys / c := by
  unfold interpTotal interpCumul
  match xs, ys with
  | [], _ => simp
  | [a], _ => simp
  | a :: b :: t, [] => simp
  | a :: b :: t, u :: r =>
    simp only [List.map_cons]
    have e := trapezoids_div (a :: b :: t) (u :: r) c
    simp only [List.map_cons] at e
    rw [e]
    have e2 := cumsumFrom_div (0 : K) c (trapezoids (a :: b :: t) (u :: r))
    simp only [zero_div] at e2
    unfold cumsum
    rw [e2]
    have e3 : (1 / 2 * (u / c) * (b - a)) :: (cumsumFrom 0 (trapezoids (a :: b :: t) (u :: r))).map (· / c)
        = ((1 / 2 * u * (b - a)) :: cumsumFrom 0 (trapezoids (a :: b :: t) (u :: r))).map (· / c) := by
      simp only [List.map_cons]; congr 1; ring
    rw [e3, List.getLast?_map]
    cases ((1 / 2 * u * (b - a)) :: cumsumFrom 0 (trapezoids (a :: b :: t) (u :: r))).getLast? <;> simp

theorem interpNorm_idem (xs r r' : List K) (h : interpNorm xs r = some r') :
    interpNorm xs r' = some r' ∧ r'.length = r.length := by
  rw [interpNorm_eq] at h ⊢
  exact div_idem (interpTotal xs) (interpTotal_div xs) r r' h

/-! ### the classes -/

theorem vec_sq (l : List K) (h : l.length ≠ 1) : (vec l).expand0.squeeze = vec l := by
  simp [vec, Arr.expand0, Arr.squeeze, h]

theorem grid1_vec (l : List K) (key : String) (m : Dict K) (h : Dict.get? m key = some (.arr (vec l))) : grid1 m key = .ok l := by
  unfold grid1
  rw [h]
  simp [Val.toArr, vec, finites_nums]

theorem mapM_one {α β : Type} (f : α → Except Err β) (rows : List α) (rows' : List β)
    (h : rows.mapM f = .ok rows') : List.Forall₂ (fun a b => f a = .ok b) rows rows' := (mapM_ok_iff _ _ _).1 h

theorem mapM_liftRow_idem (f : List K → Option (List K)) (hf : ∀ r r', f r = some r' → f r' = some r' ∧ r'.length = r.length)
    (rows rows' : List (List (Elem K))) (h : rows.mapM (liftRow f) = .ok rows') :
    rows'.mapM (liftRow f) = .ok rows' ∧ rows'.map List.length = rows.map List.length := by
  rw [mapM_ok_iff] at h
  induction h with
  | nil => exact ⟨rfl, rfl⟩
  | cons hab _ ih =>
    have := liftRow_idem f hf _ _ hab
    refine ⟨?_, by simp [this.2, ih.2]⟩
    rw [mapM_cons, this.1, ih.1]

theorem names_hist : Names (histCls (K := K)) :=
  ⟨by simp [histCls, checkInputArg], by simp [histCls, checkInputArg], by simp [histCls, checkInputArg], by simp [histCls]⟩

theorem reinit_hist (m : Dict K) (mo : List (String × Arr (Elem K))) (b : List K) (hb : grid1 m "bins" = .ok b)
    (h2 : 2 ≤ b.length) (hmo : histCls.metaOut m = .ok mo) : Reinit histCls m mo := by
  have hne : b ≠ [] := by rintro rfl; simp at h2
  have e : mo = [("bins", vec b)] := by
    simp only [histCls, hb, Bind.bind, Except.bind, if_neg hne] at hmo
    exact (Except.ok.inj hmo).symm
  subst e
  refine ⟨by simp [histCls], by simp, ?_, ?_⟩
  · intro p hp
    simp only [List.mem_singleton] at hp
    subst hp
    exact vec_sq b (by omega)
  · set m' : Dict K := [("bins", .arr (vec b)), ("check_input", .py (.bool true))] with hm'
    have hg : grid1 m' "bins" = .ok b := grid1_vec b "bins" m' (by simp [hm', get?_cons])
    refine ⟨m', ?_, ?_, ?_⟩
    · simp [histCls, argVal, metaDict, get?_cons, get?_nil, checkInputArg, hm', Bind.bind, Except.bind, pure, Except.pure]
    · simp only [histCls, hg, Bind.bind, Except.bind, if_neg hne]
    · intro ws ws' hws
      simp only [histCls, hb, hg, Bind.bind, Except.bind] at hws ⊢
      split_ifs at hws with hw
      obtain rfl := Except.ok.inj hws
      refine ⟨if_pos hw, rfl, id, ?_⟩
      intro r r' hr hnorm
      have := mapM_liftRow_idem _ (histNormRow_idem b) _ _ hnorm
      exact ⟨this.1, this.2.trans hr⟩

theorem names_interp : Names (interpCls (K := K)) :=
  ⟨by simp [interpCls, checkInputArg], by simp [interpCls, checkInputArg], by simp [interpCls, checkInputArg], by simp [interpCls]⟩

theorem reinit_interp (m : Dict K) (mo : List (String × Arr (Elem K)))
    (hmo : interpCls.metaOut m = .ok mo) : Reinit interpCls m mo := by
  cases hb : grid1 m "xvals" with
  | error e => simp [interpCls, hb, Bind.bind, Except.bind] at hmo
  | ok b =>
  simp only [interpCls, hb, Bind.bind, Except.bind] at hmo
  split_ifs at hmo with hne
  obtain rfl := Except.ok.inj hmo
  refine ⟨by simp [interpCls], by simp, ?_, ?_⟩
  · intro p hp
    simp only [List.mem_singleton] at hp
    subst hp
    exact vec_sq b (by omega)
  · set m' : Dict K := [("xvals", .arr (vec b)), ("check_input", .py (.bool true))] with hm'
    have hg : grid1 m' "xvals" = .ok b := grid1_vec b "xvals" m' (by simp [hm', get?_cons])
    refine ⟨m', ?_, ?_, ?_⟩
    · simp [interpCls, argVal, metaDict, get?_cons, get?_nil, checkInputArg, hm', Bind.bind, Except.bind, pure, Except.pure]
    · simp only [interpCls, hg, Bind.bind, Except.bind]
      rw [if_neg hne]
    · intro ws ws' hws
      simp only [interpCls, hb, hg, Bind.bind, Except.bind] at hws ⊢
      split_ifs at hws with hw
      obtain rfl := Except.ok.inj hws
      refine ⟨if_pos hw, rfl, id, ?_⟩
      intro r r' hr hnorm
      have := mapM_liftRow_idem _ (interpNorm_idem b) _ _ hnorm
      exact ⟨this.1, this.2.trans hr⟩

theorem names_irr : Names (irrCls (K := K)) :=
  ⟨by simp [irrCls, checkInputArg], by simp [irrCls, checkInputArg], by simp [irrCls, checkInputArg], by simp [irrCls]⟩

theorem irrNorm_idem (xs ys y : List (Elem K)) (h : irrNorm xs ys = .ok y) : irrNorm xs y = .ok y ∧ y.length = ys.length := by
  unfold irrNorm at h ⊢
  cases hx : finites xs with
  | some x =>
    rw [hx] at h
    exact liftRow_idem _ (irrNormRow_idem x) _ _ h
  | none =>
    rw [hx] at h
    simp only at h ⊢
    split_ifs at h with hn
    obtain rfl := Except.ok.inj h
    rw [if_pos ⟨hn.1, allNum_nanRow _⟩, nanRow_nanRow]
    exact ⟨rfl, by simp [nanRow]⟩

theorem reinit_irr (m : Dict K) (mo : List (String × Arr (Elem K)))
    (hmo : irrCls.metaOut m = .ok mo) : Reinit irrCls m mo := by
  obtain rfl : mo = [] := (Except.ok.inj hmo).symm
  refine ⟨by simp, by simp, by simp, ?_⟩
  set m' : Dict K := [("check_input", .py (.bool true))] with hm'
  refine ⟨m', ?_, rfl, ?_⟩
  · simp [irrCls, argVal, metaDict, get?_nil, checkInputArg, hm', Bind.bind, Except.bind, pure, Except.pure]
  · intro ws ws' hws
    match ws, hws with
    | [a, b], hws =>
      simp only [irrCls] at hws
      split_ifs at hws with hab
      obtain rfl := Except.ok.inj hws
      refine ⟨by simp [irrCls, hab], rfl, id, ?_⟩
      intro r r' hr hnorm
      match r, hr, hnorm with
      | [xs, ys], hr, hnorm =>
        simp only [irrCls] at hnorm
        obtain ⟨y, hy, hnorm⟩ := bind_ok hnorm
        obtain rfl := Except.ok.inj hnorm
        have := irrNorm_idem xs ys y hy
        refine ⟨?_, ?_⟩
        · simp only [irrCls, this.1, Bind.bind, Except.bind]
        · rw [← hr]; simp [this.2]

theorem names_mix : Names (mixCls (K := K)) := ⟨by simp [mixCls], by simp [mixCls], by simp [mixCls], by simp [mixCls]⟩

theorem finites_some_iff (l : List (Elem K)) (r : List K) : finites l = some r ↔ l = nums r := by
  constructor
  · intro h
    induction l generalizing r with
    | nil => simp [finites] at h; subst h; rfl
    | cons a t ih =>
      simp only [finites, List.mapM_cons] at h
      cases ha : a.finite? with
      | none => rw [ha] at h; simp at h
      | some v =>
        rw [ha] at h
        cases ht : t.mapM Elem.finite? with
        | none => rw [ht] at h; simp at h
        | some s =>
          rw [ht] at h
          simp at h
          subst h
          have e := ih s (by unfold finites; exact ht)
          cases a with
          | num w => simp only [Elem.finite?] at ha; subst ha; rw [e]; rfl
          | bool _ => simp [Elem.finite?] at ha
          | str _ => simp [Elem.finite?] at ha
          | bytes _ => simp [Elem.finite?] at ha
  · rintro rfl; exact finites_nums r

theorem liftRow_mix_nonneg (w w' : List (Elem K)) (hw : w.any Elem.neg = false) (h : liftRow mixNormRow w = .ok w') :
    w'.any Elem.neg = false := by
  have hnan : (nanRow w).any Elem.neg = false := by simp [nanRow, Elem.neg]
  unfold liftRow at h
  split at h
  next hnum =>
    cases hfin : finites w with
    | none => rw [hfin] at h; obtain rfl := Except.ok.inj h; exact hnan
    | some r =>
      rw [hfin] at h
      cases hr : mixNormRow r with
      | none => simp only [hr] at h; obtain rfl := Except.ok.inj h; exact hnan
      | some r' =>
        simp only [hr] at h
        obtain rfl := Except.ok.inj h
        rw [finites_some_iff] at hfin
        subst hfin
        have h0 : ∀ v ∈ r, 0 ≤ v := by
          intro v hv
          rw [List.any_eq_false] at hw
          have := hw (.num (some v)) (List.mem_map.2 ⟨v, hv, rfl⟩)
          simpa [Elem.neg] using this
        unfold mixNormRow at hr
        split_ifs at hr with hs
        obtain rfl := Option.some.inj hr
        rw [List.any_eq_false]
        intro e he
        simp only [nums, List.map_map, List.mem_map, Function.comp] at he
        obtain ⟨v, hv, rfl⟩ := he
        have hsum : 0 ≤ Np.sum r := by
          clear hw hs hr hnum h hnan hv
          induction r with
          | nil => simp [Np.sum]
          | cons a t ih =>
            have := ih (fun v hv => h0 v (by simp [hv]))
            simp only [Np.sum, List.foldr_cons] at this ⊢
            exact add_nonneg (h0 a (by simp)) this
        have := div_nonneg (h0 v hv) hsum
        simpa [Elem.neg] using this
  next => simp at h

theorem reinit_mix (m : Dict K) (mo : List (String × Arr (Elem K))) (hmo : mixCls.metaOut m = .ok mo) : Reinit mixCls m mo := by
  obtain rfl : mo = [] := (Except.ok.inj hmo).symm
  refine ⟨by simp, by simp, by simp, ⟨[], rfl, rfl, ?_⟩⟩
  intro ws ws' hws
  match ws, hws with
  | [a, b, c], hws =>
    simp only [mixCls] at hws
    split_ifs at hws with hab
    obtain rfl := Except.ok.inj hws
    refine ⟨by simp only [mixCls]; rw [if_pos hab], rfl, id, ?_⟩
    intro r r' hr hnorm
    match r, hr, hnorm with
    | [mu, sd, w], hr, hnorm =>
      simp only [mixCls] at hnorm
      split_ifs at hnorm with hneg
      obtain ⟨w', hw', hnorm⟩ := bind_ok hnorm
      obtain rfl := Except.ok.inj hnorm
      have := liftRow_idem _ mixNormRow_idem w w' hw'
      have hneg' := liftRow_mix_nonneg w w' (by simpa using hneg) hw'
      refine ⟨?_, ?_⟩
      · simp only [mixCls, hneg', Bool.false_eq_true, if_false, this.1, Bind.bind, Except.bind]
      · rw [← hr]; simp [this.2]

theorem names_spline : Names (splineCls (K := K)) :=
  ⟨by simp [splineCls], by simp [splineCls], by simp [splineCls], by simp [splineCls]⟩

theorem reinit_spline (m : Dict K) (mo : List (String × Arr (Elem K))) (hmo : splineCls.metaOut m = .ok mo) :
    Reinit splineCls m mo := by
  obtain rfl : mo = [] := (Except.ok.inj hmo).symm
  refine ⟨by simp, by simp, by simp, ⟨[], rfl, rfl, ?_⟩⟩
  intro ws ws' hws
  match ws, hws with
  | [a, b, c], hws =>
    simp only [splineCls] at hws
    split_ifs at hws with hab
    obtain rfl := Except.ok.inj hws
    refine ⟨by simp [splineCls, hab], rfl, id, ?_⟩
    intro r r' hr hnorm
    have hnorm' := hnorm
    simp only [splineCls] at hnorm'
    split_ifs at hnorm' with ht
    obtain rfl : r = r' := Except.ok.inj hnorm'
    exact ⟨hnorm, hr⟩

theorem names_packed : Names (packedCls (K := K)) :=
  ⟨by simp [packedCls, checkInputArg], by simp [packedCls, checkInputArg], by simp [packedCls, checkInputArg], by simp [packedCls]⟩

theorem reinit_packed (m : Dict K) (mo : List (String × Arr (Elem K)))
    (hmo : packedCls.metaOut m = .ok mo) : Reinit packedCls m mo := by
  obtain ⟨b, hb, h⟩ := bind_ok hmo
  obtain ⟨p, hp, h⟩ := bind_ok h
  obtain ⟨f, hf, h⟩ := bind_ok h
  split_ifs at h with hne hpt
  obtain rfl := Except.ok.inj h
  refine ⟨by simp [packedCls], by simp, ?_, ?_⟩
  · intro q hq
    simp only [List.mem_cons, List.not_mem_nil, or_false] at hq
    rcases hq with rfl | rfl | rfl
    · exact vec_sq b (by omega)
    · rfl
    · rfl
  · set m' : Dict K := [("xvals", .arr (vec b)), ("packing_type", .arr ⟨[], [.num (some p)]⟩),
      ("log_floor", .arr ⟨[], [.num (some f)]⟩), ("check_input", .py (.bool true))] with hm'
    have hg : grid1 m' "xvals" = .ok b := grid1_vec b "xvals" m' (by simp [hm', get?_cons])
    have hp' : numArg m' "packing_type" = .ok p := by simp [numArg, argData, hm', get?_cons, Val.toArr]
    have hf' : numArg m' "log_floor" = .ok f := by simp [numArg, argData, hm', get?_cons, Val.toArr]
    refine ⟨m', ?_, ?_, ?_⟩
    · simp [packedCls, argVal, metaDict, get?_cons, get?_nil, checkInputArg, hm', Bind.bind, Except.bind, pure, Except.pure]
    · simp only [packedCls, hg, hp', hf', Bind.bind, Except.bind]
      rw [if_neg hne, if_neg hpt]
    · intro ws ws' hws
      simp only [packedCls, hb, hg, Bind.bind, Except.bind] at hws ⊢
      match ws, hws with
      | [x, y], hws =>
        simp only at hws
        split_ifs at hws with hw
        obtain rfl := Except.ok.inj hws
        refine ⟨if_pos hw, rfl, id, ?_⟩
        intro r r' hr hnorm
        have hnorm' := hnorm
        split_ifs at hnorm' with ht
        obtain rfl : r = r' := Except.ok.inj hnorm'
        exact ⟨hnorm, hr⟩

theorem names_sparse : Names (sparseCls (K := K)) :=
  ⟨by simp [sparseCls, checkInputArg], by simp [sparseCls, checkInputArg], by simp [sparseCls, checkInputArg], by simp [sparseCls]⟩

theorem reinit_sparse (m : Dict K) (mo : List (String × Arr (Elem K)))
    (hmo : sparseCls.metaOut m = .ok mo) : Reinit sparseCls m mo := by
  obtain ⟨x, hx, h⟩ := bind_ok hmo
  obtain ⟨mu, hmu, h⟩ := bind_ok h
  obtain ⟨sg, hsg, h⟩ := bind_ok h
  obtain ⟨dm, hdm, h⟩ := bind_ok h
  split_ifs at h with hne
  obtain rfl := Except.ok.inj h
  refine ⟨by simp [sparseCls], by simp, ?_, ?_⟩
  · intro q hq
    simp only [List.mem_cons, List.not_mem_nil, or_false] at hq
    rcases hq with rfl | rfl | rfl | rfl
    · exact vec_sq x (by omega)
    · exact vec_sq mu (by omega)
    · exact vec_sq sg (by omega)
    · exact vec_sq dm (by omega)
  · set m' : Dict K := [("xvals", .arr (vec x)), ("mu", .arr (vec mu)), ("sig", .arr (vec sg)), ("dims", .arr (vec dm)),
      ("cut", .py (.num (some (1 / 100000)))), ("check_input", .py (.bool true))] with hm'
    have h1 : grid1 m' "xvals" = .ok x := grid1_vec x "xvals" m' (by simp [hm', get?_cons])
    have h2 : grid1 m' "mu" = .ok mu := grid1_vec mu "mu" m' (by simp [hm', get?_cons])
    have h3 : grid1 m' "sig" = .ok sg := grid1_vec sg "sig" m' (by simp [hm', get?_cons])
    have h4 : grid1 m' "dims" = .ok dm := grid1_vec dm "dims" m' (by simp [hm', get?_cons])
    refine ⟨m', ?_, ?_, ?_⟩
    · simp [sparseCls, argVal, metaDict, get?_cons, get?_nil, checkInputArg, hm', Bind.bind, Except.bind, pure, Except.pure]
    · simp only [sparseCls, h1, h2, h3, h4, Bind.bind, Except.bind]
      rw [if_neg hne]
    · intro ws ws' hws
      simp only [sparseCls] at hws ⊢
      match ws, hws with
      | [a], hws =>
        obtain rfl := Except.ok.inj hws
        refine ⟨rfl, rfl, id, ?_⟩
        intro r r' hr hnorm
        obtain rfl : r = r' := Except.ok.inj hnorm
        exact ⟨trivial, hr⟩

/-- padded quantiles need no padding, and do not depend on the locations -/
theorem padQuantiles_spec {q q' : List K} {ls ls' : List (List K)} (h : padQuantiles q ls = .ok (q', ls')) :
    (∀ ls2, padQuantiles q' ls2 = .ok (q', ls2)) ∧ q.length ≤ q'.length ∧
      ∀ ls2 q2 ls2', padQuantiles q ls2 = .ok (q2, ls2') → q2 = q' := by
  unfold padQuantiles at h
  cases hh : q.head? with
  | none => rw [hh] at h; simp at h
  | some q0 =>
  cases hl : q.getLast? with
  | none => rw [hh, hl] at h; simp at h
  | some qn =>
  rw [hh, hl] at h
  simp only at h
  have heps : (0 : K) ≤ floatEps := by unfold floatEps; norm_num
  have key : ∀ lo hi : List K, (lo = [] ∧ ¬ floatEps < q0 ∨ lo = [0]) → (hi = [] ∧ ¬ qn < 1 ∨ hi = [1]) →
      ∀ ls2, padQuantiles (lo ++ q ++ hi) ls2 = .ok (lo ++ q ++ hi, ls2) := by
    intro lo hi hlo hhi ls2
    have h1 : ∃ a, (lo ++ q ++ hi).head? = some a ∧ ¬ floatEps < a := by
      rcases hlo with ⟨rfl, h⟩ | rfl
      · refine ⟨q0, ?_, h⟩
        cases q with
        | nil => simp at hh
        | cons a t => simpa using hh
      · exact ⟨0, rfl, not_lt.2 heps⟩
    have h2 : ∃ a, (lo ++ q ++ hi).getLast? = some a ∧ ¬ a < 1 := by
      rcases hhi with ⟨rfl, h⟩ | rfl
      · refine ⟨qn, ?_, h⟩
        rw [List.append_nil, List.getLast?_append, hl]; rfl
      · exact ⟨1, by simp, lt_irrefl _⟩
    obtain ⟨a, ha, ha'⟩ := h1
    obtain ⟨b, hb, hb'⟩ := h2
    unfold padQuantiles
    rw [ha, hb]
    simp [ha', hb']
  have uniq : ∀ ls2 q2 ls2', padQuantiles q ls2 = .ok (q2, ls2') →
      q2 = (if floatEps < q0 then [0] else []) ++ q ++ (if qn < 1 then [1] else []) := by
    intro ls2 q2 ls2' h2
    unfold padQuantiles at h2
    rw [hh, hl] at h2
    simp only at h2
    by_cases hlo : floatEps < q0 <;> by_cases hhi : qn < 1 <;> simp only [hlo, hhi, decide_true, decide_false, Bool.not_true,
      Bool.not_false, Bool.and_true, Bool.and_false, Bool.and_self, Bool.false_eq_true, if_true, if_false] at h2 ⊢
    rotate_left 3
    · simp only [Except.ok.injEq, Prod.mk.injEq] at h2
      simp [h2.1]
    all_goals
      split at h2
      · simp at h2
      · split at h2
        · simp at h2
        · split at h2
          · simp at h2
          · simp only [Except.ok.injEq, Prod.mk.injEq] at h2
            exact h2.1.symm
  have e := uniq ls q' ls' (by unfold padQuantiles; rw [hh, hl]; exact h)
  refine ⟨?_, ?_, ?_⟩
  · rw [e]
    apply key
    · by_cases h : floatEps < q0 <;> simp [h]
    · by_cases h : qn < 1 <;> simp [h]
  · rw [e]; simp only [List.length_append]; omega
  · intro ls2 q2 ls2' h2
    rw [e]; exact uniq _ _ _ h2

theorem quantInit_spec {q q' : List K} {ls ls' : List (List K)} {c : Bool} (h : quantInit q ls c = .ok (q', ls')) :
    (∀ ls2, (∀ r ∈ ls2, r.length = q'.length) → quantInit q' ls2 c = .ok (q', ls2)) ∧ q.length ≤ q'.length ∧
      (∀ r ∈ ls', r.length = q'.length) ∧ ∀ ls2 q2 ls2', quantInit q ls2 c = .ok (q2, ls2') → q2 = q' := by
  have hany : ∀ ls2 : List (List K), (∀ r ∈ ls2, r.length = q'.length) → ls2.any (fun r => r.length ≠ q'.length) = false := by
    intro ls2 h2; rw [List.any_eq_false]; intro r hr; simpa using h2 r hr
  cases c with
  | false =>
    simp only [quantInit, Bool.false_eq_true, if_false] at h
    split_ifs at h with ha
    simp only [Except.ok.injEq, Prod.mk.injEq] at h
    obtain ⟨rfl, rfl⟩ := h
    refine ⟨?_, le_refl _, ?_, ?_⟩
    · intro ls2 h2
      simp only [quantInit, Bool.false_eq_true, if_false, hany ls2 h2]
    · intro r hr
      by_contra hc
      exact ha (List.any_eq_true.2 ⟨r, hr, by simpa using hc⟩)
    · intro ls2 q2 ls2' h2
      simp only [quantInit, Bool.false_eq_true, if_false] at h2
      split_ifs at h2
      simp only [Except.ok.injEq, Prod.mk.injEq] at h2
      exact h2.1.symm
  | true =>
    simp only [quantInit, if_true] at h
    cases hp : padQuantiles q ls with
    | error e => rw [hp] at h; simp at h
    | ok v =>
      obtain ⟨a, b⟩ := v
      rw [hp] at h
      simp only at h
      split_ifs at h with ha
      simp only [Except.ok.injEq, Prod.mk.injEq] at h
      obtain ⟨rfl, rfl⟩ := h
      obtain ⟨h1, h2, h3⟩ := padQuantiles_spec hp
      refine ⟨?_, h2, ?_, ?_⟩
      · intro ls2 hl2
        simp only [quantInit, if_true, h1, hany ls2 hl2, Bool.false_eq_true, if_false]
      · intro r hr
        by_contra hc
        exact ha (List.any_eq_true.2 ⟨r, hr, by simpa using hc⟩)
      · intro ls2 q2 ls2' hh
        simp only [quantInit, if_true] at hh
        cases hp2 : padQuantiles q ls2 with
        | error e => rw [hp2] at hh; simp at hh
        | ok v2 =>
          obtain ⟨c, d⟩ := v2
          rw [hp2] at hh
          simp only at hh
          split_ifs at hh
          simp only [Except.ok.injEq, Prod.mk.injEq] at hh
          rw [← hh.1]
          exact h3 _ _ _ hp2

theorem names_quant : Names (quantCls (K := K)) :=
  ⟨by simp [quantCls, checkInputArg], by simp [quantCls, checkInputArg], by simp [quantCls, checkInputArg], by simp [quantCls]⟩

theorem reinit_quant (m : Dict K) (mo : List (String × Arr (Elem K))) (q : List K) (hq : grid1 m "quants" = .ok q)
    (h2 : 2 ≤ q.length) (hmo : quantCls.metaOut m = .ok mo) : Reinit quantCls m mo := by
  obtain ⟨q', hq', h⟩ := bind_ok hmo
  obtain ⟨s, hs, h⟩ := bind_ok h
  split_ifs at h with hlook
  obtain rfl := Except.ok.inj h
  set t := truthy m "check_input" with htdef
  have hqi : ∃ ls', quantInit q [] t = .ok (q', ls') := by
    unfold quantMeta at hq'
    rw [hq] at hq'
    obtain ⟨⟨a, b⟩, hab, h⟩ := bind_ok (x := quantInit q [] t) hq'
    obtain rfl := Except.ok.inj h
    exact ⟨b, hab⟩
  obtain ⟨ls', hqi⟩ := hqi
  obtain ⟨hfixq, hlenq, -, huniq⟩ := quantInit_spec hqi
  refine ⟨by simp [quantCls, checkInputArg], by simp, ?_, ?_⟩
  · intro p hp
    simp only [List.mem_cons, List.not_mem_nil, or_false] at hp
    rcases hp with rfl | rfl | rfl
    · exact vec_sq q' (by omega)
    · rfl
    · rfl
  · set m' : Dict K := [("quants", .arr (vec q')), ("pdf_constructor_name", .arr ⟨[], [.str s]⟩),
      ("check_input", .arr ⟨[], [.bool t]⟩)] with hm'
    have hg : grid1 m' "quants" = .ok q' := grid1_vec q' "quants" m' (by simp [hm', get?_cons])
    have ht : truthy m' "check_input" = t := by simp [truthy, argData, hm', get?_cons, Val.toArr]
    have hs' : strArg m' "pdf_constructor_name" = .ok s := by simp [strArg, argData, hm', get?_cons, Val.toArr]
    have hqm : quantMeta m' = .ok q' := by
      unfold quantMeta
      rw [hg, ht]
      have := hfixq [] (by simp)
      simp only [Bind.bind, Except.bind, this]
    refine ⟨m', ?_, ?_, ?_⟩
    · simp [quantCls, argVal, metaDict, get?_cons, checkInputArg, hm', Bind.bind, Except.bind, pure, Except.pure]
    · simp only [quantCls, hqm, hs', Bind.bind, Except.bind, ht]
      rw [if_pos hlook]
    · intro ws ws' hws
      simp only [quantCls, hq, hq', Bind.bind, Except.bind] at hws
      split_ifs at hws with hw
      obtain rfl := Except.ok.inj hws
      subst hw
      refine ⟨?_, rfl, ?_, ?_⟩
      · simp only [quantCls, hg, hqm, Bind.bind, Except.bind, if_true]
      · simp only [List.headD_cons]; omega
      · intro r r' hr hnorm
        match r, hr, hnorm with
        | [r], hr, hnorm =>
          simp only [quantCls] at hnorm
          cases hfin : finites r with
          | none => rw [hfin] at hnorm; simp at hnorm
          | some l =>
            rw [hfin] at hnorm
            simp only at hnorm
            obtain ⟨⟨q2, l'⟩, hl', hnorm⟩ := bind_ok hnorm
            obtain rfl := Except.ok.inj hnorm
            unfold quantRow at hl'
            rw [hq] at hl'
            obtain ⟨⟨a, b⟩, hab, hl'⟩ := bind_ok (x := quantInit q [l] t) hl'
            simp only at hl'
            obtain rfl := huniq _ _ _ hab
            obtain ⟨-, -, hlen, -⟩ := quantInit_spec hab
            match b, hl', hlen with
            | [r0], hl', hlen =>
              simp only [Except.ok.injEq, Prod.mk.injEq] at hl'
              obtain ⟨rfl, rfl⟩ := hl'
              have hr0 := hlen r0 (by simp)
              have := hfixq [r0] (by simpa using hr0)
              refine ⟨?_, by simp [nums, hr0]⟩
              simp only [quantCls, finites_nums, quantRow, hg, ht, Bind.bind, Except.bind, this]

end

end Verif.Lemmas
