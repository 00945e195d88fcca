import Verif.Model.Lazy
import Verif.Lemmas.InterpPdf
import Verif.Lemmas.Reach
import Mathlib.Tactic

/-!
# C128: the history of evaluations does not matter; writing into the arrays does

`Silent acts`: the program `acts` only evaluates. `written acts d`: the arrays after the writes in `acts`. The results of single evaluations are those of the
stateless functions `histPdf`, `histCdf`, ... of C07-C16, written out in the statements.
-/

set_option linter.unusedSectionVars false
set_option autoImplicit false

namespace Verif.Props.Lazy

open Verif Verif.Np Verif.Model Verif.Model.Lazy Verif.Lemmas.InterpPdf

variable {D T A R : Type}

/-- no writing -/
def Silent (acts : List (Act D A)) : Prop := ∀ f, Act.write f ∉ acts

/-- nothing that needs the table -/
def NoTable (acts : List (Act D A)) : Prop := ∀ a, Act.cdf a ∉ acts ∧ Act.ppf a ∉ acts

/-- what the writes in a program make of the arrays -/
def written : List (Act D A) → D → D
  | [], d => d
  | .write f :: as, d => written as (f d)
  | _ :: as, d => written as d

/-! ## any class -/

theorem ensure_data (c : Cls D T A R) (o : Obj D T) : (ensure c o).2.data = o.data := by
  unfold ensure; split <;> rfl

theorem ensure_table (c : Cls D T A R) (o : Obj D T) : (ensure c o).2.table = some (ensure c o).1 := by
  unfold ensure; split <;> simp_all

theorem ensure_some (c : Cls D T A R) (o : Obj D T) (t : T) (h : o.table = some t) : ensure c o = (t, o) := by
  unfold ensure; rw [h]

theorem ensure_none (c : Cls D T A R) (o : Obj D T) (h : o.table = none) : (ensure c o).1 = c.compute o.data := by
  unfold ensure; rw [h]

theorem act_data (c : Cls D T A R) (o : Obj D T) (a : Act D A) : (act c o a).2.data = written [a] o.data := by
  cases a <;> simp [act, written, ensure_data]

theorem written_cons (a : Act D A) (as : List (Act D A)) (d : D) : written (a :: as) d = written as (written [a] d) := by
  cases a <;> rfl

theorem written_append (as bs : List (Act D A)) (d : D) : written (as ++ bs) d = written bs (written as d) := by
  induction as generalizing d with
  | nil => rfl
  | cons a as ih => rw [List.cons_append, written_cons, ih, ← written_cons]

theorem written_silent (as : List (Act D A)) (d : D) (h : Silent as) : written as d = d := by
  induction as generalizing d with
  | nil => rfl
  | cons a as ih =>
    have h' : Silent as := fun f hf => h f (List.mem_cons_of_mem _ hf)
    cases a with
    | write f => exact absurd List.mem_cons_self (h f)
    | _ => exact ih d h'

theorem runAll_data (c : Cls D T A R) (o : Obj D T) (as : List (Act D A)) : (runAll c o as).2.data = written as o.data := by
  induction as generalizing o with
  | nil => rfl
  | cons a as ih =>
    simp only [runAll]
    rw [ih, act_data, written_cons]
    exact (written_cons _ _ _).symm

theorem runAll_append (c : Cls D T A R) (o : Obj D T) (as bs : List (Act D A)) :
    runAll c o (as ++ bs) = ((runAll c o as).1 ++ (runAll c (runAll c o as).2 bs).1, (runAll c (runAll c o as).2 bs).2) := by
  induction as generalizing o with
  | nil => rfl
  | cons a as ih => simp only [List.cons_append, runAll, ih]

theorem runAll_length (c : Cls D T A R) (o : Obj D T) (as : List (Act D A)) : (runAll c o as).1.length = as.length := by
  induction as generalizing o with
  | nil => rfl
  | cons a as ih => simp only [runAll, List.length_cons, ih]

/-- the result number `k` is that of action `k` on the object left by the actions before -/
theorem runAll_get (c : Cls D T A R) (o : Obj D T) (as : List (Act D A)) (k : ℕ) (a : Act D A) (h : as[k]? = some a) :
    (runAll c o as).1[k]? = some (act c (runAll c o (as.take k)).2 a).1 := by
  obtain ⟨hk, ha⟩ := List.getElem?_eq_some_iff.1 h
  have hsplit : as = as.take k ++ a :: as.drop (k+1) := by rw [← ha, List.getElem_cons_drop hk, List.take_append_drop]
  conv_lhs => rw [hsplit, runAll_append]
  rw [List.getElem?_append_right (by rw [runAll_length]; simp)]
  simp [runAll_length, runAll, Nat.min_eq_left hk.le]

theorem table_noTable (c : Cls D T A R) (o : Obj D T) (as : List (Act D A)) (h : NoTable as) : (runAll c o as).2.table = o.table := by
  induction as generalizing o with
  | nil => rfl
  | cons a as ih =>
    have h' : NoTable as := fun b => ⟨fun hb => (h b).1 (List.mem_cons_of_mem _ hb), fun hb => (h b).2 (List.mem_cons_of_mem _ hb)⟩
    simp only [runAll, ih _ h']
    cases a with
    | cdf b => exact absurd List.mem_cons_self (h b).1
    | ppf b => exact absurd List.mem_cons_self (h b).2
    | _ => rfl

theorem table_some (c : Cls D T A R) (o : Obj D T) (as : List (Act D A)) (t : T) (h : o.table = some t) : (runAll c o as).2.table = some t := by
  induction as generalizing o with
  | nil => exact h
  | cons a as ih =>
    simp only [runAll]
    apply ih
    cases a <;> simp [act, ensure_some c o t h, h]

theorem table_silent (c : Cls D T A R) (o : Obj D T) (as : List (Act D A)) (hs : Silent as) (h : o.table = none ∨ o.table = some (c.compute o.data)) :
    (runAll c o as).2.table = none ∨ (runAll c o as).2.table = some (c.compute o.data) := by
  induction as generalizing o with
  | nil => exact h
  | cons a as ih =>
    have h' : Silent as := fun f hf => hs f (List.mem_cons_of_mem _ hf)
    simp only [runAll]
    have hd : (act c o a).2.data = o.data := by
      rw [act_data]
      cases a with
      | write f => exact absurd List.mem_cons_self (hs f)
      | _ => rfl
    rw [← hd]
    apply ih _ h'
    rw [hd]
    cases a with
    | write f => exact absurd List.mem_cons_self (hs f)
    | pdf b => exact h
    | cdf b => right; simp only [act]; rw [ensure_table]; rcases h with h | h
               · rw [ensure_none c o h]
               · rw [ensure_some c o _ h]
    | ppf b => right; simp only [act]; rw [ensure_table]; rcases h with h | h
               · rw [ensure_none c o h]
               · rw [ensure_some c o _ h]

theorem ensure_faithful (c : Cls D T A R) (o : Obj D T) (h : o.table = none ∨ o.table = some (c.compute o.data)) : (ensure c o).1 = c.compute o.data := by
  rcases h with h | h
  · exact ensure_none c o h
  · rw [ensure_some c o _ h]

/-- a program that only evaluates: every result is that of the same call on the object as it was made -/
theorem silent_result (c : Cls D T A R) (o : Obj D T) (as : List (Act D A)) (hs : Silent as) (h : o.table = none ∨ o.table = some (c.compute o.data))
    (k : ℕ) (a : Act D A) (ha : as[k]? = some a) : (runAll c o as).1[k]? = some (act c o a).1 := by
  rw [runAll_get c o as k a ha]
  have hs' : Silent (as.take k) := fun f hf => hs f (List.mem_of_mem_take hf)
  have hd : (runAll c o (as.take k)).2.data = o.data := by rw [runAll_data, written_silent _ _ hs']
  have ht := table_silent c o _ hs' h
  have h2 : (ensure c (runAll c o (as.take k)).2).1 = c.compute o.data := by rw [ensure_faithful, hd]; rw [hd]; exact ht
  have h1 := ensure_faithful c o h
  cases a <;> simp only [act, hd, h1, h2]

/-- **C128: the density follows what is written.** Whatever was done before, a density is computed from the arrays as they are then. -/
theorem C128_pdf_follows (c : Cls D T A R) (o : Obj D T) (before after : List (Act D A)) (a : A) :
    (runAll c o (before ++ .pdf a :: after)).1[before.length]? = some (some (c.pdf (written before o.data) a)) := by
  rw [runAll_get c o _ before.length (.pdf a) (by simp)]
  simp [act, runAll_data]

/-- **C128: the first CDF fixes the table.** The first evaluation of a CDF or PPF (`first`) makes the table for all PDFs from the arrays as they are then. Every CDF and
every PPF from then on is computed with that table, whatever has been written since. -/
theorem C128_table_fixed (c : Cls D T A R) (o : Obj D T) (h : o.table = none) (before between after : List (Act D A)) (hb : NoTable before) (first : Act D A)
    (hf : ∃ a, first = .cdf a ∨ first = .ppf a) (a : A) :
    (runAll c o (before ++ first :: between ++ .cdf a :: after)).1[before.length + 1 + between.length]? =
      some (some (c.cdf (written between (written before o.data)) (c.compute (written before o.data)) a)) ∧
    (runAll c o (before ++ first :: between ++ .ppf a :: after)).1[before.length + 1 + between.length]? =
      some (some (c.ppf (written between (written before o.data)) (c.compute (written before o.data)) a)) ∧
    (runAll c o (before ++ .cdf a :: after)).1[before.length]? = some (some (c.cdf (written before o.data) (c.compute (written before o.data)) a)) ∧
    (runAll c o (before ++ .ppf a :: after)).1[before.length]? = some (some (c.ppf (written before o.data) (c.compute (written before o.data)) a)) := by
  have ht := table_noTable c o before hb
  rw [h] at ht
  have hd := runAll_data c o before
  have key : (runAll c o (before ++ first :: between)).2.table = some (c.compute (written before o.data)) ∧
      (runAll c o (before ++ first :: between)).2.data = written between (written before o.data) := by
    constructor
    · rw [runAll_append]
      simp only [runAll]
      apply table_some
      obtain ⟨b, rfl | rfl⟩ := hf <;> simp only [act] <;> rw [ensure_table, ensure_none _ _ ht, hd]
    · rw [runAll_data, written_append]
      obtain ⟨b, rfl | rfl⟩ := hf <;> rfl
  have hlen : (before ++ first :: between).length = before.length + 1 + between.length := by simp; omega
  refine ⟨?_, ?_, ?_, ?_⟩
  · rw [runAll_get c o _ _ (.cdf a) (by rw [← hlen]; simp), ← hlen, List.take_left' rfl]
    simp only [act, key.2, ensure_some _ _ _ key.1]
  · rw [runAll_get c o _ _ (.ppf a) (by rw [← hlen]; simp), ← hlen, List.take_left' rfl]
    simp only [act, key.2, ensure_some _ _ _ key.1]
  · rw [runAll_get c o _ before.length (.cdf a) (by simp), List.take_left' rfl]
    simp only [act, hd, ensure_none _ _ ht]
  · rw [runAll_get c o _ before.length (.ppf a) (by simp), List.take_left' rfl]
    simp only [act, hd, ensure_none _ _ ht]

/-! ## histograms -/

variable {K : Type} [Field K] [LinearOrder K]

/-- what the constructor of a histogram leaves -/
theorem histObj_ok {bins : List K} {pdfs : List (List K)} {chk : Bool} {o : Obj (HistData K) (List (List K))} (h : histObj bins pdfs chk = .ok (some o)) :
    bins ≠ [] ∧ o.table = none ∧ o.data.bins = bins ∧ o.data.widths = binWidths bins ∧ o.data.xmin = bins.headD 0 ∧ o.data.xmax = bins.getLastD 0 ∧
      ∃ stored, histInit bins pdfs chk = .ok ⟨bins, stored⟩ ∧ stored = o.data.pdfs.map some := by
  unfold histObj at h
  cases hi : histInit bins pdfs chk with
  | error e => rw [hi] at h; simp [bind, Except.bind] at h
  | ok s =>
    rw [hi] at h
    simp only [bind, Except.bind, Except.ok.injEq, Option.map_eq_some_iff] at h
    obtain ⟨rows, hr, rfl⟩ := h
    have hb : bins ≠ [] ∧ s.bins = bins := by
      unfold histInit at hi
      split at hi
      · cases hi
      · split at hi
        · cases hi
        · cases hi; exact ⟨by assumption, rfl⟩
    refine ⟨hb.1, rfl, rfl, rfl, rfl, rfl, s.pdfs, by rw [← hb.2], ?_⟩
    clear hi hb
    revert rows
    induction s.pdfs with
    | nil => intro rows hr; simp at hr; subst hr; rfl
    | cons a l ih =>
      intro rows hr
      rw [List.mapM_cons] at hr
      cases a with
      | none => simp at hr
      | some a =>
        simp only [id, Option.pure_def, Option.bind_eq_bind, Option.bind_some, Option.bind_eq_some_iff] at hr
        obtain ⟨t, ht, hr⟩ := hr
        cases hr
        simp [ih t ht]

theorem histPpf_eq (bins row : List K) (hb : bins ≠ []) (q : K) : histPpf bins row q = interp (bins.headD 0) (bins.getLastD 0) ((histCumul bins row).zip bins) q := by
  cases bins with
  | nil => exact absurd rfl hb
  | cons a t => rw [histPpf, List.getLast_eq_getLastD]; simp [List.getLast?_cons]

/-- **C128: histograms.** In a program that evaluates densities, CDFs and PPFs of the PDFs of a histogram ensemble in any order and number, each result is the one that
the stored histogram of that PDF gives at that point: what was evaluated before has no influence.
Missing: programs that write into the arrays, for which the claim is false (`C128_hist_stale`, `C128_hist_edges`). -/
theorem C128_hist_partial [FloorRing K] (bins : List K) (pdfs : List (List K)) (chk : Bool) (o : Obj (HistData K) (List (List K))) (h : histObj bins pdfs chk = .ok (some o))
    (stored : List (Option (List K))) (hst : histInit bins pdfs chk = .ok ⟨bins, stored⟩) (acts : List (Act (HistData K) (ℕ × K))) (hs : Silent acts)
    (k i : ℕ) (x : K) (r : List K) (hr : stored[i]? = some (some r)) :
    (acts[k]? = some (.pdf (i, x)) → (runAll histEvals o acts).1[k]? = some (some ((histPdf bins r x).map some))) ∧
    (acts[k]? = some (.cdf (i, x)) → (runAll histEvals o acts).1[k]? = some (some (.ok (histCdf bins r x)))) ∧
    (acts[k]? = some (.ppf (i, x)) → (runAll histEvals o acts).1[k]? = some (some (.ok (histPpf bins r x)))) := by
  obtain ⟨hb, ht, h1, h2, h3, h4, st, hst', hse⟩ := histObj_ok h
  have : st = stored := by rw [hst'] at hst; injection hst with hst; injection hst
  subst this
  have hrow : o.data.pdfs[i]? = some r := by
    rw [hse, List.getElem?_map, Option.map_eq_some_iff] at hr
    obtain ⟨r', hr, he⟩ := hr
    cases he
    exact hr
  refine ⟨fun ha => ?_, fun ha => ?_, fun ha => ?_⟩
  · rw [silent_result _ o acts hs (Or.inl ht) k _ ha]
    simp only [act, histEvals, rowOf, hrow, h1, bind, Except.bind, Except.map]
  · rw [silent_result _ o acts hs (Or.inl ht) k _ ha]
    simp [act, ensure_none _ _ ht, histEvals, rowOf, hrow, h1, h2, bind, Except.bind, histCdf, histCumul]
  · rw [silent_result _ o acts hs (Or.inl ht) k _ ha, histPpf_eq _ _ hb]
    simp [act, ensure_none _ _ ht, histEvals, rowOf, hrow, h1, h2, h3, h4, bind, Except.bind, histCumul]

/-- writing a new table of densities into the array -/
def newPdfs (p : List (List K)) : Act (HistData K) (ℕ × K) := .write fun d => { d with pdfs := p }

/-- **C128: histograms written into.** The rows of the object data of a histogram ensemble are overwritten in place (`r` → `r'` for PDF `i`). If no CDF or PPF of any
PDF of the ensemble had been evaluated, CDFs follow the new row; if one had been (of PDF `j`, say, also another one), CDFs and PPFs of PDF `i` remain those of the old
row. Densities follow in either case. -/
theorem C128_hist_stale [FloorRing K] (bins : List K) (pdfs : List (List K)) (chk : Bool) (o : Obj (HistData K) (List (List K))) (h : histObj bins pdfs chk = .ok (some o))
    (new : List (List K)) (i j : ℕ) (x y : K) (r r' : List K) (hr : o.data.pdfs[i]? = some r) (hr' : new[i]? = some r') :
    (runAll histEvals o [newPdfs new, .cdf (i, x), .ppf (i, x), .pdf (i, x)]).1 =
      [none, some (.ok (histCdf bins r' x)), some (.ok (histPpf bins r' x)), some ((histPdf bins r' x).map some)] ∧
    (runAll histEvals o [.cdf (j, y), newPdfs new, .cdf (i, x), .ppf (i, x), .pdf (i, x)]).1.tail =
      [none, some (.ok (histCdf bins r x)), some (.ok (histPpf bins r x)), some ((histPdf bins r' x).map some)] := by
  obtain ⟨hb, ht, h1, h2, h3, h4, st, hst', hse⟩ := histObj_ok h
  constructor
  · simp only [runAll, act, newPdfs, ensure, ht, histEvals, List.getElem?_map, hr', rowOf, h1, h2, h3, h4, bind, Except.bind, Option.map_some, histPpf_eq _ _ hb, histCdf, histCumul, Except.map]
  · simp only [runAll, act, newPdfs, ensure, ht, histEvals, List.getElem?_map, hr, hr', rowOf, h1, h2, h3, h4, bind, Except.bind, Option.map_some, histPpf_eq _ _ hb, histCdf, histCumul, Except.map, List.tail_cons]

/-- writing new edges into the array -/
def newEdges (b : List K) : Act (HistData K) (ℕ × K) := .write fun d => { d with bins := b }

/-- **C128: the edges written into.** The edges of a histogram ensemble are overwritten in place before anything is evaluated. Densities follow, but the CDF does not
become the integral of the density: it takes at the new edges the cumulated contents over the bins of the *old* widths, and the PPF inverts this and clips to the old ends. -/
theorem C128_hist_edges [FloorRing K] (bins : List K) (pdfs : List (List K)) (chk : Bool) (o : Obj (HistData K) (List (List K))) (h : histObj bins pdfs chk = .ok (some o))
    (new : List K) (i : ℕ) (x : K) (r : List K) (hr : o.data.pdfs[i]? = some r) :
    (runAll histEvals o [newEdges new, .cdf (i, x), .ppf (i, x), .pdf (i, x)]).1 =
      [none, some (.ok (interp 0 1 (new.zip (0 :: cumsum (Np.mul r (binWidths bins)))) x)),
        some (.ok (interp (bins.headD 0) (bins.getLastD 0) ((0 :: cumsum (Np.mul r (binWidths bins))).zip new) x)),
        some ((histPdf new r x).map some)] := by
  obtain ⟨hb, ht, h1, h2, h3, h4, st, hst', hse⟩ := histObj_ok h
  simp only [runAll, act, newEdges, ensure, ht, histEvals, List.getElem?_map, hr, rowOf, h2, h3, h4, bind, Except.bind, Option.map_some, Except.map]

/-! ## irregular grids -/

/-- **C128: irregular grids.** As `C128_hist_partial`; `lo` and `hi` are the least and the greatest of all grid points of the ensemble.
Missing: writes. -/
theorem C128_irregular_partial (xs ys : List (List K)) (chk : Bool) (o : Obj (IrrData K) (List (List K))) (h : irrObj xs ys chk = .ok (some o)) (lo hi : K)
    (hlo : xs.flatten.min? = some lo) (hhi : xs.flatten.max? = some hi)
    (acts : List (Act (IrrData K) (ℕ × K))) (hs : Silent acts) (k i : ℕ) (t : K) (x y r : List K) (hx : xs[i]? = some x) (hy : ys[i]? = some y)
    (hr : if chk then irrNormRow x y = some r else r = y) :
    (acts[k]? = some (.pdf (i, t)) → (runAll irrEvals o acts).1[k]? = some (some (.ok (interpPdf x r t)))) ∧
    (acts[k]? = some (.cdf (i, t)) → (runAll irrEvals o acts).1[k]? = some (some (.ok (irrCdf x r t)))) ∧
    (acts[k]? = some (.ppf (i, t)) → (runAll irrEvals o acts).1[k]? = some (some (.ok (irrPpf lo hi x r t)))) := by
  have key : o.table = none ∧ o.data.xvals = xs ∧ o.data.yvals[i]? = some r ∧ o.data.xmin = lo ∧ o.data.xmax = hi := by
    unfold irrObj at h
    rw [hlo, hhi] at h
    dsimp only at h
    cases chk with
    | false =>
      simp only [Bool.false_eq_true, if_false] at h hr
      injection h with h; injection h with h; subst h
      exact ⟨rfl, rfl, by rw [hr]; exact hy, rfl, rfl⟩
    | true =>
      simp only [if_true, Except.ok.injEq, Option.map_eq_some_iff] at h hr
      obtain ⟨rows, hrows, rfl⟩ := h
      refine ⟨rfl, rfl, ?_, rfl, rfl⟩
      have hz : (List.zipWith irrNormRow xs ys)[i]? = some (some r) := by
        rw [List.getElem?_zipWith, hx, hy]; simp [hr]
      have hall : List.zipWith irrNormRow xs ys = rows.map some := by
        clear hz hlo hhi hx hy
        revert rows
        induction List.zipWith irrNormRow xs ys with
        | nil => intro rows hr; simp at hr; subst hr; rfl
        | cons a l ih =>
          intro rows hr
          rw [List.mapM_cons] at hr
          cases a with
          | none => simp at hr
          | some a =>
            simp only [id, Option.pure_def, Option.bind_eq_bind, Option.bind_some, Option.bind_eq_some_iff] at hr
            obtain ⟨t, ht, hr⟩ := hr
            cases hr
            simp [ih t ht]
      rw [hall, List.getElem?_map, Option.map_eq_some_iff] at hz
      obtain ⟨r', hz, he⟩ := hz
      cases he
      exact hz
  obtain ⟨ht, h1, h2, h3, h4⟩ := key
  have h5 : o.data.xvals[i]? = some x := by rw [h1]; exact hx
  have h6 : (List.zipWith irrCumul o.data.xvals o.data.yvals)[i]? = some (irrCumul x r) := by
    rw [List.getElem?_zipWith, h5, h2]
  refine ⟨fun ha => ?_, fun ha => ?_, fun ha => ?_⟩
  · rw [silent_result _ o acts hs (Or.inl ht) k _ ha]
    simp [act, irrEvals, rowOf, h5, h2, bind, Except.bind, interpPdf]
  · rw [silent_result _ o acts hs (Or.inl ht) k _ ha]
    simp only [act, ensure_none _ _ ht, irrEvals, rowOf, h5, h6, bind, Except.bind, irrCdf]
  · rw [silent_result _ o acts hs (Or.inl ht) k _ ha]
    simp only [act, ensure_none _ _ ht, irrEvals, rowOf, h5, h6, h3, h4, bind, Except.bind, irrPpf]

/-! ## grids in common and packed values -/

variable [IsStrictOrderedRing K]

theorem forall₂_mapM {A B : Type} (f : A → Except Err B) : ∀ (l : List A) (m : List B), l.mapM f = .ok m → List.Forall₂ (fun a b => f a = .ok b) l m
  | [], m, h => by
      simp only [List.mapM_nil, pure, Except.pure] at h
      cases h
      exact .nil
  | a :: l, m, h => by
      simp only [List.mapM_cons, bind, Except.bind, pure, Except.pure] at h
      cases ha : f a with
      | error e => rw [ha] at h; cases h
      | ok b =>
        rw [ha] at h
        dsimp only at h
        cases hl : l.mapM f with
        | error e => rw [hl] at h; cases h
        | ok m' =>
          rw [hl] at h
          cases h
          exact .cons ha (forall₂_mapM f l m' hl)

theorem mapM_id_some {A : Type} : ∀ (l : List (Option A)) (m : List A), l.mapM id = some m → l = m.map some
  | [], m, h => by simp at h; subst h; rfl
  | a :: l, m, h => by
      rw [List.mapM_cons] at h
      cases a with
      | none => simp at h
      | some a =>
        simp only [id, Option.pure_def, Option.bind_eq_bind, Option.bind_some, Option.bind_eq_some_iff] at h
        obtain ⟨t, ht, hr⟩ := h
        cases hr
        simp [mapM_id_some l t ht]

/-- the stored values of one PDF and the stored table belong together -/
theorem norm_cumul (xs ys y c : List K) (h : interpNormRow xs ys = .ok (some (y, c))) : interpCumul xs y = .ok c := by
  unfold interpNormRow at h
  cases hc : interpCumul xs ys with
  | error e => rw [hc] at h; cases h
  | ok d =>
    rw [hc] at h
    dsimp only at h
    cases hl : d.getLast? with
    | none => rw [hl] at h; cases h
    | some s =>
      rw [hl] at h
      dsimp only at h
      by_cases hs : s = 0
      · rw [if_pos hs] at h; simp at h
      · rw [if_neg hs] at h
        simp only [Except.ok.injEq, Option.some.injEq, Prod.mk.injEq] at h
        obtain ⟨rfl, rfl⟩ := h
        match xs, ys with
        | a :: b :: t, u :: v =>
          simp only [interpCumul, Except.ok.injEq] at hc
          subst hc
          have h1 := trapezoids_div (a :: b :: t) (u :: v) s
          have h2 := cumsumFrom_div 0 s (trapezoids (a :: b :: t) (u :: v))
          simp only [List.map_cons] at h1
          simp only [List.map_cons, interpCumul, h1, cumsum]
          rw [zero_div] at h2
          rw [h2, show 1 / 2 * (u / s) * (b - a) = 1 / 2 * u * (b - a) / s by ring]
        | [], _ => simp [interpCumul] at hc
        | [_], _ => simp [interpCumul] at hc
        | _ :: _ :: _, [] => simp [interpCumul] at hc

theorem interpObj_ok {xs : List K} {ys : List (List K)} {o : Obj (InterpData K) (List (List K))} (h : interpObj xs ys = .ok (some o)) :
    o.data.xvals = xs ∧ ∃ rows : List (List K × List K), o.data.yvals = rows.map Prod.fst ∧ o.table = some (rows.map Prod.snd) ∧
      List.Forall₂ (fun y p => interpNormRow xs y = .ok (some p)) ys rows := by
  unfold interpObj at h
  cases hm : ys.mapM (interpNormRow xs) with
  | error e => rw [hm] at h; simp [bind, Except.bind] at h
  | ok m =>
    rw [hm] at h
    simp only [bind, Except.bind, Except.ok.injEq, Option.map_eq_some_iff] at h
    obtain ⟨rows, hr, rfl⟩ := h
    refine ⟨rfl, rows, rfl, rfl, ?_⟩
    have h2 := forall₂_mapM _ _ _ hm
    rw [mapM_id_some _ _ hr] at h2
    exact (List.forall₂_map_right_iff (R := fun a b => interpNormRow xs a = .ok b)).1 h2

/-- **C128: PDFs on a common grid.** The values and the table that the constructor stores belong together: the table is the one that would be computed from the stored
values. Each result of a program that evaluates is the one of the stored values and table of its PDF.
Missing: writes (false, `C128_interp_stale`). -/
theorem C128_interp_partial (xs : List K) (ys : List (List K)) (o : Obj (InterpData K) (List (List K))) (h : interpObj xs ys = .ok (some o))
    (acts : List (Act (InterpData K) (ℕ × K))) (hs : Silent acts) (k i : ℕ) (t : K) (v y c : List K) (hv : ys[i]? = some v) (hr : interpNormRow xs v = .ok (some (y, c))) :
    interpCumul xs y = .ok c ∧
    (acts[k]? = some (.pdf (i, t)) → (runAll interpEvals o acts).1[k]? = some (some (.ok (interpPdf xs y t)))) ∧
    (acts[k]? = some (.cdf (i, t)) → (runAll interpEvals o acts).1[k]? = some (some (.ok (interpCdf xs c t)))) ∧
    (acts[k]? = some (.ppf (i, t)) → (runAll interpEvals o acts).1[k]? = some (some (.ok (interpPpf xs c t)))) := by
  obtain ⟨h1, rows, h2, h3, h4⟩ := interpObj_ok h
  have htab : o.table = some (interpEvals.compute o.data) := by
    rw [h3, Option.some.injEq]
    simp only [interpEvals, h1, h2, List.map_map]
    apply List.map_congr_left
    intro p hp
    obtain ⟨y', _, hy'⟩ := Verif.Lemmas.forall₂_mem_right h4 hp
    simp [norm_cumul xs y' p.1 p.2 hy', Except.toOption]
  have hrow : rows[i]? = some (y, c) := by
    obtain ⟨hi, rfl⟩ := List.getElem?_eq_some_iff.1 hv
    have hlen := h4.length_eq
    have := (List.forall₂_iff_get.1 h4).2 i hi (by omega)
    simp only [List.get_eq_getElem] at this
    rw [this] at hr
    simp only [Except.ok.injEq, Option.some.injEq] at hr
    rw [List.getElem?_eq_getElem (by omega), hr]
  refine ⟨norm_cumul xs v y c hr, fun ha => ?_, fun ha => ?_, fun ha => ?_⟩
  · rw [silent_result _ o acts hs (Or.inr htab) k _ ha]
    simp [act, interpEvals, rowOf, h1, h2, hrow, bind, Except.bind]
  · rw [silent_result _ o acts hs (Or.inr htab) k _ ha]
    simp [act, ensure_some _ _ _ h3, interpEvals, rowOf, h1, hrow, bind, Except.bind]
  · rw [silent_result _ o acts hs (Or.inr htab) k _ ha]
    simp [act, ensure_some _ _ _ h3, interpEvals, rowOf, h1, hrow, bind, Except.bind]

/-- **C128: a common grid written into.** CDFs and PPFs never follow what is written into the ordinates of PDFs on a common grid, evaluated before or not; densities do. -/
theorem C128_interp_stale (xs : List K) (ys : List (List K)) (o : Obj (InterpData K) (List (List K))) (h : interpObj xs ys = .ok (some o))
    (new : List (List K)) (i : ℕ) (t : K) (v y c y' : List K) (hv : ys[i]? = some v) (hr : interpNormRow xs v = .ok (some (y, c))) (hn : new[i]? = some y') :
    (runAll interpEvals o [.write fun d => { d with yvals := new }, .cdf (i, t), .ppf (i, t), .pdf (i, t)]).1 =
      [none, some (.ok (interpCdf xs c t)), some (.ok (interpPpf xs c t)), some (.ok (interpPdf xs y' t))] := by
  obtain ⟨h1, rows, h2, h3, h4⟩ := interpObj_ok h
  have hrow : rows[i]? = some (y, c) := by
    obtain ⟨hi, rfl⟩ := List.getElem?_eq_some_iff.1 hv
    have hlen := h4.length_eq
    have := (List.forall₂_iff_get.1 h4).2 i hi (by omega)
    simp only [List.get_eq_getElem] at this
    rw [this] at hr
    simp only [Except.ok.injEq, Option.some.injEq] at hr
    rw [List.getElem?_eq_getElem (by omega), hr]
  simp [runAll, act, ensure, h3, interpEvals, rowOf, h1, hn, hrow, bind, Except.bind]

/-- **C128: packed values written into.** Nothing follows what is written into the codes and row maxima of a packed ensemble: a program with such writes gets the results
of the PDFs as they were constructed. -/
theorem C128_packed_stale (ty : PackingType) (lf : ℝ) (xs : List ℝ) (codes : List (List ℕ)) (maxima : List ℝ) (o : Obj PackedData (List (List ℝ)))
    (h : packedObj ty lf xs codes maxima = .ok (some o)) (acts : List (Act PackedData (ℕ × ℝ)))
    (hw : ∀ f, Act.write f ∈ acts → ∀ d, (f d).inner = d.inner) (k i : ℕ) (t : ℝ) (co : List ℕ) (rm : ℝ) (st : List ℝ × List ℝ)
    (hc : codes[i]? = some co) (hm : maxima[i]? = some rm) (hst : packedState ty lf xs co rm = .ok (some st)) :
    (acts[k]? = some (.pdf (i, t)) → (runAll packedEvals o acts).1[k]? = some (some (.ok (packedPdf xs st t)))) ∧
    (acts[k]? = some (.cdf (i, t)) → (runAll packedEvals o acts).1[k]? = some (some (.ok (packedCdf xs st t)))) ∧
    (acts[k]? = some (.ppf (i, t)) → (runAll packedEvals o acts).1[k]? = some (some (.ok (packedPpf xs st t)))) := by
  unfold packedObj at h
  cases ho : interpObj xs (List.zipWith (unpackRow ty lf) codes maxima) with
  | error e => rw [ho] at h; simp [bind, Except.bind] at h
  | ok q =>
    rw [ho] at h
    simp only [bind, Except.bind, Except.ok.injEq, Option.map_eq_some_iff] at h
    obtain ⟨p, rfl, rfl⟩ := h
    obtain ⟨h1, rows, h2, h3, h4⟩ := interpObj_ok ho
    have hv : (List.zipWith (unpackRow ty lf) codes maxima)[i]? = some (unpackRow ty lf co rm) := by rw [List.getElem?_zipWith, hc, hm]
    have hrow : rows[i]? = some st := by
      obtain ⟨hi, hv'⟩ := List.getElem?_eq_some_iff.1 hv
      have hlen := h4.length_eq
      have := (List.forall₂_iff_get.1 h4).2 i hi (by omega)
      simp only [List.get_eq_getElem] at this
      unfold packedState at hst
      rw [← hv', this] at hst
      simp only [Except.ok.injEq, Option.some.injEq] at hst
      rw [List.getElem?_eq_getElem (by omega), hst]
    have hin : ∀ (as : List (Act PackedData (ℕ × ℝ))), (∀ f, Act.write f ∈ as → ∀ d, (f d).inner = d.inner) → ∀ d, (written as d).inner = d.inner := by
      intro as
      induction as with
      | nil => intro _ d; rfl
      | cons a as ih =>
        intro ha d
        have ih' := ih fun f hf => ha f (List.mem_cons_of_mem _ hf)
        cases a with
        | write f => simp only [written]; rw [ih', ha f List.mem_cons_self]
        | _ => exact ih' d
    have hdat := fun n : ℕ => hin (acts.take n) (fun f hf => hw f (List.mem_of_mem_take hf)) ⟨codes, maxima, p.data⟩
    have htab := fun n : ℕ => table_some packedEvals ⟨⟨codes, maxima, p.data⟩, p.table⟩ (acts.take n) _ h3
    have hx : p.data.xvals = xs := h1
    refine ⟨fun ha => ?_, fun ha => ?_, fun ha => ?_⟩
    · rw [runAll_get _ _ acts k _ ha]
      simp only [act, packedEvals]
      rw [runAll_data, hdat]
      simp [interpEvals, rowOf, hx, h2, hrow, bind, Except.bind, packedPdf, interpPdf]
    · rw [runAll_get _ _ acts k _ ha]
      simp only [act]
      rw [ensure_some _ _ _ (htab k), runAll_data]
      simp only [packedEvals]
      rw [hdat]
      simp [interpEvals, rowOf, hx, hrow, bind, Except.bind, packedCdf, interpCdf]
    · rw [runAll_get _ _ acts k _ ha]
      simp only [act]
      rw [ensure_some _ _ _ (htab k), runAll_data]
      simp only [packedEvals]
      rw [hdat]
      simp only [interpEvals, rowOf, hx, List.getElem?_map, hrow, bind, Except.bind, Option.map_some]
      cases xs <;> rfl

/-! ## examples -/

/-- two histograms on two bins -/
example : (histObj (K := ℚ) [0, 1, 2] [[1, 3], [2, 2]] true).toOption.join.map (fun o => o.data.pdfs) = some [[1/4, 3/4], [1/2, 1/2]] := by decide +kernel

/-- the CDF of the first, the PPF of the second, a density, the CDF again -/
example : (histObj (K := ℚ) [0, 1, 2] [[1, 3], [2, 2]] true).toOption.join.map
    (fun o => (runAll histEvals o [.cdf (0, 1), .ppf (1, 1/4), .pdf (0, 3/2), .cdf (0, 1)]).1.map fun r => r.map Except.toOption) =
    some [some (some (some (1/4))), some (some (some (1/2))), some (some (some (3/4))), some (some (some (1/4)))] := by decide +kernel

/-- the CDF of PDF 1 is evaluated, then PDF 0 is overwritten: its density at 1/2 is 1, but its CDF at 1 is still 1/4 -/
example : (histObj (K := ℚ) [0, 1, 2] [[1, 3], [2, 2]] true).toOption.join.map
    (fun o => (runAll histEvals o [.cdf (1, 1), newPdfs [[1, 0], [1/2, 1/2]], .pdf (0, 1/2), .cdf (0, 1)]).1.map fun r => r.map Except.toOption) =
    some [some (some (some (1/2))), none, some (some (some 1)), some (some (some (1/4)))] := by decide +kernel

/-- the edges 0, 1, 2 become 0, 2, 4: the density of PDF 1 is 1/2 on all of [0, 4), its CDF at 2 is still 1/2 and not 1 -/
example : (histObj (K := ℚ) [0, 1, 2] [[1, 3], [2, 2]] true).toOption.join.map
    (fun o => (runAll histEvals o [newEdges [0, 2, 4], .cdf (1, 2), .ppf (1, 1/2), .pdf (1, 3)]).1.map fun r => r.map Except.toOption) =
    some [none, some (some (some (1/2))), some (some (some 2)), some (some (some (1/2)))] := by decide +kernel

/-- two PDFs on irregular grids -/
example : (irrObj (K := ℚ) [[0, 1, 3], [1, 2, 4]] [[1, 1, 1], [2, 2, 1]] true).toOption.join.map
    (fun o => (runAll irrEvals o [.cdf (0, 1), .ppf (1, 1/2), .pdf (1, 1), .ppf (0, 0)]).1.map fun r => r.map Except.toOption) =
    some [some (some (some (1/3))), some (some (some 2)), some (some (some (1/2))), some (some (some 0))] := by decide +kernel

/-- two PDFs on a common grid, written into -/
example : (interpObj (K := ℚ) [0, 1, 2] [[0, 1, 0], [1, 1, 1]]).toOption.join.map
    (fun o => (runAll interpEvals o [.write fun d => { d with yvals := [[1, 1, 0], [1, 0, (0 : ℚ)]] }, .cdf (0, 1), .pdf (0, 1/2)]).1.map fun r => r.map Except.toOption) =
    some [none, some (some (some (1/2))), some (some (some 1))] := by decide +kernel

/-- packed values with row maximum 1: one PDF on two points -/
example : ∃ st, packedState .linear_from_rowmax 0 [0, 1] [255, 255] 1 = .ok (some st) ∧
    ∃ o, packedObj .linear_from_rowmax 0 [0, 1] [[255, 255]] [1] = .ok (some o) ∧
      ∀ f ∈ [fun d : PackedData => { d with codes := [[0, 255]] }], ∀ d, (f d).inner = d.inner := by
  have hst : packedState .linear_from_rowmax 0 [0, 1] [255, 255] 1 = .ok (some (linearUnpackRow [255, 255] 1, [1 / 2, 1])) := by
    simp only [packedState, unpackRow, linearUnpackRow, List.map_cons, List.map_nil, interpNormRow, interpCumul, trapezoids, cumsum, cumsumFrom]
    norm_num
  refine ⟨_, hst, ?_⟩
  have ho : interpObj [0, 1] (List.zipWith (unpackRow .linear_from_rowmax 0) [[255, 255]] [(1 : ℝ)]) =
      .ok (some ⟨⟨[0, 1], [linearUnpackRow [255, 255] 1]⟩, some [[1 / 2, 1]]⟩) := by
    unfold packedState at hst
    simp [interpObj, hst, bind, Except.bind, pure, Except.pure]
  refine ⟨⟨⟨[[255, 255]], [1], ⟨[0, 1], [linearUnpackRow [255, 255] 1]⟩⟩, some [[1 / 2, 1]]⟩, by simp only [packedObj, ho, bind, Except.bind, Option.map_some], ?_⟩
  simp

end Verif.Props.Lazy
