import Verif.Model.Hist
import Verif.Model.InterpPdf
import Verif.Model.PackedPdf

/-!
# Objects that compute a table when it is first needed

Source: `/repo/src/qp/hist_pdf.py` 65-130 (`_hcdfs`), `/repo/src/qp/interp_pdf.py` 76-144 (`_ycumul` of `interp_gen`, computed by the constructor) and 274-334
(`_ycumul` of `interp_irregular_gen`), `/repo/src/qp/packed_interp_pdf.py` 93-203 (`_yvals` and `_ycumul`). The distribution object keeps its arrays (the same
array objects that `objdata()` and `metadata()` hand out, C126) and, besides, numbers computed from them: some by the constructor, some when `_cdf` or `_ppf` is
first called. Evaluations are calls for one PDF (row number) and one point. Rows are finite; a row number out of range raises `IndexError`.
-/

set_option linter.unusedSectionVars false
set_option autoImplicit false

namespace Verif.Model.Lazy

open Verif Verif.Np Verif.Model

/-- how a class evaluates: `D` what the constructor leaves in the object, `T` the table made on demand -/
structure Cls (D T A R : Type) where
  compute : D → T
  pdf : D → A → Except Err R
  cdf : D → T → A → Except Err R
  ppf : D → T → A → Except Err R

/-- an object -/
structure Obj (D T : Type) where
  data : D
  table : Option T

/-- what a program can do with an object: evaluate, or write into the arrays it shares with it -/
inductive Act (D A : Type)
  | pdf (a : A)
  | cdf (a : A)
  | ppf (a : A)
  | write (f : D → D)

variable {D T A R : Type}

/-- `if self._hcdfs is None: self._compute_cdfs()`, `hist_pdf.py` 113-114 and 121-122, `interp_pdf.py` 126-127, 134-135, 317-318, 325-326: the table and the
object with its table -/
def ensure (c : Cls D T A R) (o : Obj D T) : T × Obj D T :=
  match o.table with
  | some t => (t, o)
  | none => (c.compute o.data, { o with table := some (c.compute o.data) })

/-- one action: the value it returns, if any, and the object afterwards -/
def act (c : Cls D T A R) (o : Obj D T) : Act D A → Option (Except Err R) × Obj D T
  | .pdf a => (some (c.pdf o.data a), o)
  | .cdf a => (some (c.cdf o.data (ensure c o).1 a), (ensure c o).2)
  | .ppf a => (some (c.ppf o.data (ensure c o).1 a), (ensure c o).2)
  | .write f => (none, { o with data := f o.data })

/-- a program: the values returned, in turn, and the object at the end -/
def runAll (c : Cls D T A R) : Obj D T → List (Act D A) → List (Option (Except Err R)) × Obj D T
  | o, [] => ([], o)
  | o, a :: as => ((act c o a).1 :: (runAll c (act c o a).2 as).1, (runAll c (act c o a).2 as).2)

/-! ### the classes -/

variable {K : Type} [Field K] [LinearOrder K]

/-- a row of a table -/
def rowOf {B : Type} (t : List B) (i : ℕ) : Except Err B :=
  match t[i]? with
  | some r => .ok r
  | none => .error .IndexError

/-- what the constructor of `hist_gen` leaves in the object, `hist_pdf.py` 65-83 -/
structure HistData (K : Type) where
  bins : List K
  widths : List K
  xmin : K
  xmax : K
  pdfs : List (List K)

/-- the object after the constructor: `_hcdfs` is `None`. `none`: a row of `nan`. -/
def histObj (bins : List K) (pdfs : List (List K)) (checkInput : Bool) : Except Err (Option (Obj (HistData K) (List (List K)))) := do
  let h ← histInit bins pdfs checkInput
  .ok ((h.pdfs.mapM id).map fun rows => ⟨⟨bins, binWidths bins, bins.headD 0, bins.getLastD 0, rows⟩, none⟩)

/-- `hist_gen`, `hist_pdf.py` 90-130 -/
def histEvals [FloorRing K] : Cls (HistData K) (List (List K)) (ℕ × K) (Option K) where
  compute d := d.pdfs.map fun r => 0 :: cumsum (Np.mul r d.widths)
  pdf d a := do
    let r ← rowOf d.pdfs a.1
    let y ← histPdf d.bins r a.2
    .ok (some y)
  cdf d t a := do
    let r ← rowOf t a.1
    .ok (interp 0 1 (d.bins.zip r) a.2)
  ppf d t a := do
    let r ← rowOf t a.1
    .ok (interp d.xmin d.xmax (r.zip d.bins) a.2)

/-- what the constructor of `interp_irregular_gen` leaves in the object, `interp_pdf.py` 274-284 -/
structure IrrData (K : Type) where
  xvals : List (List K)
  yvals : List (List K)
  xmin : K
  xmax : K

/-- `interp_irregular_gen`, `interp_pdf.py` 289-334 -/
def irrEvals : Cls (IrrData K) (List (List K)) (ℕ × K) (Option K) where
  compute d := List.zipWith irrCumul d.xvals d.yvals
  pdf d a := do
    let x ← rowOf d.xvals a.1
    let y ← rowOf d.yvals a.1
    .ok (interp 0 0 (x.zip y) a.2)
  cdf d t a := do
    let x ← rowOf d.xvals a.1
    let r ← rowOf t a.1
    .ok (interp 0 1 (x.zip r) a.2)
  ppf d t a := do
    let x ← rowOf d.xvals a.1
    let r ← rowOf t a.1
    .ok (interp d.xmin d.xmax (r.zip x) a.2)

/-- the object after the constructor, `interp_pdf.py` 274-284; rows of the same number in `xs` and `ys`. `none`: a row of `nan`. -/
def irrObj (xs ys : List (List K)) (checkInput : Bool) : Except Err (Option (Obj (IrrData K) (List (List K)))) :=
  match xs.flatten.min?, xs.flatten.max? with
  | some lo, some hi =>
    if checkInput then .ok (((List.zipWith irrNormRow xs ys).mapM id).map fun rows => ⟨⟨xs, rows, lo, hi⟩, none⟩)
    else .ok (some ⟨⟨xs, ys, lo, hi⟩, none⟩)
  | _, _ => .error .ValueError

/-- what the constructor of `interp_gen` leaves in the object besides its table, `interp_pdf.py` 76-91 -/
structure InterpData (K : Type) where
  xvals : List K
  yvals : List (List K)

/-- `interp_gen`, `interp_pdf.py` 118-144. `_compute_ycumul` (97-106) is called by the constructor. -/
def interpEvals : Cls (InterpData K) (List (List K)) (ℕ × K) (Option K) where
  compute d := d.yvals.map fun y => (interpCumul d.xvals y).toOption.getD []
  pdf d a := do
    let y ← rowOf d.yvals a.1
    .ok (interpPdf d.xvals y a.2)
  cdf d t a := do
    let r ← rowOf t a.1
    .ok (interpCdf d.xvals r a.2)
  ppf d t a := do
    let r ← rowOf t a.1
    .ok (interpPpf d.xvals r a.2)

/-- the object after the constructor with `check_input`, `interp_pdf.py` 84-89: the table is there. `none`: a row of `nan`. -/
def interpObj (xs : List K) (ys : List (List K)) : Except Err (Option (Obj (InterpData K) (List (List K)))) := do
  let rows ← ys.mapM (interpNormRow xs)
  .ok ((rows.mapM id).map fun r => ⟨⟨xs, r.map Prod.fst⟩, some (r.map Prod.snd)⟩)

/-- what the constructor of `packed_interp_gen` leaves in the object besides its table, `packed_interp_pdf.py` 93-122: the codes and row maxima that `objdata()`
hands out, and the unpacked and normalised values -/
structure PackedData where
  codes : List (List ℕ)
  maxima : List ℝ
  inner : InterpData ℝ

/-- `packed_interp_gen`, `packed_interp_pdf.py` 175-203: the evaluations of `interp_gen` on the values unpacked by the constructor -/
noncomputable def packedEvals : Cls PackedData (List (List ℝ)) (ℕ × ℝ) (Option ℝ) where
  compute d := interpEvals.compute d.inner
  pdf d a := interpEvals.pdf d.inner a
  cdf d t a := interpEvals.cdf d.inner t a
  ppf d t a := interpEvals.ppf d.inner t a

/-- the object after the constructor with `check_input`, `packed_interp_pdf.py` 105-113 -/
noncomputable def packedObj (t : PackingType) (lf : ℝ) (xs : List ℝ) (codes : List (List ℕ)) (maxima : List ℝ) :
    Except Err (Option (Obj PackedData (List (List ℝ)))) := do
  let o ← interpObj xs (List.zipWith (unpackRow t lf) codes maxima)
  .ok (o.map fun o => ⟨⟨codes, maxima, o.data⟩, o.table⟩)

end Verif.Model.Lazy
