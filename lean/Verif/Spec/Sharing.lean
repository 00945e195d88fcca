import Verif.Model.Sharing

/-!
# What is observed of ensembles and arrays, and which operations are meant to change something
-/

set_option linter.unusedSectionVars false
set_option autoImplicit false

namespace Verif.Spec.Sharing

open Verif Verif.Model Verif.Spec Verif.Model.Sharing

variable {V : Type}

/-- the contents of a dictionary object -/
def dictHolds (s : St V) (d : ℕ) : Contents V := readCols s.bufs ((s.dicts[d]?).getD [])

/-- what ensemble `e` holds: the contents of its metadata and object data, and of its ancillary data -/
def holds (s : St V) (e : ℕ) : Option (Contents V × Option (Contents V)) :=
  (s.enss[e]?).map fun o => (readCols s.bufs o.cols, o.ancil.map (dictHolds s))

/-- what the program's array `a` holds -/
def arrayHolds (s : St V) (a : ℕ) : Option (List (Option V)) := (s.vars[a]?).map (readRef s.bufs)

/-- the ensemble an operation is called on in order to change it: `append`, `update`, `update_objdata`, `set_ancil` -/
def changes : Op V → Option ℕ
  | .append e _ => some e
  | .update e _ _ _ => some e
  | .updateObjdata e _ _ => some e
  | .setAncil e _ => some e
  | _ => none

/-- the operations that give an ensemble other PDFs -/
def rebuilds : Op V → Option ℕ
  | .append e _ => some e
  | .update e _ _ _ => some e
  | .updateObjdata e _ _ => some e
  | _ => none

/-- the operations that write into an array or into a dictionary that exists already -/
def writesInPlace : Op V → Prop
  | .write _ _ _ => True
  | .dictSet _ _ _ => True
  | .addToAncil _ _ => True
  | _ => False

/-- the program gets hold of the array in which ensemble `e` keeps column `c` -/
def takes (op : Op V) (e : ℕ) (c : String) : Prop := op = .column e c

/-- columns that are normalised by the constructor: the contents of histograms, the values of interpolated PDFs, the weights of mixtures -/
def Normalised (k : RowKind) (c : String) : Prop :=
  (k = .hist ∧ c = "pdfs") ∨ (k = .interp ∧ c = "yvals") ∨ (k = .irr ∧ c = "yvals") ∨ (k = .mix ∧ c = "weights")

/-- columns that all PDFs of an ensemble share: the edges of histograms, the grid points of interpolated and packed PDFs, the quantiles, the parameters of the dictionary of
sparse PDFs -/
def CommonGrid (k : RowKind) (c : String) : Prop :=
  (k = .hist ∧ c = "bins") ∨ (k = .interp ∧ c = "xvals") ∨ (k = .packed ∧ c = "xvals") ∨ (k = .quant ∧ c = "quants") ∨
    (k = .sparse ∧ (c = "xvals" ∨ c = "mu" ∨ c = "sig" ∨ c = "dims"))

/-- buffer `b` is used by an array of the program, by a dictionary, or by a column of an ensemble, column `skip` left out -/
def Used (s : St V) (skip : Option (ℕ × String)) (b : ℕ) : Prop :=
  (∃ r ∈ s.vars, r.buf = b) ∨ (∃ cs ∈ s.dicts, ∃ p ∈ cs, p.2.buf = b) ∨
    ∃ (i : ℕ) (o : Obj), s.enss[i]? = some o ∧ ∃ p ∈ o.cols, skip ≠ some (i, p.1) ∧ p.2.buf = b

/-- nothing else lives in the buffer of column `c` of ensemble `e` -/
def Private (s : St V) (e : ℕ) (c : String) : Prop :=
  ∀ o, s.enss[e]? = some o → ∀ r, (c, r) ∈ o.cols → ¬ Used s (some (e, c)) r.buf

/-- a state a program can be in -/
def Reachable [DecidableEq V] (P : Params V) (s : St V) : Prop := ∃ ops, s = run P start ops

end Verif.Spec.Sharing
