import Verif.Model.Classes

/-!
# Vocabulary for statements about ensembles

Which ensembles the theorems are about, and what it means that one frozen distribution holds selected PDFs of another. These
definitions do not use the slicing, appending or table code.
-/

set_option linter.unusedSectionVars false
set_option autoImplicit false

namespace Verif.Spec

open Verif Verif.Np Verif.Model

/-- the classes of qp that keep one row of numbers per PDF -/
inductive RowKind
  | hist | interp | irr | mix | quant | packed | spline | sparse
deriving DecidableEq, Repr

section
variable {K : Type} [Field K] [LinearOrder K]

/-- the class -/
def RowKind.cls : RowKind → RowCls K
  | .hist => histCls
  | .interp => interpCls
  | .irr => irrCls
  | .mix => mixCls
  | .quant => quantCls
  | .packed => packedCls
  | .spline => splineCls
  | .sparse => sparseCls

/-- Constructor arguments for which the theorems hold: a histogram or quantile grid has at least two entries. -/
def RowKind.Plain : RowKind → Dict K → Prop
  | .hist, d => ∀ v, Dict.get? d "bins" = some v → 2 ≤ v.toArr.data.length
  | .quant, d => ∀ v, Dict.get? d "quants" = some v → 2 ≤ v.toArr.data.length
  | .interp, _ | .irr, _ | .mix, _ | .packed, _ | .spline, _ | .sparse, _ => True

/-- every array among the arguments has as many elements as its shape says (which numpy guarantees) -/
def ArraysWf (d : Dict K) : Prop := ∀ p ∈ d, p.2.toArr.Wf

/-- `e` is what `Ensemble(cls.create, data, ancil)` returns, for one of the row classes and plain arguments -/
structure Made (k : RowKind) (data : Dict K) (ancil : Option (Dict K)) (e : Ens K) : Prop where
  ok : mkEns (rowCreate k.cls) (rowCreate k.cls) data ancil = .ok e
  plain : k.Plain data
  wf : ArraysWf data

/-- Ensembles of class `k` that a program can get hold of: construction from plain arguments followed by any history of operations,
which may have raised. -/
inductive Reach (k : RowKind) : Ens K → Prop
  | made {data ancil e} : Made k data ancil e → Reach k e
  | select {e e' key} : Reach k e → getItem e key = .ok e' → Reach k e'
  | setAncil {e} (a) : Reach k e → Reach k (setAncil e a).2
  | addToAncil {e} (a) : Reach k e → Reach k (addToAncil e a).2
  | update {e data} (a) : Reach k e → k.Plain data → ArraysWf data → Reach k (update e data a).2
  | updateObjdata {e data} (a) : Reach k e → (∀ x ∈ Dict.keys data, x ∈ (k.cls (K := K)).rowArgs) → ArraysWf data →
      Reach k (updateObjdata e data a).2
  | append {e e'} : Reach k e → Reach k e' → Reach k (append e e').2
  | concatenate {es e} : (∀ x ∈ es, Reach k x) → concatenateEns es = .ok e → Reach k e

end

/-- the rows selected by a resolved key -/
def selRows : Sel → List ℕ
  | .one i => [i]
  | .many is => is

section
variable {K : Type}

/-- the ancillary table has one entry per PDF in every column: arrays of rank at least one with `n` rows -/
def AncilCols (a : Dict K) (n : ℕ) : Prop := ∀ p ∈ a, ∃ c : Arr (Elem K), p.2 = .arr c ∧ c.Wf ∧ c.shape.head? = some n

/-- `fr'` holds the PDFs of `fr` with numbers `is`, in this order: same metadata, the same tables, row `j` of each table being row
`is[j]` of the original one -/
structure Selects (fr fr' : Frozen K) (is : List ℕ) : Prop where
  metadata : fr'.metadata = fr.metadata
  npdf : fr'.npdf = is.length
  shape : fr'.shape = [is.length]
  keys : Dict.keys fr'.objdata = Dict.keys fr.objdata
  rows : ∀ k a, Dict.get? fr.objdata k = some (.arr a) → ∃ b, Dict.get? fr'.objdata k = some (.arr b) ∧
    b.shape = is.length :: a.shape.tail ∧ ∀ j (hj : j < is.length), b.row j = a.row is[j]

/-- the columns of a table and the shape of one entry of each -/
def layout (d : Dict K) : List (String × List ℕ) := d.map fun p => (p.1, p.2.shape.tail)

/-- the same metadata, and tables with the same columns and the same shape of a row -/
def Compatible (fr fr' : Frozen K) : Prop := fr'.metadata = fr.metadata ∧ layout fr'.objdata = layout fr.objdata

/-- table `d` is the tables `ds` on top of each other: the same columns, and the rows of each column are the rows of the parts in
order -/
structure StacksTab (ds : List (Dict K)) (d : Dict K) : Prop where
  keys : ∀ x ∈ ds, ∀ k, k ∈ Dict.keys x ↔ k ∈ Dict.keys d
  rows : ∀ k v, Dict.get? d k = some v → ∃ vs, List.Forall₂ (fun x w => Dict.get? x k = some w) ds vs ∧
    v.toArr.rows = (vs.map fun w => w.toArr.rows).flatten ∧ ∀ w ∈ vs, w.toArr.shape.tail = v.toArr.shape.tail

/-- `fr` holds the PDFs of `frs` in order, with the common metadata -/
structure Stacks (frs : List (Frozen K)) (fr : Frozen K) : Prop where
  metadata : ∀ f ∈ frs, fr.metadata = f.metadata
  npdf : fr.npdf = (frs.map Frozen.npdf).sum
  shape : fr.shape = [fr.npdf]
  tables : StacksTab (frs.map Frozen.objdata) fr.objdata

end

end Verif.Spec
