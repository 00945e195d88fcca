import Verif.Model.Dict
import Verif.Model.Shapes

/-!
# Frozen distributions, ensembles, and the operations of `Ensemble` on data and ancillary data

Sources: `/repo/src/qp/ensemble.py` 23-75 and 165-300, `/repo/src/qp/factory.py` 316-358, `/repo/src/qp/pdf_gen.py` 48-72,
123-136, 164-183, 227-236, 281-285 and 349-353.
-/

set_option linter.unusedSectionVars false
set_option autoImplicit false

namespace Verif.Model

open Verif Verif.Np

section
variable {K : Type}

/-- what an ensemble reads off its frozen distribution and the generator object behind it -/
structure Frozen (K : Type) where
  /-- `gen_obj.metadata` -/
  metadata : Dict K
  /-- `frozen.kwds` without `row`, updated with `gen_obj.objdata` -/
  objdata : Dict K
  /-- `frozen.npdf` -/
  npdf : ℕ
  /-- `frozen.shape` -/
  shape : List ℕ
deriving DecidableEq, Repr

/-- a function that makes a frozen distribution from keyword arguments, `gen_func(**data)` -/
abbrev GenFunc (K : Type) := Dict K → Except Err (Frozen K)

/-- `_addclassmetadata`, `pdf_gen.py` 55-57 -/
def classMeta [IntCast K] (name : String) (version : ℤ) : Dict K :=
  [("pdf_name", .arr ⟨[1], [.bytes name]⟩), ("pdf_version", .arr ⟨[1], [.num (some (version : K))]⟩)]

/-! ### classes whose PDFs are rows of tables (`Pdf_rows_gen`) -/

/-- Description of a row class: its constructor arguments and what the constructor does with them. -/
structure RowCls (K : Type) where
  name : String
  version : ℤ
  /-- arguments common to all PDFs, with their default (`none`: required) -/
  metaArgs : List (String × Option (Val K))
  /-- arguments with one row per PDF -/
  rowArgs : List String
  /-- the metadata recorded by `_addmetadata` -/
  metaOut : Dict K → Except Err (List (String × Arr (Elem K)))
  /-- the constructor takes `np.min` of the first row argument, which raises `ValueError` when it is empty -/
  needsRows : Bool
  /-- the constructor stores its row argument as given: arrays with another rank than two are not followed -/
  rank2 : Bool := false
  /-- error when the leading shapes of the row arguments differ -/
  leadErr : Err
  /-- checks on the length of the last axis of each row argument; the lengths stored -/
  widths : Dict K → List ℕ → Except Err (List ℕ)
  /-- what is stored for one PDF (one list for each row argument) -/
  norm : Dict K → List (List (Elem K)) → Except Err (List (List (Elem K)))

/-- a keyword argument or its default; a missing required argument is a `TypeError` -/
def argVal (data : Dict K) (p : String × Option (Val K)) : Except Err (String × Val K) :=
  match data.get? p.1, p.2 with
  | some v, _ => .ok (p.1, v)
  | none, some v => .ok (p.1, v)
  | none, none => .error .TypeError

/-- a row argument: an array of rank at least one (`np.shape(a)[-1]` of a scalar: `IndexError`; a list has no `reshape`) -/
def rowArr (data : Dict K) (k : String) : Except Err (Arr (Elem K)) :=
  match data.get? k with
  | none => .error .TypeError
  | some (.arr a) => if a.shape = [] then .error .IndexError else .ok a
  | some (.py _) => .error .IndexError
  | some (.lst _) => .error .AttributeError

/-- the array reshaped to one row per PDF, `utils.py` 875-894 (rank at least one, see `reshapeToPdfSize`) -/
def flat2 (a : Arr (Elem K)) : Arr (Elem K) := ⟨[a.shape.dropLast.prod, a.shape.getLastD 0], a.data⟩

/-- the rows of every row argument that belong to PDF `i` -/
def pdfRows (rs : List (Arr (Elem K))) (i : ℕ) : List (List (Elem K)) := rs.map fun a => (flat2 a).row i

/-- the per-PDF tables that are stored: argument name, width, rows -/
def storeRows (names : List String) (ws : List ℕ) (out : List (List (List (Elem K)))) : Dict K :=
  (names.zip ws).zipIdx.map fun p => (p.1.1, .arr (.ofRows [p.1.2] (out.map fun r => r.getD p.2 [])))

/-- `cls.create(**data)` of a row class: constructor (`Pdf_rows_gen.create_gen`, `pdf_gen.py` 349-353) and freezing. Keywords that the
constructor does not know are passed on to `rv_continuous.__init__`, which raises `TypeError` (its own few keywords `name`,
`longname`, `seed`, ... are not modelled). -/
def rowCreate [IntCast K] (c : RowCls K) : GenFunc K := fun data => do
  if data.keys.any (fun k => k ∉ c.metaArgs.map (·.1) ++ c.rowArgs) then .error .TypeError
  else
    let m ← c.metaArgs.mapM (argVal data)
    let rs ← c.rowArgs.mapM (rowArr data)
    let lead := (rs.headD ⟨[], []⟩).shape.dropLast
    if rs.any (fun a => a.shape.dropLast ≠ lead) then .error c.leadErr
    else if c.rank2 ∧ lead.length ≠ 1 then .error .Unmodelled
    else if c.needsRows ∧ (rs.headD ⟨[], []⟩).size = 0 then .error .ValueError
    else
      let mo ← c.metaOut m
      let ws ← c.widths m (rs.map fun a => a.shape.getLastD 0)
      let out ← (List.range lead.prod).mapM fun i => c.norm m (pdfRows rs i)
      .ok { metadata := classMeta c.name c.version ++ mo.map fun p => (p.1, .arr p.2.expand0)
            objdata := storeRows c.rowArgs ws out
            npdf := lead.prod
            shape := lead }

/-! ### analytic classes (`Pdf_gen_wrap` around `scipy.stats`) -/

/-- `cls.create(**data)` of a wrapped scipy distribution: the keywords are kept in `frozen.kwds` as given; the shape is that of
`np.broadcast([np.array(v) for v in kwds.values()])` without its first and last axis (`pdf_gen.py` 175-183), which requires equal
shapes (`ValueError` otherwise). The check of the keyword names by scipy is not modelled. -/
def analyticCreate [IntCast K] (name : String) (version : ℤ) : GenFunc K := fun data =>
  let shapes := data.map fun p => p.2.shape
  let ss : List ℕ := data.length :: shapes.headD []
  if shapes.any (fun s => s ≠ shapes.headD []) then .error .ValueError
  else
    let shape := if ss.length < 2 then [1] else ss.tail.dropLast
    .ok { metadata := classMeta name version, objdata := data, npdf := shape.prod, shape := shape }

/-! ### ensembles -/

/-- the state of an `Ensemble`, without the evaluation cache (see `Cache`) -/
structure Ens (K : Type) where
  /-- `_gen_obj.create` -/
  create : GenFunc K
  /-- `_gen_func` -/
  genFunc : GenFunc K
  frozen : Frozen K
  ancil : Option (Dict K)

/-- `Ensemble(gen_func, data, ancil)`, `ensemble.py` 23-44; `create` is the `create` method of the class made by `gen_func` -/
def mkEns (create genFunc : GenFunc K) (data : Dict K) (ancil : Option (Dict K)) : Except Err (Ens K) := do
  let fr ← genFunc data
  checkArrayShapes ancil fr.npdf
  .ok ⟨create, genFunc, fr, ancil⟩

/-- metadata without the class name and version, squeezed: `ensemble.py` 60-64 -/
def squeezedMeta (md : Dict K) : Except Err (Dict K) := do
  let md ← md.pop "pdf_name"
  let md ← md.pop "pdf_version"
  .ok (md.map fun p => (p.1, p.2.squeeze))

/-- `if len(np.shape(v)) < 2: np.expand_dims(v, 0)`, `ensemble.py` 67-70 -/
def expandRow (v : Val K) : Val K := if v.shape.length < 2 then v.expand0 else v

/-- the ancillary data of `ens[key]`, `ensemble.py` 71-74 -/
def sliceAncil (ancil : Option (Dict K)) (key : Key) : Except Err (Option (Dict K)) :=
  match ancil with
  | none => .ok none
  | some a => (sliceDict a key).map some

/-- `ens[key]`, `ensemble.py` 46-75 -/
def getItem (e : Ens K) (key : Key) : Except Err (Ens K) := do
  let md ← squeezedMeta e.frozen.metadata
  let dd ← sliceDict e.frozen.objdata key
  let red := Dict.update md (dd.map fun p => (p.1, expandRow p.2))
  let ancil ← sliceAncil e.ancil key
  mkEns e.create e.create red ancil

/-- `for pdf in ens`: Python calls `ens[0]`, `ens[1]`, ... until `IndexError`; at most `fuel` calls, `none` when the loop has not
ended by then -/
def iterFrom (e : Ens K) : ℕ → ℕ → Option (Except Err (List (Ens K)))
  | 0, _ => none
  | fuel + 1, i =>
    match getItem e (.int i) with
    | .error .IndexError => some (.ok [])
    | .error err => some (.error err)
    | .ok x => match iterFrom e fuel (i + 1) with
      | none => none
      | some (.error err) => some (.error err)
      | some (.ok xs) => some (.ok (x :: xs))

/-- the result of an operation that changes an ensemble: the outcome, and the ensemble afterwards (also when it raised) -/
abbrev Outcome (K : Type) := Except Err Unit × Ens K

/-- `set_ancil(ancil)`, `ensemble.py` 233-247 -/
def setAncil (e : Ens K) (ancil : Option (Dict K)) : Outcome K :=
  match checkArrayShapes ancil e.frozen.npdf with
  | .error err => (.error err, e)
  | .ok () => (.ok (), { e with ancil := ancil })

/-- `add_to_ancil(to_add)`, `ensemble.py` 249-265. Without ancillary data `None.update` raises `AttributeError`. -/
def addToAncil (e : Ens K) (toAdd : Dict K) : Outcome K :=
  match checkArrayShapes (some toAdd) e.frozen.npdf with
  | .error err => (.error err, e)
  | .ok () => match e.ancil with
    | none => (.error .AttributeError, e)
    | some a => (.ok (), { e with ancil := some (Dict.update a toAdd) })

/-- `update(data, ancil)`, `ensemble.py` 165-177: the frozen object is replaced before the ancillary data are checked -/
def update (e : Ens K) (data : Dict K) (ancil : Option (Dict K)) : Outcome K :=
  match e.genFunc data with
  | .error err => (.error err, e)
  | .ok fr => setAncil { e with frozen := fr } ancil

/-- `update_objdata(data, ancil)`, `ensemble.py` 179-194. (Missing `pdf_name` / `pdf_version` entries are skipped here, not an
error.) -/
def updateObjdata (e : Ens K) (data : Dict K) (ancil : Option (Dict K)) : Outcome K :=
  let md := (e.frozen.metadata.filter fun p => p.1 ≠ "pdf_name" ∧ p.1 ≠ "pdf_version").map fun p => (p.1, p.2.squeeze)
  update e (Dict.update (Dict.update md e.frozen.objdata) data) ancil

/-- both present -/
def concatAncil (a b : Option (Dict K)) : Except Err (Option (Dict K)) :=
  match a, b with
  | some a, some b => (concatenateDicts [a, b]).map some
  | _, _ => .ok none

end

section
variable {K : Type} [Field K] [LinearOrder K]

/-- the part of `append(other)` before the update, `ensemble.py` 275-283 -/
def appendData (e other : Ens K) : Except Err (Dict K × Option (Dict K)) := do
  let same ← compareDicts [e.frozen.metadata, other.frozen.metadata]
  if same then
    let data ← concatenateDicts [e.frozen.objdata, other.frozen.objdata]
    let ancil ← concatAncil e.ancil other.ancil
    .ok (data, ancil)
  else .error .KeyError

/-- `append(other)`, `ensemble.py` 267-284 -/
def append (e other : Ens K) : Outcome K :=
  match appendData e other with
  | .error err => (.error err, e)
  | .ok (data, ancil) => updateObjdata e data ancil

/-- the list of ancillary tables, `None` as soon as one is missing, `factory.py` 341-345 -/
def allAncil : List (Ens K) → Option (List (Dict K))
  | [] => some []
  | e :: t => match e.ancil, allAncil t with
    | some a, some l => some (a :: l)
    | _, _ => none

/-- the ancillary data of the result, `factory.py` 346-349 -/
def concatAncils (l : Option (List (Dict K))) : Except Err (Option (Dict K)) :=
  match l with
  | none => .ok none
  | some l => (concatenateDicts l).map some

/-- `factory.concatenate(ensembles)` for a non-empty list, `factory.py` 316-358 (an empty list returns `None`, here `Unmodelled`) -/
def concatenateEns (es : List (Ens K)) : Except Err (Ens K) :=
  match es with
  | [] => .error .Unmodelled
  | e0 :: _ => do
    let same ← compareDicts (es.map fun e => e.frozen.metadata)
    if same then
      let data ← concatenateDicts (es.map fun e => e.frozen.objdata)
      let ancil ← concatAncils (allAncil es)
      let md := (e0.frozen.metadata.filter fun p => p.1 ≠ "pdf_name" ∧ p.1 ≠ "pdf_version").map fun p => (p.1, p.2.squeeze)
      mkEns e0.create e0.genFunc (Dict.update data md) ancil
    else .error .ValueError

end

end Verif.Model
