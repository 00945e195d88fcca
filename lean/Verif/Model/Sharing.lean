import Verif.Model.Dict
import Verif.Spec.Ens

/-!
# Ensembles as objects that refer to arrays in memory

Sources: `/repo/src/qp/ensemble.py` 22-74 (`__init__`, `__getitem__`), 165-284 (`update`, `update_objdata`, `metadata`, `objdata`,
`set_ancil`, `add_to_ancil`, `append`), `dict_utils.py` 111-169 (`slice_dict`, `concatenate_dicts`), `pdf_gen.py` 54-72 (`_addmetadata`,
`_addobjdata` keep what they are given), and which of its arguments a constructor keeps: `hist_pdf.py` 65-88, `interp_pdf.py` 76-95 and 274-287,
`mixmod_pdf.py` 57-68, `quant_pdf.py` 37-75 and 118-144, `packed_interp_pdf.py` 93-122, `spline_pdf.py` 148-154, `sparse_pdf.py` 35-62.

A numpy array is a list of rows of a buffer: `a[1:3]`, `np.asarray(a)`, `np.expand_dims(a, 0)`, `np.squeeze(a)` and `a.reshape(...)` of a contiguous
array are other lists of rows of the same buffer, `a[[2, 0]]`, `a[mask]`, arithmetic and `np.concatenate` make new buffers. What the rows
are (numbers of a grid, rows of a table) is left open, and so are the numbers that a constructor computes and whether it accepts its
arguments: they are parameters. Not modelled here: constructor arguments that are not arrays (`check_input` apart), analytic classes,
tables that an object computes from its arrays, rows given in more than two dimensions.
-/

set_option linter.unusedSectionVars false
set_option autoImplicit false

namespace Verif.Model.Sharing

open Verif Verif.Model Verif.Spec

/-- an array: rows of a buffer -/
structure Ref where
  buf : ℕ
  rows : List ℕ
deriving DecidableEq, Repr

/-- a buffer of rows; `oneD`: the rows are numbers, so that `a[i]` is a number and not a view -/
structure Buf (V : Type) where
  oneD : Bool
  rows : List V
deriving DecidableEq

/-- named arrays -/
abbrev Cols := List (String × Ref)

/-- an ensemble: its class, whether it was constructed with `check_input`, the arrays of its metadata and object data, and its dictionary of
ancillary data (a reference to a dictionary object) -/
structure Obj where
  kind : RowKind
  check : Bool
  cols : Cols
  ancil : Option ℕ
deriving DecidableEq

/-- everything there is: buffers, dictionary objects, ensembles, and the arrays and dictionaries the program has names for -/
structure St (V : Type) where
  bufs : List (Buf V)
  dicts : List Cols
  vars : List Ref
  dvars : List ℕ
  enss : List Obj
deriving DecidableEq

/-- contents of named arrays -/
abbrev Contents (V : Type) := List (String × List (Option V))

/-- what constructors compute: the new contents of an array, whether the arguments are accepted, whether quantiles have to be padded -/
structure Params (V : Type) where
  compute : RowKind → String → Contents V → List V
  accepts : RowKind → Bool → Contents V → Bool
  pads : Contents V → Bool

variable {V : Type}

/-- the rows an array has -/
def readRef (bufs : List (Buf V)) (r : Ref) : List (Option V) := r.rows.map fun i => bufs[r.buf]?.bind fun b => b.rows[i]?

/-- named arrays and their contents -/
def readCols (bufs : List (Buf V)) (cs : Cols) : Contents V := cs.map fun p => (p.1, readRef bufs p.2)

/-- a new array with the given rows, and the reference to it -/
def alloc (bufs : List (Buf V)) (oneD : Bool) (rows : List V) : List (Buf V) × Ref :=
  (bufs ++ [⟨oneD, rows⟩], ⟨bufs.length, List.range rows.length⟩)

/-- is the array one-dimensional? -/
def isOneD (bufs : List (Buf V)) (r : Ref) : Bool := (bufs[r.buf]?.map (·.oneD)).getD false

/-- a copy of an array -/
def copyRef (bufs : List (Buf V)) (r : Ref) : List (Buf V) × Ref :=
  alloc bufs (isOneD bufs r) ((readRef bufs r).filterMap id)

/-- the metadata of a class that are arrays: `hist_pdf.py` 87, `interp_pdf.py` 94, `packed_interp_pdf.py` 118, `quant_pdf.py` 141,
`sparse_pdf.py` 58-61 -/
def metaNames : RowKind → List String
  | .hist => ["bins"]
  | .interp => ["xvals"]
  | .packed => ["xvals"]
  | .quant => ["quants"]
  | .sparse => ["xvals", "mu", "sig", "dims"]
  | .irr | .mix | .spline => []

/-- does the constructor keep a newly computed array for this argument? (otherwise it keeps the argument itself): the normalised values
(`hist_pdf.py` 80, `interp_pdf.py` 88 and 283, `mixmod_pdf.py` 65), the padded quantiles (`quant_pdf.py` 121). Freezing builds the object a second
time from its own arrays with the default `check_input` (scipy's `rv_frozen.__init__`, see C96), so that the values are normalised, and new,
whatever `check_input` was given; only quantiles pass it on (`quant_pdf.py` 117-145). -/
def makesNew (P : Params V) (k : RowKind) (check : Bool) (c : Contents V) (name : String) : Bool :=
  match k with
  | .hist => name = "pdfs"
  | .interp => name = "yvals"
  | .irr => name = "yvals"
  | .mix => name = "weights"
  | .quant => check && P.pads c
  | .packed | .spline | .sparse => false

/-- the arrays an object keeps, given the arrays its constructor was called with -/
def keepCols (P : Params V) (k : RowKind) (check : Bool) (c : Contents V) (bufs : List (Buf V)) : Cols → List (Buf V) × Cols
  | [] => (bufs, [])
  | (name, r) :: cs =>
    let a := if makesNew P k check c name then alloc bufs (isOneD bufs r) (P.compute k name c) else (bufs, r)
    let rest := keepCols P k check c a.1 cs
    (rest.1, (name, a.2) :: rest.2)

/-- the constructor of a class: `none` if it raises -/
def construct (P : Params V) (k : RowKind) (check : Bool) (bufs : List (Buf V)) (cs : Cols) : Option (List (Buf V) × Cols) :=
  let c := readCols bufs cs
  if P.accepts k check c then some (keepCols P k check c bufs cs) else none

/-- `a[key]`: a view for slices, and for an integer if the array has more than one dimension; a copy for a list or a mask -/
def sliceRef (bufs : List (Buf V)) (key : Key) (r : Ref) : Option (List (Buf V) × Ref) :=
  match key.resolve r.rows.length with
  | .error _ => none
  | .ok (.one i) =>
    let view : Ref := ⟨r.buf, [r.rows.getD i 0]⟩
    some (if isOneD bufs r then copyRef bufs view else (bufs, view))
  | .ok (.many is) =>
    let view : Ref := ⟨r.buf, is.map fun i => r.rows.getD i 0⟩
    match key with
    | .int _ | .slice _ _ _ => some (bufs, view)
    | .mask _ | .list _ => some (copyRef bufs view)

/-- `slice_dict` of a dictionary of arrays -/
def sliceCols (key : Key) (bufs : List (Buf V)) : Cols → Option (List (Buf V) × Cols)
  | [] => some (bufs, [])
  | (name, r) :: cs =>
    match sliceRef bufs key r with
    | none => none
    | some a =>
      match sliceCols key a.1 cs with
      | none => none
      | some rest => some (rest.1, (name, a.2) :: rest.2)

/-- the array of a name -/
def col? (cs : Cols) (name : String) : Option Ref := (cs.find? fun p => p.1 = name).map (·.2)

/-- `concatenate_dicts` of two dictionaries of arrays: every array is new -/
def concatCols (bufs : List (Buf V)) : Cols → Cols → Option (List (Buf V) × Cols)
  | [], _ => some (bufs, [])
  | (name, r) :: cs, ds =>
    match col? ds name with
    | none => none
    | some r' =>
      let a := alloc bufs (isOneD bufs r) ((readRef bufs r ++ readRef bufs r').filterMap id)
      match concatCols a.1 cs ds with
      | none => none
      | some rest => some (rest.1, (name, a.2) :: rest.2)

/-- `d[k] = r` -/
def setCol : Cols → String → Ref → Cols
  | [], k, r => [(k, r)]
  | p :: cs, k, r => if p.1 = k then (k, r) :: cs else p :: setCol cs k r

/-- `d.update(d2)` -/
def updateCols (d d2 : Cols) : Cols := d2.foldl (fun acc p => setCol acc p.1 p.2) d

/-- metadata and object data of an ensemble -/
def Obj.isMeta (e : Obj) (p : String × Ref) : Bool := decide (p.1 ∈ metaNames e.kind)

/-- number of PDFs: rows of the first array of the object data -/
def Obj.npdf (e : Obj) : ℕ := ((e.cols.filter fun p => !e.isMeta p).head?.map fun p => p.2.rows.length).getD 0

/-- `check_array_shapes` of a dictionary object for `n` PDFs -/
def fits (dicts : List Cols) (n : ℕ) : Option ℕ → Bool
  | none => true
  | some d => ((dicts[d]?).getD []).all fun p => decide (p.2.rows.length = n)

/-- `check_input` when an ensemble is built again from its own data: it is part of the metadata of quantile ensembles only
(`quant_pdf.py` 143), the other classes take the default -/
def Obj.recheck (e : Obj) : Bool := match e.kind with
  | .quant => e.check
  | _ => true

/-- what a program can do. Arrays, dictionaries and ensembles are named by their numbers. -/
inductive Op (V : Type)
  /-- a new array -/
  | array (oneD : Bool) (rows : List V)
  /-- another array on rows of the same buffer: `a[i:j]`, `a.reshape(...)` -/
  | view (a : ℕ) (rows : List ℕ)
  /-- `a[i] = v` -/
  | write (a : ℕ) (i : ℕ) (v : V)
  /-- a new dictionary -/
  | dict (cols : List (String × ℕ))
  /-- `d[k] = a` -/
  | dictSet (d : ℕ) (k : String) (a : ℕ)
  /-- `d[k]` -/
  | dictGet (d : ℕ) (k : String)
  /-- `ens.ancil` (also `ens.build_tables()["ancil"]`) -/
  | ancilOf (e : ℕ)
  /-- `ens.objdata()[k]` or `ens.metadata()[k]` (also through `build_tables`) -/
  | column (e : ℕ) (k : String)
  /-- `qp.Ensemble(cls, data, ancil)` -/
  | build (k : RowKind) (check : Bool) (cols : List (String × ℕ)) (ancil : Option ℕ)
  /-- `ens[key]` -/
  | getItem (e : ℕ) (key : Key)
  /-- `ens.append(other)` -/
  | append (e other : ℕ)
  /-- `ens.update(data, ancil)` -/
  | update (e : ℕ) (check : Bool) (cols : List (String × ℕ)) (ancil : Option ℕ)
  /-- `ens.update_objdata(data, ancil)` -/
  | updateObjdata (e : ℕ) (cols : List (String × ℕ)) (ancil : Option ℕ)
  /-- `ens.set_ancil(d)` -/
  | setAncil (e : ℕ) (ancil : Option ℕ)
  /-- `ens.add_to_ancil(d)` -/
  | addToAncil (e : ℕ) (d : ℕ)

/-- the arrays behind the program's names -/
def argCols (vars : List Ref) (cols : List (String × ℕ)) : Option Cols :=
  cols.mapM fun p => (vars[p.2]?).map fun r => (p.1, r)

/-- the dictionary behind the program's name, if one is given -/
def argDict (dvars : List ℕ) : Option ℕ → Option (Option ℕ)
  | none => some none
  | some d => (dvars[d]?).map some

/-- replace ensemble `i` -/
def St.setEns (s : St V) (i : ℕ) (e : Obj) : St V := { s with enss := s.enss.set i e }

/-- `self.update(data, ancil)`, `ensemble.py` 165-177: the new object is kept although the ancillary data may then be refused -/
def updateAt (P : Params V) (s : St V) (i : ℕ) (e : Obj) (check : Bool) (cs : Cols) (ancil : Option ℕ) : Bool × St V :=
  match construct P e.kind check s.bufs cs with
  | none => (false, s)
  | some out =>
    let e' : Obj := { e with check := check, cols := out.2 }
    if fits s.dicts e'.npdf ancil then (true, { s with bufs := out.1 }.setEns i { e' with ancil := ancil })
    else (false, { s with bufs := out.1 }.setEns i e')

/-- the ancillary data of a selection: a new dictionary of slices, `ensemble.py` 70-73 -/
def sliceAncilAt (key : Key) (bufs : List (Buf V)) (dicts : List Cols) : Option ℕ → Option (List (Buf V) × Option Cols)
  | none => some (bufs, none)
  | some d => (sliceCols key bufs ((dicts[d]?).getD [])).map fun a => (a.1, some a.2)

/-- `ens[key]`, `ensemble.py` 47-74 -/
def getItemAt (P : Params V) (s : St V) (e : Obj) (key : Key) : Bool × St V :=
  match sliceCols key s.bufs (e.cols.filter fun p => !e.isMeta p) with
  | none => (false, s)
  | some data =>
    match sliceAncilAt key data.1 s.dicts e.ancil with
    | none => (false, s)
    | some sub =>
      match construct P e.kind e.recheck sub.1 (e.cols.filter e.isMeta ++ data.2) with
      | none => (false, s)
      | some out =>
        let dicts := s.dicts ++ sub.2.toList
        let ancil := sub.2.map fun _ => s.dicts.length
        let e' : Obj := ⟨e.kind, e.recheck, out.2, ancil⟩
        if fits dicts e'.npdf ancil then (true, { s with bufs := out.1, dicts := dicts, enss := s.enss ++ [e'] })
        else (false, s)

/-- `ens.append(other)`, `ensemble.py` 261-284. Simplification: metadata agree if their contents are equal. -/
def appendAt [DecidableEq V] (P : Params V) (s : St V) (i : ℕ) (e o : Obj) : Bool × St V :=
  if e.kind = o.kind ∧ readCols s.bufs (e.cols.filter e.isMeta) = readCols s.bufs (o.cols.filter o.isMeta) then
    match concatCols s.bufs (e.cols.filter fun p => !e.isMeta p) (o.cols.filter fun p => !o.isMeta p) with
    | none => (false, s)
    | some data =>
      match e.ancil, o.ancil with
      | some d, some d' =>
        match concatCols data.1 ((s.dicts[d]?).getD []) ((s.dicts[d']?).getD []) with
        | none => (false, s)
        | some a => updateAt P { s with bufs := a.1, dicts := s.dicts ++ [a.2] } i e e.recheck
            (e.cols.filter e.isMeta ++ data.2) (some s.dicts.length)
      | _, _ => updateAt P { s with bufs := data.1 } i e e.recheck (e.cols.filter e.isMeta ++ data.2) none
  else (false, s)

/-- one operation: did it succeed, and the state afterwards (also when it raised) -/
def step [DecidableEq V] (P : Params V) (s : St V) : Op V → Bool × St V
  | .array oneD rows => (true, { s with bufs := (alloc s.bufs oneD rows).1, vars := s.vars ++ [(alloc s.bufs oneD rows).2] })
  | .view a rows => match s.vars[a]? with
    | none => (false, s)
    | some r => (true, { s with vars := s.vars ++ [⟨r.buf, rows.map fun i => r.rows.getD i 0⟩] })
  | .write a i v => match s.vars[a]? with
    | none => (false, s)
    | some r => match r.rows[i]? with
      | none => (false, s)
      | some j => (true, { s with bufs := s.bufs.modify r.buf fun b => { b with rows := b.rows.set j v } })
  | .dict cols => match argCols s.vars cols with
    | none => (false, s)
    | some cs => (true, { s with dicts := s.dicts ++ [cs], dvars := s.dvars ++ [s.dicts.length] })
  | .dictSet d k a => match s.dvars[d]?, s.vars[a]? with
    | some d, some r => (true, { s with dicts := s.dicts.modify d fun cs => setCol cs k r })
    | _, _ => (false, s)
  | .dictGet d k => match (s.dvars[d]?).bind fun d => (s.dicts[d]?).bind fun cs => col? cs k with
    | none => (false, s)
    | some r => (true, { s with vars := s.vars ++ [r] })
  | .ancilOf e => match (s.enss[e]?).bind (·.ancil) with
    | none => (false, s)
    | some d => (true, { s with dvars := s.dvars ++ [d] })
  | .column e k => match (s.enss[e]?).bind fun o => col? o.cols k with
    | none => (false, s)
    | some r => (true, { s with vars := s.vars ++ [r] })
  | .build k check cols ancil => match argCols s.vars cols, argDict s.dvars ancil with
    | some cs, some ancil => match construct P k check s.bufs cs with
      | none => (false, s)
      | some out =>
        let e' : Obj := ⟨k, check, out.2, ancil⟩
        if fits s.dicts e'.npdf ancil then (true, { s with bufs := out.1, enss := s.enss ++ [e'] }) else (false, s)
    | _, _ => (false, s)
  | .getItem e key => match s.enss[e]? with
    | none => (false, s)
    | some o => getItemAt P s o key
  | .append e other => match s.enss[e]?, s.enss[other]? with
    | some o, some o' => appendAt P s e o o'
    | _, _ => (false, s)
  | .update e check cols ancil => match s.enss[e]?, argCols s.vars cols, argDict s.dvars ancil with
    | some o, some cs, some ancil => updateAt P s e o check cs ancil
    | _, _, _ => (false, s)
  | .updateObjdata e cols ancil => match s.enss[e]?, argCols s.vars cols, argDict s.dvars ancil with
    | some o, some cs, some ancil => updateAt P s e o o.recheck (updateCols o.cols cs) ancil
    | _, _, _ => (false, s)
  | .setAncil e ancil => match s.enss[e]?, argDict s.dvars ancil with
    | some o, some ancil => if fits s.dicts o.npdf ancil then (true, s.setEns e { o with ancil := ancil }) else (false, s)
    | _, _ => (false, s)
  | .addToAncil e d => match (s.enss[e]?), s.dvars[d]? with
    | some o, some d => match o.ancil with
      | none => (false, s)
      | some a => if fits s.dicts o.npdf (some d) then
          (true, { s with dicts := s.dicts.modify a fun cs => updateCols cs ((s.dicts[d]?).getD []) }) else (false, s)
    | _, _ => (false, s)

/-- a program -/
def run [DecidableEq V] (P : Params V) (s : St V) (ops : List (Op V)) : St V := ops.foldl (fun s op => (step P s op).2) s

/-- before the program starts -/
def start : St V := ⟨[], [], [], [], []⟩

end Verif.Model.Sharing
