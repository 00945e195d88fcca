import Verif.Model.Ensemble

/-!
# Tables, files and chunks

Sources: `/repo/src/qp/factory.py` 30-55, 126-154, 166-187, 189-213, 230-270, 360-395 and `/repo/src/qp/ensemble.py` 286-300,
632-687. The reading and writing itself is done by the library `tables_io` (not in /repo): it is modelled as storing and returning
the tables it is given (in any order of the columns); its number formats and compression are not modelled.
-/

set_option linter.unusedSectionVars false
set_option autoImplicit false

namespace Verif.Model

open Verif Verif.Np

/-- the tables of a file: name of the table, columns -/
abbrev Tabs (K : Type) := List (String × Dict K)

section
variable {K : Type}

/-- `tables[name]` -/
def Tabs.get (t : Tabs K) (name : String) : Except Err (Dict K) :=
  match t.lookup name with
  | some d => .ok d
  | none => .error .KeyError

/-- `build_tables()`, `ensemble.py` 286-300 -/
def buildTables (e : Ens K) : Tabs K :=
  [("meta", e.frozen.metadata), ("data", e.frozen.objdata)] ++ match e.ancil with
    | none => []
    | some a => [("ancil", a)]

/-- `if isinstance(col_data, bytes): col_data = col_data.decode()`, `factory.py` 45-46. numpy scalars are arrays of rank 0 here; a
numpy byte string is a `bytes`. -/
def decodeVal : Val K → Val K
  | .py (.bytes s) => .py (.str s)
  | .arr ⟨[], [.bytes s]⟩ => .py (.str s)
  | v => v

/-- one entry of the metadata table turned into a constructor argument, `factory.py` 35-48 -/
def metaCol : Val K → Except Err (Val K)
  | .py e => .ok (decodeVal (.py e))
  | .lst [] => .error .IndexError
  | .lst (e :: _) => .ok (decodeVal (.py e))
  | .arr a =>
    if 1 < a.shape.length then
      if a.squeeze.shape = [] then match a.data with
        | [] => .error .Unmodelled
        | e :: _ => .ok (decodeVal (.py e))
      else .ok (.arr a.squeeze)
    else if a.shape.length = 1 then match a.data with
      | [] => .error .IndexError
      | e :: _ => .ok (decodeVal (.arr ⟨[], [e]⟩))
    else .ok (decodeVal (.arr a))

/-- one column of the data table, `factory.py` 50-54; only arrays have a `shape` -/
def dataCol : Val K → Except Err (Val K)
  | .arr a => if a.shape.length < 2 then .ok (.arr a.expandLast) else .ok (.arr a)
  | _ => .error .AttributeError

/-- `_build_data_dict(md_table, data_table)`, `factory.py` 30-55 -/
def buildDataDict (md dt : Dict K) : Except Err (Dict K) := do
  let m ← md.mapM fun p => (metaCol p.2).map fun v => (p.1, v)
  let d ← dt.mapM fun p => (dataCol p.2).map fun v => (p.1, v)
  .ok (Dict.update m d)

/-- the classes known to the factory: name, default creation method (`creation_method(None)`). No class of qp registers a reader
(`_add_reader_method` is never called), so `reader_method` gives `None`. -/
abbrev Reg (K : Type) := List (String × GenFunc K)

/-- `self[pdf_name]` after `if pdf_name not in self`: a value that is not a string is not the name of a class (arrays are not
hashable: `TypeError`) -/
def Reg.find (r : Reg K) (v : Val K) : Except Err (GenFunc K) :=
  match v with
  | .py (.str s) | .arr ⟨[], [.str s]⟩ => match r.lookup s with
    | some g => .ok g
    | none => .error .KeyError
  | .py _ => .error .KeyError
  | _ => .error .TypeError

/-- `d.pop(key)` with the value -/
def Dict.popVal (d : Dict K) (k : String) : Except Err (Val K × Dict K) :=
  match Dict.get? d k with
  | some v => .ok (v, d.filter fun p => p.1 ≠ k)
  | none => .error .KeyError

/-- `from_tables(tables)`, `factory.py` 126-154 -/
def fromTables (r : Reg K) (t : Tabs K) : Except Err (Ens K) := do
  let md ← t.get "meta"
  let dt ← t.get "data"
  let data ← buildDataDict md dt
  let (name, data) ← Dict.popVal data "pdf_name"
  let (_, data) ← Dict.popVal data "pdf_version"
  let g ← r.find name
  mkEns g g data (t.lookup "ancil")

/-! ### dictionaries of ensembles -/

/-- An HDF5 file with nested groups: the path of each table. A name with a slash is a path of several components. -/
abbrev Tree (K : Type) := List (List String × Dict K)

/-- `write_dict(filename, ensemble_dict)`, `factory.py` 360-370: the tables of each ensemble are written to the group with its key as
path. (Keys are given by their path components: the key `"a/b"` is `["a", "b"]`.) -/
def writeDict (d : List (List String × Ens K)) : Tree K :=
  d.flatMap fun p => (buildTables p.2).map fun q => (p.1 ++ [q.1], q.2)

/-- the names of the groups directly below `path`; HDF5 lists them once each -/
def groupNames (f : Tree K) (path : List String) : List String :=
  (f.filterMap fun p => if p.1.take path.length = path then (p.1.drop path.length).head? else none).dedup

/-- the columns of the table at `path`; `KeyError` when there is no such group. A group that contains only groups gives no columns
(the library returns nested dictionaries for them, which are not followed). -/
def groupCols (f : Tree K) (path : List String) : Except Err (Dict K) :=
  match f.lookup path with
  | some d => .ok d
  | none => if f.any fun p => p.1.take path.length = path then .ok [] else .error .KeyError

/-- one ensemble of `read_dict`, `factory.py` 383-393 -/
def readGroup (r : Reg K) (f : Tree K) (g : String) : Except Err (String × Ens K) := do
  let ts ← (groupNames f [g]).mapM fun n => (groupCols f [g, n]).map fun d => (n, d)
  let e ← fromTables r ts
  .ok (g, e)

/-- `read_dict(filename)`, `factory.py` 372-395 -/
def readDict (r : Reg K) (f : Tree K) : Except Err (List (String × Ens K)) := (groupNames f []).mapM (readGroup r f)

/-! ### reading in chunks -/

/-- the number of chunks of `chunk` rows -/
def nChunks (rows chunk : ℕ) : ℕ := if rows / chunk * chunk < rows then rows / chunk + 1 else rows / chunk

/-- `tables_io.data_ranges_by_rank(n_rows, chunk_rows, parallel_size, rank)`: the chunks with number `rank` modulo the number of
ranks (library function, from its documentation: not part of /repo) -/
def dataRanges (rows chunk size rank : ℕ) : List (ℕ × ℕ) :=
  ((List.range (nChunks rows chunk)).filter fun i => i % size = rank).map fun i => (i * chunk, min ((i + 1) * chunk) rows)

/-- `io.readHdf5DatasetToArray(val, start, end)`, the rows `start, ..., end - 1` of a column -/
def chunkCol (s t : ℕ) : Val K → Val K
  | .arr a => .arr (a.takeRows (List.range' s (t - s)))
  | v => v

/-- what the generator object of `iterator` holds between two chunks: the keyword dictionary and the one ancillary dictionary that all
ensembles it makes share -/
structure IterState (K : Type) where
  data : Dict K
  ancil : Dict K

/-- an item of the iteration: range of rows, ensemble as it is when it is handed out -/
structure Chunk (K : Type) where
  start : ℕ
  stop : ℕ
  ens : Ens K

/-- the ancillary dictionary after the columns of a chunk are put in, `factory.py` 264-266 -/
def nextAncil (af : Option (Dict K)) (st : IterState K) (r : ℕ × ℕ) : Dict K :=
  match af with
  | none => st.ancil
  | some a => Dict.update st.ancil (a.map fun p => (p.1, chunkCol r.1 r.2 p.2))

/-- one pass of the loop of `iterator`, `factory.py` 262-267: the columns of the chunk are put into the two dictionaries, which are then
given to `Ensemble` -/
def iterStep (g : GenFunc K) (f : Dict K) (af : Option (Dict K)) (st : IterState K) (r : ℕ × ℕ) :
    Except Err (Chunk K × IterState K) := do
  let data := Dict.update st.data (f.map fun p => (p.1, chunkCol r.1 r.2 p.2))
  let ancil := nextAncil af st r
  let e ← mkEns g g data (some ancil)
  .ok (⟨r.1, r.2, e⟩, ⟨data, ancil⟩)

/-- the loop of `iterator` over some ranges: the chunks handed out, and the state of the generator after the last one -/
def iterLoop (g : GenFunc K) (f : Dict K) (af : Option (Dict K)) : IterState K → List (ℕ × ℕ) →
    Except Err (List (Chunk K) × IterState K)
  | st, [] => .ok ([], st)
  | st, r :: rs => do
    let (c, st1) ← iterStep g f af st r
    let (cs, st2) ← iterLoop g f af st1 rs
    .ok (c :: cs, st2)

/-- the first rows of every column agree in number: `io.getGroupInputDataLength(f)` -/
def dataLength (f : Dict K) : Except Err ℕ :=
  match f with
  | [] => .error .Unmodelled
  | p :: t => match p.2.shape with
    | [] => .error .Unmodelled
    | n :: _ => if t.all (fun q => q.2.shape.head? = some n) then .ok n else .error .ValueError

/-- `data_length(filename)`, `factory.py` 215-228 -/
def fileLength (t : Tabs K) : Except Err ℕ := do
  let f ← t.get "data"
  dataLength f

/-- `read_metadata(filename)`, `factory.py` 156-164 -/
def fileMetadata (t : Tabs K) : Except Err (Dict K) := t.get "meta"

/-- the start of `iterator`, `factory.py` 238-260: class, columns, number of rows, first state -/
def iterOpen (r : Reg K) (t : Tabs K) : Except Err (GenFunc K × Dict K × ℕ × IterState K) := do
  let md ← t.get "meta"
  let (name, md) ← Dict.popVal md "pdf_name"
  let (_, md) ← Dict.popVal md "pdf_version"
  let name ← metaCol name
  let g ← r.find name
  let f ← t.get "data"
  let n ← dataLength f
  let data ← buildDataDict md []
  .ok (g, f, n, ⟨data, []⟩)

/-- `iterator(filename, chunk_size, rank, parallel_size)`, `factory.py` 230-270, run until `steps` chunks have been handed out (or to the
end). A chunk size of 0 raises `ZeroDivisionError`. -/
def iterRun (r : Reg K) (t : Tabs K) (chunk rank size steps : ℕ) : Except Err (List (Chunk K) × IterState K) := do
  let (g, f, n, st) ← iterOpen r t
  if chunk = 0 then .error .ZeroDivisionError
  else iterLoop g f (t.lookup "ancil") st ((dataRanges n chunk size rank).take steps)

/-- what a program that kept an item sees when the generator is in state `st`: the ancillary dictionary of the item is the one the
generator goes on changing -/
def Chunk.now (c : Chunk K) (st : IterState K) : Ens K := { c.ens with ancil := some st.ancil }

end

end Verif.Model
