import Verif.Model.Tables

/-!
# Chunked writing, and the test whether a file is a qp file

Sources: `/repo/src/qp/ensemble.py` 632-687, `/repo/src/qp/factory.py` 166-187. The HDF5 calls are made by the library `tables_io`
(not in /repo): allocation creates one data set per entry, a chunk is written column by column to the rows `start, ..., end - 1`,
finalisation creates the group `meta` and writes its columns one by one. Element types (`dtype`) are not modelled.
-/

set_option linter.unusedSectionVars false
set_option autoImplicit false

namespace Verif.Model

open Verif Verif.Np

section
variable {K : Type}

/-- the tables without `meta`: `odict = self.build_tables().copy(); odict.pop("meta")`, `ensemble.py` 675-676, and the loop condition
at 636 -/
def dataTabs (e : Ens K) : Tabs K := (buildTables e).filter fun p => p.1 ≠ "meta"

/-- the shape to allocate for a column, `shape = list(array.shape); shape[0] = npdf`, `ensemble.py` 639-640. Only arrays have a `shape`
(`AttributeError`), and a scalar has no first axis (`IndexError`). -/
def allocShape (n : ℕ) : Val K → Except Err (List ℕ)
  | .arr a => match a.shape with
    | [] => .error .IndexError
    | _ :: s => .ok (n :: s)
  | _ => .error .AttributeError

/-- what is to be allocated: group, column, shape -/
abbrev Alloc := List (String × List (String × List ℕ))

/-- `_get_allocation_kwds(npdf)`, `ensemble.py` 632-642, without the element types -/
def allocKwds (e : Ens K) (n : ℕ) : Except Err Alloc :=
  (dataTabs e).mapM fun g => (g.2.mapM fun p => (allocShape n p.2).map fun s => (p.1, s)).map fun cs => (g.1, cs)

/-- the file after the allocation: every element has the fill value -/
def allocFile (fill : Elem K) (al : Alloc) : Tabs K :=
  al.map fun g => (g.1, g.2.map fun p => (p.1, .arr ⟨p.2, List.replicate p.2.prod fill⟩))

/-- `initializeHdf5Write(filename, npdf)`, `ensemble.py` 644-661 -/
def initWrite (fill : Elem K) (e : Ens K) (n : ℕ) : Except Err (Tabs K) := (allocKwds e n).map (allocFile fill)

/-- the assignment `file[group][col][start:stop] = val` -/
structure Put (K : Type) where
  group : String
  col : String
  start : ℕ
  stop : ℕ
  val : Val K

/-- the rows `s, ..., t - 1` of the array replaced by those of `v` -/
def setRows (a : Arr (Elem K)) (s t : ℕ) (v : Arr (Elem K)) : Arr (Elem K) :=
  .ofRows a.shape.tail ((List.range a.nrows).map fun i => if s ≤ i ∧ i < t then v.row (i - s) else a.row i)

/-- the value has the shape of the rows it is assigned to -/
def Put.Fits (o : Put K) (a : Arr (Elem K)) : Prop :=
  a.shape ≠ [] ∧ o.start ≤ o.stop ∧ o.stop ≤ a.nrows ∧ o.val.toArr.shape = (o.stop - o.start) :: a.shape.tail

instance (o : Put K) (a : Arr (Elem K)) : Decidable (o.Fits a) := by unfold Put.Fits; infer_instance

/-- the data set after the assignment -/
def Put.onCol (o : Put K) : Val K → Val K
  | .arr a => if o.Fits a then .arr (setRows a o.start o.stop o.val.toArr) else .arr a
  | v => v

/-- the file after the assignment -/
def Put.onFile (o : Put K) (f : Tabs K) : Tabs K :=
  f.map fun g => if g.1 = o.group then (g.1, g.2.map fun p => if p.1 = o.col then (p.1, o.onCol p.2) else p) else g

/-- a data set of the file -/
def colOf (f : Tabs K) (g c : String) : Option (Val K) := (f.lookup g).bind fun d => Dict.get? d c

/-- one assignment of `writeDictToHdf5Chunk`: `KeyError` when there is no such data set, `TypeError` when the shapes do not agree. (h5py
would repeat a value whose leading axes have length one or are missing; simplified.) -/
def writeOp (f : Tabs K) (o : Put K) : Except Err (Tabs K) :=
  match colOf f o.group o.col with
  | some (.arr a) => if o.Fits a then .ok (o.onFile f) else .error .TypeError
  | some _ => .error .Unmodelled
  | none => .error .KeyError

/-- the assignments one after the other -/
def runOps : Tabs K → List (Put K) → Except Err (Tabs K)
  | f, [] => .ok f
  | f, o :: os => match writeOp f o with
    | .error err => .error err
    | .ok f' => runOps f' os

/-- the assignments of tables `d` to rows `s, ..., t - 1` -/
def tabOps (d : Tabs K) (s t : ℕ) : List (Put K) := d.flatMap fun g => g.2.map fun p => ⟨g.1, p.1, s, t, p.2⟩

/-- the assignments made by `writeHdf5Chunk(fname, start, end)`, `ensemble.py` 663-677 -/
def chunkOps (e : Ens K) (s t : ℕ) : List (Put K) := tabOps (dataTabs e) s t

/-- `writeHdf5Chunk(fname, start, end)` -/
def writeChunk (f : Tabs K) (e : Ens K) (s t : ℕ) : Except Err (Tabs K) := runOps f (chunkOps e s t)

/-- `finalizeHdf5Write(filename)`, `ensemble.py` 679-687, interrupted after `j` columns of the metadata -/
def finalizeAt (f : Tabs K) (e : Ens K) (j : ℕ) : Tabs K := f ++ [("meta", e.frozen.metadata.take j)]

/-- `finalizeHdf5Write(filename)`, `ensemble.py` 679-687: a second group `meta` cannot be created (`ValueError`) -/
def finalizeWrite (f : Tabs K) (e : Ens K) : Except Err (Tabs K) :=
  if (f.lookup "meta").isSome then .error .ValueError else .ok (f ++ [("meta", e.frozen.metadata)])

/-! ### is it a qp file -/

/-- what can come out of a call: an exception derived from `Exception`, or one that is not (`KeyboardInterrupt`, `SystemExit`) -/
inductive Raised
  | exception (e : Err)
  | interrupt
deriving DecidableEq, Repr

/-- `len(v)` -/
def pyLen : Val K → Except Err ℕ
  | .lst l => .ok l.length
  | .arr a => match a.shape with
    | [] => .error .TypeError
    | n :: _ => .ok n
  | .py (.str s) => .ok s.length
  | .py (.bytes s) => .ok s.length
  | .py _ => .error .TypeError

/-- the part of `is_qp_file` after the file is read, `factory.py` 183 -/
def hasName (t : Tabs K) : Except Err Bool := do
  let md ← t.get "meta"
  match Dict.get? md "pdf_name" with
  | none => .error .KeyError
  | some v => (pyLen v).map fun n => decide (0 < n)

/-- `is_qp_file(filename)`, `factory.py` 166-187, for a reader that returns tables or raises -/
def isQpFile (o : Except Raised (Tabs K)) : Except Raised Bool :=
  match o with
  | .error (.exception _) => .ok false
  | .error .interrupt => .error .interrupt
  | .ok t => match hasName t with
    | .ok b => .ok b
    | .error _ => .ok false

end

end Verif.Model
