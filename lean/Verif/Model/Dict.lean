import Verif.Np.Arr
import Verif.Np.Basic

/-!
# Values, dictionaries, row selection: `dict_utils.py`

Source: `/repo/src/qp/dict_utils.py` 111-225 and the numpy/Python indexing it relies on.
-/

set_option linter.unusedSectionVars false
set_option autoImplicit false

namespace Verif.Model

open Verif Verif.Np

/-- an element of an array, or a Python scalar; a number is `none` when it is not finite (`nan`, `inf`) -/
inductive Elem (K : Type)
  | num (v : Option K)
  | bool (b : Bool)
  | str (s : String)
  | bytes (s : String)
deriving DecidableEq, Repr

/-- a value stored in a data dictionary: a numpy array (numpy scalars are arrays of rank 0), a Python scalar, or a flat
Python list -/
inductive Val (K : Type)
  | arr (a : Arr (Elem K))
  | py (e : Elem K)
  | lst (l : List (Elem K))
deriving DecidableEq, Repr

/-- Python `dict` with string keys, in insertion order -/
abbrev Dict (K : Type) := List (String × Val K)

section
variable {K : Type}

/-- `np.asarray(v)` -/
def Val.toArr : Val K → Arr (Elem K)
  | .arr a => a
  | .py e => ⟨[], [e]⟩
  | .lst l => ⟨[l.length], l⟩

/-- `np.shape(v)` -/
def Val.shape (v : Val K) : List ℕ := v.toArr.shape

/-- `np.size(v)` -/
def Val.size (v : Val K) : ℕ := v.shape.prod

/-- `np.squeeze(v)` -/
def Val.squeeze (v : Val K) : Val K := .arr v.toArr.squeeze

/-- `np.expand_dims(v, 0)` -/
def Val.expand0 (v : Val K) : Val K := .arr v.toArr.expand0

/-- `d.keys()` -/
def Dict.keys (d : Dict K) : List String := d.map (·.1)

/-- `d.get(key)` -/
def Dict.get? (d : Dict K) (k : String) : Option (Val K) := (d.find? fun p => p.1 = k).map (·.2)

/-- `d[key] = v` -/
def Dict.set : Dict K → String → Val K → Dict K
  | [], k, v => [(k, v)]
  | (k', v') :: t, k, v => if k' = k then (k, v) :: t else (k', v') :: Dict.set t k v

/-- `d.update(d2)` -/
def Dict.update (d d2 : Dict K) : Dict K := d2.foldl (fun acc p => acc.set p.1 p.2) d

/-- `d.pop(key)`, raising `KeyError` when absent -/
def Dict.pop (d : Dict K) (k : String) : Except Err (Dict K) :=
  if k ∈ d.keys then .ok (d.filter fun p => p.1 ≠ k) else .error .KeyError

/-- what can be written between the brackets of `ens[...]` (rank-1 keys) -/
inductive Key
  | int (i : ℤ)
  | slice (start stop step : Option ℤ)
  | mask (m : List Bool)
  | list (is : List ℤ)
deriving DecidableEq, Repr

/-- which rows a key selects: one row (the axis disappears) or several -/
inductive Sel
  | one (i : ℕ)
  | many (is : List ℕ)
deriving DecidableEq, Repr

/-- a Python integer index into an axis of length `n` -/
def normIndex (n : ℕ) (i : ℤ) : Except Err ℕ :=
  if 0 ≤ i ∧ i < n then .ok i.toNat
  else if i < 0 ∧ -(n : ℤ) ≤ i then .ok (i + n).toNat
  else .error .IndexError

/-- a bound of a slice over an axis of length `n`, as `slice.indices` computes it: negative bounds count from the end, bounds are
clipped to `[lower, upper]`, a missing bound is `dflt` -/
def sliceBound (n : ℕ) (lower upper dflt : ℤ) : Option ℤ → ℤ
  | none => dflt
  | some x => if x < 0 then max (x + n) lower else min x upper

/-- Python's `slice(start, stop, step).indices(n)` followed by `range`; `step = 0` raises `ValueError` -/
def sliceIndices (n : ℕ) (start stop step : Option ℤ) : Except Err (List ℕ) :=
  let st := step.getD 1
  if st = 0 then .error .ValueError
  else if 0 < st then
    let a := sliceBound n 0 n 0 start
    let b := sliceBound n 0 n n stop
    .ok ((List.range ((b - a + st - 1) / st).toNat).map fun (k : ℕ) => (a + (k : ℤ) * st).toNat)
  else
    let a := sliceBound n (-1) (n - 1) (n - 1) start
    let b := sliceBound n (-1) (n - 1) (-1) stop
    .ok ((List.range ((a - b + (-st) - 1) / (-st)).toNat).map fun (k : ℕ) => (a + (k : ℤ) * st).toNat)

/-- positions of `True` -/
def maskIndices (m : List Bool) : List ℕ := (List.range m.length).filter fun i => m.getD i false

/-- which rows of an axis of length `n` a key selects (numpy indexing on the first axis) -/
def Key.resolve (k : Key) (n : ℕ) : Except Err Sel :=
  match k with
  | .int i => (normIndex n i).map .one
  | .slice a b s => (sliceIndices n a b s).map .many
  | .mask m => if m.length = n then .ok (.many (maskIndices m)) else .error .IndexError
  | .list is => (is.mapM (normIndex n)).map .many

/-- `v[key]`. A 0-d array or numpy scalar raises `IndexError`, a Python number `TypeError`; a Python list accepts integers and
slices only. Indexing into a string is not followed. -/
def Val.index (v : Val K) (k : Key) : Except Err (Val K) :=
  match v with
  | .arr a =>
    match a.shape, a.data with
    | [], [.str _] | [], [.bytes _] => .error .Unmodelled
    | [], _ => .error .IndexError
    | n :: _, _ =>
      match k.resolve n with
      | .error e => .error e
      | .ok (.one i) => .ok (.arr (a.at0 i))
      | .ok (.many is) => .ok (.arr (a.takeRows is))
  | .py (.str _) | .py (.bytes _) => .error .Unmodelled
  | .py _ => .error .TypeError
  | .lst l =>
    match k with
    | .int _ | .slice _ _ _ =>
      match k.resolve l.length with
      | .error e => .error e
      | .ok (.one i) => match l[i]? with
        | some e => .ok (.py e)
        | none => .error .IndexError
      | .ok (.many is) => .ok (.lst (is.filterMap fun (i : ℕ) => l[i]?))
    | .mask _ | .list _ => .error .TypeError

/-- one entry of `slice_dict`: `KeyError` and `TypeError` are swallowed and the value is kept whole -/
def sliceVal (v : Val K) (k : Key) : Except Err (Val K) :=
  match v.index k with
  | .ok w => .ok w
  | .error .KeyError => .ok v
  | .error .TypeError => .ok v
  | .error e => .error e

/-- `slice_dict(in_dict, subslice)`, `dict_utils.py` 111-133 -/
def sliceDict (d : Dict K) (k : Key) : Except Err (Dict K) :=
  d.mapM fun p => (sliceVal p.2 k).map fun v => (p.1, v)

/-- one entry of `check_array_shapes`; `np.shape(val)[0]` of a scalar raises `IndexError` -/
def checkArrayShape (v : Val K) (npdf : ℕ) : Except Err Unit :=
  if v.size = 1 ∧ npdf = 1 then .ok ()
  else match v.shape with
    | [] => .error .IndexError
    | n :: _ => if n = npdf then .ok () else .error .ValueError

/-- the loop of `check_array_shapes`, `dict_utils.py` 180-187 -/
def checkShapes : Dict K → ℕ → Except Err Unit
  | [], _ => .ok ()
  | p :: t, npdf => match checkArrayShape p.2 npdf with
    | .error e => .error e
    | .ok () => checkShapes t npdf

/-- `check_array_shapes(in_dict, npdf)`, `dict_utils.py` 173-187 -/
def checkArrayShapes (d : Option (Dict K)) (npdf : ℕ) : Except Err Unit :=
  match d with
  | none => .ok ()
  | some d => checkShapes d npdf

/-- `a.keys() == b.keys()` (as sets) -/
def sameKeys (a b : Dict K) : Bool := a.keys.all (· ∈ b.keys) && b.keys.all (· ∈ a.keys)

/-- `np.asarray(d[key])` -/
def getArr (key : String) (d : Dict K) : Except Err (Arr (Elem K)) :=
  match Dict.get? d key with
  | some v => .ok v.toArr
  | none => .error .KeyError

/-- `np.concatenate([in_dict[key] for in_dict in in_dicts])` -/
def concatKey (ds : List (Dict K)) (key : String) : Except Err (Val K) := do
  let vs ← ds.mapM (getArr key)
  let c ← Arr.concatenate vs
  .ok (.arr c)

/-- `concatenate_dicts(in_dicts)` with `check_keys`, `dict_utils.py` 136-170 -/
def concatenateDicts (ds : List (Dict K)) : Except Err (Dict K) :=
  match ds with
  | [] => .ok []
  | d :: t =>
    if t.any (fun e => !sameKeys e d) then .error .ValueError
    else d.keys.mapM fun key => (concatKey ds key).map fun v => (key, v)

/-- numpy broadcasting of two shapes is possible -/
def broadcastable (s t : List ℕ) : Bool := (s.reverse.zip t.reverse).all fun p => p.1 = p.2 || p.1 = 1 || p.2 = 1

end

section
variable {K : Type} [Field K] [LinearOrder K]

/-- elementwise `!=` (`nan != nan` is `True`) -/
def Elem.ne : Elem K → Elem K → Bool
  | .num none, _ => true
  | _, .num none => true
  | a, b => decide (a ≠ b)

/-- the test of `np.allclose(a, b)` on one pair of elements; not defined (`TypeError`) on strings -/
def Elem.close : Elem K → Elem K → Except Err Bool
  | .num (some a), .num (some b) => .ok (isclose a b)
  | .num _, .num _ => .ok false
  | .bool a, .bool b => .ok (a == b)
  | _, _ => .error .TypeError

/-- all pairs close -/
def allClose : List (Elem K × Elem K) → Except Err Bool
  | [] => .ok true
  | p :: t => do
    let c ← p.1.close p.2
    let r ← allClose t
    .ok (c && r)

/-- one step of `compare_two_dicts`, `dict_utils.py` 201-207: `True` when the entries match. `if v != vv` on arrays with more than
one element (or shapes that do not broadcast) raises `ValueError`, then `np.allclose(v, vv)` decides (or raises `ValueError` when
the shapes do not broadcast). Broadcasting of different shapes and empty arrays are not followed. -/
def compareVals (v vv : Val K) : Except Err Bool :=
  match v, vv with
  | .py a, .py b => .ok (!a.ne b)
  | .lst a, .lst b => .ok (a == b)
  | v, vv =>
    let a := v.toArr
    let b := vv.toArr
    if a.shape = b.shape then
      match a.data, b.data with
      | [], _ | _, [] => .error .Unmodelled
      | [x], [y] => .ok (!x.ne y)
      | xs, ys => allClose (xs.zip ys)
    else if broadcastable a.shape b.shape then .error .Unmodelled
    else .error .ValueError

/-- the loop of `compare_two_dicts` -/
def compareEntries : Dict K → Dict K → Except Err Bool
  | [], _ => .ok true
  | (k, v) :: t, d2 =>
    match d2.get? k with
    | none => .error .KeyError
    | some vv => match compareVals v vv with
      | .error e => .error e
      | .ok false => .ok false
      | .ok true => compareEntries t d2

/-- `compare_two_dicts(d1, d2)`, `dict_utils.py` 190-208 -/
def compareTwoDicts (d1 d2 : Dict K) : Except Err Bool :=
  if sameKeys d1 d2 then compareEntries d1 d2 else .ok false

/-- the loop of `compare_dicts` -/
def compareAll (first : Dict K) : List (Dict K) → Except Err Bool
  | [] => .ok true
  | d :: t => match compareTwoDicts first d with
    | .error e => .error e
    | .ok false => .ok false
    | .ok true => compareAll first t

/-- `compare_dicts(in_dicts)`, `dict_utils.py` 211-225: every dictionary is compared with the first -/
def compareDicts (ds : List (Dict K)) : Except Err Bool :=
  match ds with
  | [] => .ok true
  | d :: t => compareAll d t

end

end Verif.Model
