import Mathlib.Data.List.Basic
import Verif.Model.Err

/-!
# The class registry of the factory and the method tables of the classes

Sources: `/repo/src/qp/factory.py` 77-101 (`add_class`), `/repo/src/qp/dict_utils.py` 8-68, `/repo/src/qp/pdf_gen.py` 78-114 (method
tables), the `add_mappings` methods of the classes.
-/

set_option linter.unusedSectionVars false
set_option autoImplicit false

namespace Verif.Model

open Verif

section
variable {α : Type}

/-- a dictionary of methods; the key `None` is the default method -/
abbrev Methods (α : Type) := List (Option String × α)

/-- `get_val_or_default(in_dict, key)`, `dict_utils.py` 8-36 -/
def Methods.get (m : Methods α) (key : Option String) : Option α :=
  if (m.lookup key).isSome then m.lookup key
  else if (m.lookup none).isSome then m.lookup none
  else none

/-- `set_val_or_default(in_dict, key, val)`, `dict_utils.py` 39-68: the dictionary afterwards -/
def Methods.add (m : Methods α) (key : Option String) (val : α) : Methods α :=
  if (m.lookup key).isSome then m else m ++ [(key, val)]

/-- the three method tables of a class -/
inductive Slot
  | creation | extraction | reader
deriving DecidableEq, Repr

/-- the tables of one class, `pdf_gen.py` 93-98 -/
structure ClassMaps (α : Type) where
  creation : Methods α
  extraction : Methods α
  reader : Methods α
deriving DecidableEq

/-- the table for one purpose -/
def ClassMaps.slot (c : ClassMaps α) : Slot → Methods α
  | .creation => c.creation
  | .extraction => c.extraction
  | .reader => c.reader

/-- `add_method_dicts()`, `pdf_gen.py` 93-98 -/
def ClassMaps.empty : ClassMaps α := ⟨[], [], []⟩

/-- `_add_creation_method` / `_add_extraction_method` / `_add_reader_method`, `pdf_gen.py` 100-114 -/
def ClassMaps.add (c : ClassMaps α) (r : Slot × Option String × α) : ClassMaps α :=
  match r.1 with
  | .creation => { c with creation := c.creation.add r.2.1 r.2.2 }
  | .extraction => { c with extraction := c.extraction.add r.2.1 r.2.2 }
  | .reader => { c with reader := c.reader.add r.2.1 r.2.2 }

/-- A class as `add_class` sees it. -/
structure ClassDef (α : Type) where
  /-- identity of the class object -/
  id : ℕ
  /-- the attribute `name`, if the class has one -/
  name : Option String
  /-- the registrations made by `add_mappings()`, in order -/
  mappings : List (Slot × Option String × α)
  /-- the exception `add_mappings()` ends with, if it does -/
  fails : Option Err

/-- an attribute of the factory object set by `add_class` -/
inductive Attr
  /-- the class object -/
  | cls (id : ℕ)
  /-- its `create` method -/
  | create (id : ℕ)
deriving DecidableEq, Repr

/-- the factory and the method tables of the class objects -/
structure Factory (α : Type) where
  /-- the `OrderedDict`: class name, class object -/
  classes : List (String × ℕ)
  /-- the tables stored on the class object, if any -/
  maps : ℕ → Option (ClassMaps α)
  /-- attributes set on the factory, the newest first -/
  attrs : List (String × Attr)

/-- no class registered -/
def Factory.empty : Factory α := ⟨[], fun _ => none, []⟩

/-- `the_class.add_method_dicts(); the_class.add_mappings()`: the tables are emptied and filled, `factory.py` 97-98 -/
def Factory.remap (f : Factory α) (c : ClassDef α) : Factory α :=
  { f with maps := fun i => if i = c.id then some (c.mappings.foldl ClassMaps.add .empty) else f.maps i }

/-- `add_class(the_class)`, `factory.py` 77-101: the outcome and the factory afterwards -/
def addClass (f : Factory α) (c : ClassDef α) : Except Err Unit × Factory α :=
  match c.name with
  | none => (.error .AttributeError, f)
  | some n =>
    if (f.classes.lookup n).isSome then (.error .KeyError, f)
    else match c.fails with
      | some err => (.error err, f.remap c)
      | none => (.ok (), { f.remap c with
          classes := f.classes ++ [(n, c.id)]
          attrs := (n, .create c.id) :: (n ++ "_gen", .cls c.id) :: f.attrs })

/-- the factory after a history of `add_class` calls, any of which may have raised -/
def addClasses (f : Factory α) (hist : List (ClassDef α)) : Factory α := hist.foldl (fun f c => (addClass f c).2) f

end

/-- What the `add_mappings` methods of the classes of qp register (the functions by name): `hist_pdf.py` 178-180, `interp_pdf.py`
201-202 and 378-380, `mixmod_pdf.py` 176-177, `packed_interp_pdf.py` 268-269, `quant_pdf.py` 286-287, `sparse_pdf.py` 88-89,
`spline_pdf.py` 315-319, `pdf_gen.py` 423 (every scipy distribution). -/
def qpMappings : List (String × List (Slot × Option String × String)) :=
  [("hist", [(.creation, none, "create"), (.extraction, none, "extract_hist_values"),
      (.extraction, some "samples", "extract_hist_samples")]),
   ("interp", [(.creation, none, "create"), (.extraction, none, "extract_vals_at_x")]),
   ("interp_irregular", [(.creation, none, "create"), (.extraction, none, "extract_xy_vals"),
      (.extraction, none, "extract_xy_sparse")]),
   ("mixmod", [(.creation, none, "create"), (.extraction, none, "extract_mixmod_fit_samples")]),
   ("packed_interp", [(.creation, none, "create"), (.extraction, none, "extract_and_pack_vals_at_x")]),
   ("quant", [(.creation, none, "create"), (.extraction, none, "extract_quantiles")]),
   ("sparse", [(.creation, none, "create"), (.extraction, none, "extract_sparse_from_xy")]),
   ("spline", [(.creation, none, "create"), (.creation, some "xy", "create_from_xy_vals"),
      (.creation, some "samples", "create_from_samples"), (.extraction, some "xy", "extract_xy_vals"),
      (.extraction, some "samples", "extract_samples")]),
   ("norm", [(.creation, none, "create")])]

/-- the tables of the class called `name` -/
def qpMaps (name : String) : ClassMaps String := ((qpMappings.lookup name).getD []).foldl ClassMaps.add .empty

end Verif.Model
