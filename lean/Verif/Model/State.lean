import Verif.Model.Ensemble

/-!
# An ensemble with its cache of gridded values, as a state machine

Source: `/repo/src/qp/ensemble.py` 165-284 (`update`, `update_objdata`, `set_ancil`, `add_to_ancil`, `append`) and 321-342
(`gridded`). Evaluation is a parameter `pdf`: any function of the frozen distribution and the grid that may raise. Grids are arrays in
a memory, because `gridded` keeps a reference to the caller's array. The samples cache `_samples` is never read and left out.
-/

set_option linter.unusedSectionVars false
set_option autoImplicit false

namespace Verif.Model

open Verif Verif.Np

variable {K V : Type} [Field K] [LinearOrder K]

/-- an ensemble, its `_gridded` (reference to the grid array, values), and the memory the grids live in -/
structure State (K V : Type) where
  ens : Ens K
  cache : Option (ℕ × V)
  mem : ℕ → List K

/-- what a program can do with an ensemble `ens` and with its own grid arrays -/
inductive Op (K : Type)
  | setAncil (a : Option (Dict K))
  | addToAncil (a : Dict K)
  | update (data : Dict K) (a : Option (Dict K))
  | updateObjdata (data : Dict K) (a : Option (Dict K))
  | append (other : Ens K)
  /-- `ens.gridded(g)` with the array at address `g` -/
  | gridded (g : ℕ)
  /-- the program writes into its array: `grid[...] = ...` -/
  | mutate (g : ℕ) (vals : List K)
  /-- the distribution object is changed in place, as the setter of `pdf_constructor_name` does (`quant_pdf.py` 162-190) -/
  | alterDist (f : Frozen K)

/-- an operation that ends in `self.update`: the cache is cleared when it succeeds, `ensemble.py` 173-177 -/
def clearing (s : State K V) (o : Outcome K) : Except Err (Option V) × State K V :=
  match o.1 with
  | .error err => (.error err, { s with ens := o.2 })
  | .ok () => (.ok none, { s with ens := o.2, cache := none })

/-- an operation that does not touch the cache -/
def keeping (s : State K V) (o : Outcome K) : Except Err (Option V) × State K V :=
  match o.1 with
  | .error err => (.error err, { s with ens := o.2 })
  | .ok () => (.ok none, { s with ens := o.2 })

/-- `ens.gridded(grid)`, `ensemble.py` 340-342 (the values returned; `np.array_equal` on 1-D grids) -/
def griddedOp (pdf : Frozen K → List K → Except Err V) (s : State K V) (g : ℕ) : Except Err (Option V) × State K V :=
  match s.cache with
  | some (a, v) =>
    if s.mem a = s.mem g then (.ok (some v), s)
    else match pdf s.ens.frozen (s.mem g) with
      | .error err => (.error err, s)
      | .ok w => (.ok (some w), { s with cache := some (g, w) })
  | none => match pdf s.ens.frozen (s.mem g) with
    | .error err => (.error err, s)
    | .ok w => (.ok (some w), { s with cache := some (g, w) })

/-- one operation: its outcome and the state afterwards (also when it raised) -/
def step (pdf : Frozen K → List K → Except Err V) (s : State K V) : Op K → Except Err (Option V) × State K V
  | .setAncil a => keeping s (setAncil s.ens a)
  | .addToAncil a => keeping s (addToAncil s.ens a)
  | .update d a => clearing s (update s.ens d a)
  | .updateObjdata d a => clearing s (updateObjdata s.ens d a)
  | .append o => clearing s (append s.ens o)
  | .gridded g => griddedOp pdf s g
  | .mutate g vals => (.ok none, { s with mem := Function.update s.mem g vals })
  | .alterDist f => (.ok none, { s with ens := { s.ens with frozen := f } })

/-- the state after a history -/
def run (pdf : Frozen K → List K → Except Err V) (s : State K V) (ops : List (Op K)) : State K V :=
  ops.foldl (fun s op => (step pdf s op).2) s

/-- a new ensemble: nothing cached -/
def fresh (e : Ens K) (mem : ℕ → List K) : State K V := ⟨e, none, mem⟩

end Verif.Model
