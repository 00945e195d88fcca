import Verif.Model.Tables
import Verif.Spec.Ens

/-! # Vocabulary for statements about tables and files -/

set_option linter.unusedSectionVars false
set_option autoImplicit false

namespace Verif.Spec

open Verif Verif.Np Verif.Model

section
variable {K : Type} [Field K] [LinearOrder K]

/-- every row class of qp is known to the factory under its name -/
def Registered (r : Reg K) : Prop := ∀ k : RowKind, r.lookup (k.cls (K := K)).name = some (rowCreate k.cls)

/-- a factory with the row classes -/
def stdReg : Reg K :=
  [RowKind.hist, .interp, .irr, .mix, .quant, .packed, .spline, .sparse].map fun k => ((k.cls (K := K)).name, rowCreate k.cls)

theorem registered_std : Registered (stdReg (K := K)) := by
  intro k
  cases k <;> rfl

end

section
variable {K : Type}

/-- tables `t` contain ensemble `e`: its metadata and data (columns in any order) and its ancillary data, if there are any -/
structure Holds (t : Tabs K) (e : Ens K) : Prop where
  metadata : ∃ md, t.lookup "meta" = some md ∧ md.Perm e.frozen.metadata
  data : ∃ dt, t.lookup "data" = some dt ∧ dt.Perm e.frozen.objdata
  ancil : t.lookup "ancil" = e.ancil

/-- the same ensemble, its PDFs numbered by one index -/
def flatEns (e : Ens K) : Ens K := { e with frozen := { e.frozen with shape := [e.frozen.npdf] } }

end

end Verif.Spec
