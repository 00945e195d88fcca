import Verif.Np.Basic

/-!
# The front end of `scipy.stats.rv_continuous` for qp classes

qp's row classes (`pdf_gen.py` 273-331) never set the support `a`, `b` of the distribution ("Set support" in the
constructors is only a comment), so scipy keeps `-inf`, `+inf`.
-/

namespace Verif.Model

variable {K : Type*} [Field K] [LinearOrder K]

/-- A floating point number as returned to the user, with the values that are not real numbers. -/
inductive Ext (K : Type*)
  | negInf
  | fin (a : K)
  | posInf
  | nan
  deriving DecidableEq, Repr

/-- a finite number or `nan` -/
def Ext.ofOption {K : Type*} : Option K → Ext K
  | some a => .fin a
  | none => .nan

/-- `rv_continuous.ppf(q)` around the class's `_ppf`: probabilities strictly between 0 and 1 go to `_ppf`, 0 and 1
are answered with the ends of the support (`-inf`, `+inf`), everything else with `badvalue = nan`. -/
def ppfFront (ppf : K → Option K) (q : K) : Ext K :=
  if q = 0 then .negInf
  else if q = 1 then .posInf
  else if 0 < q ∧ q < 1 then .ofOption (ppf q)
  else .nan

end Verif.Model
