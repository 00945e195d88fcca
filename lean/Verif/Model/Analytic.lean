import Verif.Model.Err
import Verif.Model.Scipy
import Verif.Model.EvalCase

/-!
# Evaluating the analytic classes

Sources: `/repo/src/qp/factory.py` 56-75 (`_make_scipy_wrapped_class`, `_load_scipy_classes`), `/repo/src/qp/pdf_gen.py` 123-137 (`create_gen`,
`create`), 386-423 (`Pdf_gen_wrap`), 158-183 (`rv_frozen_func`), and the front ends `pdf`, `cdf`, `ppf` of `scipy.stats.rv_continuous`, modelled
from scipy's source. A distribution of scipy is an *object*: a class with the formulas of the standardised distribution, and the ends `a`, `b` of
the support handed to the constructor (`uniform = uniform_gen(a=0.0, b=1.0, name='uniform')`). `nan` among the points and infinite points are
not followed. The formulas work entry by entry.
-/

set_option linter.unusedSectionVars false
set_option autoImplicit false

namespace Verif.Model

variable {K : Type} [Field K] [LinearOrder K]

/-- A distribution class of scipy: the formulas of the standardised distribution for given shape parameters, the check of the shape
parameters, and `_get_support` when the class overwrites it (`none`: inherited, the ends given to the constructor). An infinite end is `none`. -/
structure DistClass (K : Type) where
  pdf : List K → K → K
  cdf : List K → K → K
  ppf : List K → K → K
  argcheck : List K → Bool
  ownSupport : Option (List K → Option K × Option K)

/-- An instance of a distribution class; `a`, `b` as given to the constructor, `none` standing for the defaults `-inf`, `inf`. -/
structure DistObj (K : Type) where
  cls : DistClass K
  a : Option K
  b : Option K

/-- `_get_support(*args)` -/
def DistObj.support (d : DistObj K) (p : List K) : Option K × Option K :=
  match d.cls.ownSupport with
  | some s => s p
  | none => (d.a, d.b)

/-- The object made by `create(**kwds)` of a wrapped class, `pdf_gen.py` 123-137 with `Pdf_gen_wrap.__init__` (391-395): the constructor of the
scipy class is called with the keyword `name` only. Freezing (`_my_freeze`, 397-411) makes a second object with the same arguments. -/
def wrapCreate (c : DistClass K) : DistObj K := ⟨c, none, none⟩

/-- `_load_scipy_classes()`, `factory.py` 69-75 with `_make_scipy_wrapped_class` (56-67): the attributes of `scipy.stats` in order, `some` for an
instance of `rv_continuous`, whose class is wrapped and added under the name of the attribute. `add_class` (77-101) raises `KeyError` for a name
already present; its method tables are the subject of C54. -/
def loadScipy : List (String × Option (DistObj K)) → List (String × DistClass K) → Except Err (List (String × DistClass K))
  | [], reg => .ok reg
  | (_, none) :: t, reg => loadScipy t reg
  | (n, some d) :: t, reg => if (reg.lookup n).isSome then .error .KeyError else loadScipy t (reg ++ [(n, d.cls)])

/-- one entry of the arrays of points and parameters, broadcast against each other -/
structure Entry (K : Type) where
  x : K
  shape : List K
  loc : K
  scale : K

/-- `(x - loc) / scale` -/
def Entry.y (e : Entry K) : K := (e.x - e.loc) / e.scale

/-- `np.place(out, mask, vals)` with as many values as entries of the mask that hold -/
def place {β : Type} : List β → List Bool → List β → List β
  | o :: os, m :: ms, vs =>
    match m, vs with
    | true, v :: vs => v :: place os ms vs
    | true, [] => o :: place os ms []
    | false, vs => o :: place os ms vs
  | _, _, _ => []

/-- `a <= y <= b` with `none` for infinite ends (`_support_mask`) -/
def inClosed (s : Option K × Option K) (y : K) : Bool := s.1.all (fun a => decide (a ≤ y)) && s.2.all (fun b => decide (y ≤ b))

/-- `a < y < b` (`_open_support_mask`) -/
def inOpen (s : Option K × Option K) (y : K) : Bool := s.1.all (fun a => decide (a < y)) && s.2.all (fun b => decide (y < b))

/-- `y >= b` -/
def above (s : Option K × Option K) (y : K) : Bool := s.2.any (fun b => decide (b ≤ y))

/-- `self._argcheck(*args) & (scale > 0)` -/
def DistObj.valid (d : DistObj K) (e : Entry K) : Bool := d.cls.argcheck e.shape && decide (0 < e.scale)

/-- `rv_continuous.pdf` on the flattened arrays; `none` is `nan`: the entries whose parameters and points are in order are collected
(`argsreduce`), given to `_pdf`, divided by the scale and put back in place. -/
def DistObj.pdfs (d : DistObj K) (es : List (Entry K)) : List (Option K) :=
  let cond (e : Entry K) : Bool := d.valid e && (inClosed (d.support e.shape) e.y && decide (0 < e.scale))
  place (es.map fun e => if d.valid e then some 0 else none) (es.map cond)
    ((es.filter cond).map fun e => some (d.cls.pdf e.shape e.y / e.scale))

/-- `rv_continuous.cdf` on the flattened arrays: zero, `nan` for wrong parameters, one from the upper end on, `_cdf` strictly inside -/
def DistObj.cdfs (d : DistObj K) (es : List (Entry K)) : List (Option K) :=
  let cond (e : Entry K) : Bool := d.valid e && (inOpen (d.support e.shape) e.y && decide (0 < e.scale))
  let cond2 (e : Entry K) : Bool := above (d.support e.shape) e.y && d.valid e
  let out := place (es.map fun e => if d.valid e then some 0 else none) (es.map cond2) ((es.filter cond2).map fun _ => some 1)
  place out (es.map cond) ((es.filter cond).map fun e => some (d.cls.cdf e.shape e.y))

/-- an end of the support, moved and scaled: `_a * scale + loc` -/
def scaledEnd (inf : Ext K) (a : Option K) (e : Entry K) : Ext K :=
  match a with
  | none => inf
  | some a => .fin (a * e.scale + e.loc)

/-- `rv_continuous.ppf` on the flattened arrays, the probability being the entry's `x` -/
def DistObj.ppfs (d : DistObj K) (es : List (Entry K)) : List (Ext K) :=
  let cond (e : Entry K) : Bool := d.valid e && (decide (0 < e.x) && decide (e.x < 1))
  let cond2 (e : Entry K) : Bool := d.valid e && decide (e.x = 0)
  let cond3 (e : Entry K) : Bool := d.valid e && decide (e.x = 1)
  let out := place (es.map fun _ => .nan) (es.map cond2) ((es.filter cond2).map fun e => scaledEnd .negInf (d.support e.shape).1 e)
  let out := place out (es.map cond3) ((es.filter cond3).map fun e => scaledEnd .posInf (d.support e.shape).2 e)
  place out (es.map cond) ((es.filter cond).map fun e => .fin (d.cls.ppf e.shape e.x * e.scale + e.loc))

/-- the parameters of one PDF: shape parameters, location, scale -/
structure Params (K : Type) where
  shape : List K
  loc : K
  scale : K

/-- points and parameters of an ensemble with parameters in arrays of shape `(npdf, 1)`, broadcast and flattened -/
def entries (ps : List (Params K)) (X : List (List K)) : List (Entry K) :=
  (List.zipWith (fun (p : Params K) xs => xs.map fun x => ⟨x, p.shape, p.loc, p.scale⟩) ps X).flatten

/-- a front end of an analytic ensemble: broadcast, evaluate the flattened arrays, restore the shape -/
def analyticEval {β : Type} (f : List (Entry K) → List β) (ps : List (Params K)) (X : List (List K)) : List (List β) :=
  unflatten X (f (entries ps X))

/-- `scipy.stats.uniform`: `_pdf = 1.0 * (x == x)`, `_cdf = x`, `_ppf = q` -/
def uniformClass : DistClass K := ⟨fun _ _ => 1, fun _ x => x, fun _ q => q, fun _ => true, none⟩

/-- `uniform = uniform_gen(a=0.0, b=1.0, name='uniform')` -/
def scipyUniform : DistObj K := ⟨uniformClass, some 0, some 1⟩

end Verif.Model
