import Mathlib.Data.List.Basic
import Verif.Model.Err

/-!
# The metric registry

Source: `/repo/src/qp/metrics/factory.py`. A class is its identity, the `metric_name` of its own body if there is one, and its direct
subclasses in the order of `__subclasses__()`. A class with several bases occurs below each of them. The tree is an argument of every call,
because Python code may define further classes between calls.
-/

set_option linter.unusedSectionVars false
set_option autoImplicit false

namespace Verif.Model

open Verif

/-- a Python class below `BaseMetric`: identity, `metric_name` if its body sets it (`some none` for `None`), direct subclasses -/
inductive MCls
  | mk (ident : String) (own : Option (Option String)) (subs : List MCls)

/-- `metric_name` seen from a class: its own or the inherited one -/
def effName (inherited : Option String) (own : Option (Option String)) : Option String := own.getD inherited

mutual
/-- `get_all_subclasses(cls)`, `factory.py` 4-12, each class with the `metric_name` seen from it: the part for one direct subclass -/
def walkCls (inherited : Option String) : MCls → List (String × Option String)
  | .mk i own subs => (i, effName inherited own) :: walkAll (effName inherited own) subs
/-- `get_all_subclasses(cls)`, `factory.py` 4-12, for the direct subclasses of `cls` -/
def walkAll (inherited : Option String) : List MCls → List (String × Option String)
  | [] => []
  | c :: t => walkCls inherited c ++ walkAll inherited t
end

/-- `s.replace("Metric", "")` on characters -/
def dropMetric : List Char → List Char
  | 'M' :: 'e' :: 't' :: 'r' :: 'i' :: 'c' :: t => dropMetric t
  | c :: t => c :: dropMetric t
  | [] => []

/-- the key of a metric name, `factory.py` 23 -/
def metricKey (s : String) : String := String.ofList (dropMetric s.toList)

/-- `d[k] = v`: a present key keeps its position -/
def putKey (d : List (String × String)) (k v : String) : List (String × String) :=
  if d.any (fun p => p.1 == k) then d.map (fun p => if p.1 == k then (k, v) else p) else d ++ [(k, v)]

/-- one step of the dictionary comprehension, `factory.py` 22-26: names that are `None` or empty are left out -/
def registerOne (d : List (String × String)) (c : String × Option String) : List (String × String) :=
  match c.2 with
  | none => d
  | some n => if n = "" then d else putKey d (metricKey n) c.1

/-- `MetricFactory.update_metrics()`, `factory.py` 18-26: the new `metric_dict`. `BaseMetric.metric_name` is `None`. -/
def updateMetrics (classes : List MCls) : List (String × String) := (walkAll none classes).foldl registerOne []

/-- the state after `if not cls.metric_dict or force_update: cls.update_metrics()` -/
def refresh (classes : List MCls) (force : Bool) (d : List (String × String)) : List (String × String) :=
  if d = [] ∨ force = true then updateMetrics classes else d

/-- `MetricFactory.list_metrics(force_update)`, `factory.py` 37-42: result and new state -/
def listMetrics (classes : List MCls) (force : Bool) (d : List (String × String)) : List String × List (String × String) :=
  ((refresh classes force d).map (·.1), refresh classes force d)

/-- `MetricFactory.create_metric(name, force_update)`, `factory.py` 44-55: the class that is called, and the new state. On failure the message
lists the metrics, which may refresh the registry again. The keyword arguments are passed on to the class and not modelled. -/
def createMetric (classes : List MCls) (name : String) (force : Bool) (d : List (String × String)) : Except Err String × List (String × String) :=
  match (refresh classes force d).lookup name with
  | some c => (.ok c, refresh classes force d)
  | none => (.error .KeyError, (listMetrics classes false (refresh classes force d)).2)

end Verif.Model
