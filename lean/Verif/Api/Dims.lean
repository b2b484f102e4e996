import Verif.Names.Model
import Verif.Api.Model

/-!
# `get_metric` and `get_dimension`

The lists of fields are kept by `Project.fields` (project.py 462-473), and so are the fields in them, which remember the timeframe they were
last asked for.
-/

set_option autoImplicit false

namespace ML

/-- The kind of a field that is not hidden, with the timeframes or the intervals of a group. field.py 893-898. -/
inductive DimKind
  | measure
  | plain
  | time (frames : List String)
  | duration (intervals : List String)
  /-- A group of another type: it has no names. -/
  | otherGroup

/-- A field as `equal` reads it: `picked` is its `dimension_group`. field.py 879-905. -/
structure DimObj where
  view : String
  name : String
  kind : DimKind
  picked : Option String := none

/-- `dimension_group_names`, field.py 893-898. -/
def DimObj.groupNames (d : DimObj) : List String :=
  match d.kind with
  | .time ts => ts.map fun t => d.name ++ "_" ++ t
  | .duration is => is.map fun i => i ++ "s_" ++ d.name
  | _ => []

/-- `get_dimension_group_name`, field.py 900-905. -/
def DimObj.groupName (d : DimObj) (n : String) : Option String :=
  match d.kind with
  | .duration _ =>
    if containsSub ("_" ++ d.name).toList n.toList then some (String.ofList (replaceAll ("_" ++ d.name).toList [] n.toList)) else none
  | .time _ => some (String.ofList (replaceAll (d.name ++ "_").toList [] n.toList))
  | _ => none

/-- `alias`, field.py 482-494, without the view. -/
def DimObj.alias (d : DimObj) : String :=
  match d.kind with
  | .time _ => d.name ++ "_" ++ d.picked.getD "None"
  | .duration _ => d.picked.getD "None" ++ "_" ++ d.name
  | _ => d.name

/-- The field is a group. field.py 885, 890. -/
def DimObj.isGroup (d : DimObj) : Bool :=
  match d.kind with
  | .time _ | .duration _ | .otherGroup => true
  | _ => false

/-- `equal`, field.py 879-892: the answer, and the field afterwards. -/
def DimObj.equal (d : DimObj) (n : String) : Bool × DimObj :=
  let (_, v, n) := fieldNameParts n
  if v.any (fun v => v ≠ "" ∧ v ≠ d.view) then (false, d)
  else if d.isGroup ∧ d.picked = none then
    if d.groupNames.contains n then (true, { d with picked := d.groupName n }) else (false, d)
  else if d.isGroup then (d.alias = n, d)
  else (d.name = n, d)

/-- `next(d for d in dimensions if d.equal(name))`, query.py 202-206, 217-221: the list afterwards, and the field. `next` without a default
raises StopIteration, which `except ParseError` does not catch. -/
def nextEqual (n : String) : List DimObj → List DimObj × Res DimObj
  | [] => ([], .error .other)
  | d :: ds =>
    if (d.equal n).1 then ((d.equal n).2 :: ds, .ok (d.equal n).2)
    else ((d.equal n).2 :: (nextEqual n ds).1, (nextEqual n ds).2)

/-- `isinstance` of a measure, query.py 195, 210. -/
def DimObj.isMeasure (d : DimObj) : Bool :=
  match d.kind with
  | .measure => true
  | _ => false

/-- `get_metric`, query.py 200-206, of the metrics among the fields that are kept. -/
def getMetric (fs : List DimObj) (n : String) : Res DimObj := (nextEqual n (fs.filter (·.isMeasure))).2

/-- `get_dimension`, query.py 215-221, of the dimensions that are kept. -/
def getDimension (ds : List DimObj) (n : String) : List DimObj × Res DimObj := nextEqual n ds

/-- A history of `get_dimension`. query.py 215-221. -/
def askedFor : List DimObj → List String → List DimObj
  | ds, [] => ds
  | ds, n :: ns => askedFor (getDimension ds n).1 ns

end ML
