import Verif.JoinAs.Model
import Verif.FieldCheck.Model
/-
The names a field is known by outside of its project: its id, the column it is in an answer, and its label.
`/repo/metrics_layer/core/model/field.py` 175-179, 329-349, 482-494.
-/
set_option autoImplicit false
namespace ML

/-- What a field is for its names: a dimension or a measure, or a group of a time or of a duration, field.py 482-490. -/
inductive NKind
  | plain
  | time (group : String)
  | duration (group : String)
  deriving DecidableEq, Repr

/-- What the names of a field are made of: its view, its name, its kind and group, the label written in its definition and the prefix of labels
of its view, field.py 329-349 and view.py 981-982. Simplification: the group is set, as in every field that a query or a list of the
expanded fields has. -/
structure NField where
  view : String
  name : String
  kind : NKind
  given : Option String
  before : Option String
  deriving DecidableEq, Repr

/-- `alias()`, field.py 482-494. -/
def NField.alias (f : NField) : String :=
  match f.kind with
  | .plain => f.name
  | .time g => f.name ++ "_" ++ g
  | .duration g => g ++ "_" ++ f.name

/-- `alias(with_view=True)`, field.py 492-493: the name of the column in the SELECT (query_generator.py 299). -/
def NField.column (f : NField) : String := f.view ++ "_" ++ f.alias

/-- `id()`, field.py 175-179. -/
def NField.id (f : NField) : String := f.view ++ "." ++ f.alias

/-- `text.replace('_', ' ').title()`, field.py 334, 336, 341 and 345, on ASCII letters. -/
def spacedTitle (text : String) : String := defaultPrefix text

/-- `text.replace("_", " ").upper()`, field.py 341 and 343, on ASCII letters. -/
def spacedUpper (text : String) : String := String.ofList ((text.toList.map (fun c => if c = '_' then ' ' else c)).map Char.toUpper)

/-- `label` without the prefix, field.py 331-345. An empty group is falsy (lines 333 and 335). -/
def NField.bareLabel (f : NField) : String :=
  match f.given with
  | some l =>
    match f.kind with
    | .plain => l
    | .time g => if g = "" then l else l ++ " " ++ spacedTitle g
    | .duration g => if g = "" then l else spacedTitle g ++ " " ++ l
  | none => if f.alias.toList.length ≤ 4 then spacedUpper f.alias else spacedTitle f.alias

/-- `label`, field.py 329-349. An empty prefix is falsy. -/
def NField.label (f : NField) : String :=
  match f.before with
  | some p => if p = "" then f.bareLabel else p ++ " " ++ f.bareLabel
  | none => f.bareLabel

/-- `VALID_INTERVALS`, field.py 51-60, as they are in the names of a duration's groups, field.py 898 and view.py 993. -/
def durationGroups : List String := ["seconds", "minutes", "hours", "days", "weeks", "months", "quarters", "years"]

end ML
