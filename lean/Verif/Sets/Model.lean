import Verif.Names.Model
import Mathlib.Data.List.Sort
import Mathlib.Data.List.Dedup
/-
Field sets: `/repo/metrics_layer/core/model/set.py` and the lookups of sets in
`/repo/metrics_layer/core/model/project.py`.
-/
set_option autoImplicit false
namespace ML

/-- A set (set.py 13-20). `fields` are the entries as written. -/
structure SetDef where
  name : String
  fields : List String
  viewName : Option String
  deriving DecidableEq, Repr

/-- What a set sees of the project: the views the user can access with their sets (`Project.sets`,
project.py 441-454, with `View.list_sets`, view.py 1049-1056), and the names
`{view}.{alias}` of all fields of a view or of the project (`Project.fields`, project.py 462-489). -/
structure SetEnv where
  views : List (String × List SetDef)
  allFields : Option String → Res (List String)

/-- `Project.sets` (project.py 441-454): no view name, or an empty one, means all views; an unknown view
has no sets. -/
def SetEnv.sets (env : SetEnv) (view : Option String) : List SetDef :=
  match view with
  | none => env.views.flatMap (·.2)
  | some v =>
    if v = "" then env.views.flatMap (·.2)
    else match env.views.find? (fun x => x.1 = v) with
    | none => []
    | some x => x.2

/-- `Project.get_set` (project.py 456-461). -/
def SetEnv.getSet (env : SetEnv) (name : String) (view : Option String) : Option SetDef :=
  (env.sets view).find? (fun s => s.name = name)

/-- `Set._get_view_name` (set.py 119-125). -/
def setViewName (s : SetDef) (view : Option String) : Res String :=
  match view with
  | some v => if v ≠ "" then .ok v else .error .query
  | none =>
    match s.viewName with
    | some v => if v ≠ "" then .ok v else .error .query
    | none => .error .query

/-- The full name of a field entry (set.py 92-94, 98-100). -/
def setFieldName (s : SetDef) (entry : String) : Res String :=
  match setViewName s (fieldNameParts entry).2.1 with
  | .error e => .error e
  | .ok v => .ok (v ++ "." ++ (fieldNameParts entry).2.2)

/-- `Set._internal_get_fields_from_set` (set.py 107-117); `expand` is `field_names` of the set found. A
set that is not found contributes nothing. -/
def setReference (env : SetEnv) (expand : SetDef → Res (List String)) (s : SetDef) (name : String) :
    Res (List String) :=
  if name = "ALL_FIELDS" then env.allFields s.viewName
  else
    match env.getSet (fieldNameParts name).2.2 (fieldNameParts name).2.1 with
    | none => .ok []
    | some t => expand t

/-- `text.replace(c, "")` for one character. set.py 78-90. -/
def without (c : Char) (s : String) : String := String.ofList (s.toList.filter (· ≠ c))

/-- One entry (set.py 77-100): the names it adds and the names it excludes. -/
def setEntry (env : SetEnv) (expand : SetDef → Res (List String)) (s : SetDef) (entry : String) :
    Res (List String × List String) :=
  if '*' ∈ entry.toList ∧ '-' ∈ entry.toList then
    match setReference env expand s (without '-' (without '*' entry)) with
    | .error e => .error e
    | .ok l => .ok ([], l)
  else if '*' ∈ entry.toList then
    match setReference env expand s (without '*' entry) with
    | .error e => .error e
    | .ok l => .ok (l, [])
  else if '-' ∈ entry.toList then
    match setFieldName s (without '-' entry) with
    | .error e => .error e
    | .ok f => .ok ([], [f])
  else
    match setFieldName s entry with
    | .error e => .error e
    | .ok f => .ok ([f], [])

/-- The loop over the entries (set.py 75-100): all names added and all names excluded, in order. -/
def setEntries (env : SetEnv) (expand : SetDef → Res (List String)) (s : SetDef) :
    List String → Res (List String × List String)
  | [] => .ok ([], [])
  | e :: es =>
    match setEntry env expand s e with
    | .error err => .error err
    | .ok (a, x) =>
      match setEntries env expand s es with
      | .error err => .error err
      | .ok (as, xs) => .ok (a ++ as, x ++ xs)

/-- The exclusion and the ordering (set.py 102-105): a Python set of the names that are not excluded,
sorted by their first position. The positions are distinct, so the order in which the Python set hands out
its elements does not matter. -/
def setResult (all excluded : List String) : List String :=
  ((all.filter (fun f => f ∉ excluded)).dedup).insertionSort (fun a b => all.idxOf a ≤ all.idxOf b)

/-- `Set.field_names` (set.py 73-105) with Python's recursion limit as fuel. -/
def setFieldNames (env : SetEnv) : ℕ → SetDef → Res (List String)
  | 0, _ => .error .recursion
  | n + 1, s =>
    match setEntries env (setFieldNames env n) s s.fields with
    | .error e => .error e
    | .ok (all, excluded) => .ok (setResult all excluded)

end ML
