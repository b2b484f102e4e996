import Verif.Basic
/-
`Project._handle_join_as_duplication`, metrics_layer/core/model/project.py 136-183.

The function works on a deep copy of the caller's list (line 138), so the model is a function of
the list's value. Keys of a view or identifier that the function never looks at are kept in `rest`.
-/
set_option autoImplicit false
namespace ML

/-- An identifier of a view. An option is the presence of the key. project.py 136-183. -/
structure JIdent where
  name : String
  typ : String
  joinAs : Option String := none
  joinAsLabel : Option String := none
  joinAsPrefix : Option String := none
  includeMetrics : Bool := false
  rest : String := ""
  deriving DecidableEq, Repr

/-- A field definition: whether `field_type` is `measure`, and everything else. project.py 136-183. -/
structure JField where
  isMeasure : Bool
  rest : String
  deriving DecidableEq, Repr

/-- A view definition. project.py 136-183. -/
structure JView where
  name : String
  identifiers : List JIdent := []
  fields : List JField := []
  label : Option String := none
  fieldPrefix : Option String := none
  rest : String := ""
  deriving DecidableEq, Repr

/-- Python's `str.title()` on ASCII letters: `up` tells whether the next letter starts a word. project.py 163. -/
def titleGo : Bool → List Char → List Char
  | _, [] => []
  | up, c :: cs =>
    if c.isAlpha then (if up then c.toUpper else c.toLower) :: titleGo false cs
    else c :: titleGo true cs

/-- `identifier["join_as"].replace("_", " ").title()`, project.py 162. -/
def defaultPrefix (a : String) : String :=
  String.ofList (titleGo true (a.toList.map (fun c => if c = '_' then ' ' else c)))

/-- The identifier without its `join_as` key, project.py 148-149. -/
def JIdent.withoutJoinAs (i : JIdent) : JIdent := { i with joinAs := none }

/-- The view created for an identifier, project.py 151-170 (before it gets its own name, line 181). -/
def joinAsView (v : JView) (i : JIdent) (a : String) : JView :=
  { v with
    identifiers := [i.withoutJoinAs]
    label := match i.joinAsLabel with | some l => some l | none => v.label
    fieldPrefix := match i.joinAsPrefix, i.joinAsLabel with
      | some p, _ => some p
      | none, some l => some l
      | none, none => some (defaultPrefix a)
    fields := if i.includeMetrics then v.fields else v.fields.filter (fun f => !f.isMeasure) }

/-- `v["identifiers"] = [i for i in v["identifiers"] if i["name"] != identifier["name"]]`,
project.py 145-147. -/
def dropName (v : JView) (n : String) : JView :=
  { v with identifiers := v.identifiers.filter (fun j => decide (j.name ≠ n)) }

/-- The loop over the identifiers of one view, project.py 141-178. The list iterated over is the
original one although `v["identifiers"]` is rebound. `created` is `join_as_to_create`. -/
def joinAsLoop (v : JView) (created : List (String × JView)) :
    List JIdent → Res (JView × List (String × JView))
  | [] => .ok (v, created)
  | i :: is =>
    match i.joinAs with
    | none => joinAsLoop v created is
    | some a =>
      if i.typ = "primary" then
        match created.find? (fun p => decide (p.1 = a)) with
        | none => joinAsLoop (dropName v i.name)
            (created ++ [(a, joinAsView (dropName v i.name) i a)]) is
        | some p =>
          if p.2.name ≠ v.name then .error .query else joinAsLoop (dropName v i.name) created is
      else joinAsLoop v created is

/-- The loop over the views, project.py 139-178. -/
def joinAsViews (created : List (String × JView)) :
    List JView → Res (List JView × List (String × JView))
  | [] => .ok ([], created)
  | v :: vs =>
    match joinAsLoop v created v.identifiers with
    | .error e => .error e
    | .ok (v', created') =>
      match joinAsViews created' vs with
      | .error e => .error e
      | .ok (vs', created'') => .ok (v' :: vs', created'')

/-- `Project._handle_join_as_duplication`, project.py 136-183. -/
def handleJoinAs (views : List JView) : Res (List JView) :=
  match joinAsViews [] views with
  | .error e => .error e
  | .ok (vs, created) => .ok (vs ++ created.map (fun p => { p.2 with name := p.1 }))

end ML
