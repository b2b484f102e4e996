import Verif.Basic
/-
Model of the filters that views always apply: `metrics_layer/core/sql/resolve.py` 39-46 and 472-516.
-/
set_option autoImplicit false
namespace ML

/-- A value of a filter dict: a scalar (by its text) or a list of scalars. Values that Python cannot
hash even as a tuple (lists of lists, dicts) are not modelled. resolve.py 491-500. -/
inductive AVal where
  | one (s : String)
  | many (l : List String)
deriving DecidableEq, Repr

/-- A filter dict as its items in order. resolve.py 496. -/
abbrev Items := List (String × AVal)

/-- An entry of the `where` list: a condition, a group with "conditions", or a dict with the key
"conditional_filter_logic". resolve.py 502-516. -/
inductive WEntry where
  | cond (items : Items)
  | group (conds : List WEntry) (items : Items)
  | wrapped (inner : WEntry) (items : Items)
deriving Repr

/-- An entry of `always_filter` of a view: its "field", if it has one, and the rest. resolve.py 477-488. -/
structure AFilter where
  field : Option String
  rest : Items
deriving DecidableEq, Repr

/-- A view as far as the always filters go. resolve.py 475-478. -/
structure AView where
  name : String
  filters : List AFilter
deriving DecidableEq, Repr

/-- The project: the view of a requested field (an error if the name is a mapping or unknown), and
`Filter({...}).filter_dict(json_safe=True)`, filter.py 109-149, on a filter with a qualified field:
it may raise, and it may give several conditions (a range of dates). -/
structure AlwaysEnv where
  view : String → Res AView
  expand : String → Items → Res (List Items)

/-- `f["field"] = f"{view.name}.{f['field']}"` if there is no dot, resolve.py 481-482. -/
def qualify (view : String) (f : AFilter) : AFilter :=
  match f.field with
  | none => f
  | some n => if '.' ∈ n.toList then f else ⟨some (view ++ "." ++ n), f.rest⟩

/-- The loop over the filters of one view, resolve.py 480-483; `f["field"]` of a filter without the
key raises KeyError. -/
def expandView (env : AlwaysEnv) (view : String) : List AFilter → Res (List Items)
  | [] => .ok []
  | f :: fs => match (qualify view f).field with
    | none => .error .keyError
    | some n => match env.expand n f.rest with
      | .error e => .error e
      | .ok cs => match expandView env view fs with
        | .error e => .error e
        | .ok rest => .ok (cs ++ rest)

/-- The loop over the requested fields, resolve.py 475-487: any exception skips the field. -/
def collectAlways (env : AlwaysEnv) : List String → List Items
  | [] => []
  | f :: fs =>
    (match env.view f with
      | .error _ => []
      | .ok v => match expandView env v.name v.filters with
        | .error _ => []
        | .ok cs => cs) ++ collectAlways env fs

/-- `_deduplicate_always_where_filters`, resolve.py 491-500. -/
def dedupItems (seen : List Items) : List Items → List Items
  | [] => []
  | f :: fs => if f ∈ seen then dedupItems seen fs else f :: dedupItems (seen ++ [f]) fs

/-- `_apply_always_filter`, resolve.py 472-489. -/
def alwaysWhere (env : AlwaysEnv) (fields : List String) : List Items :=
  dedupItems [] (collectAlways env fields)

mutual
/-- `process_filter`, resolve.py 508-514: the inside of "conditional_filter_logic" is taken as it
is; groups are processed in depth. -/
def WEntry.clean : WEntry → WEntry
  | .cond i => .cond i
  | .wrapped e _ => e
  | .group cs i => .group (cleanList cs) i
/-- The loop over the entries, resolve.py 513 and 516. -/
def cleanList : List WEntry → List WEntry
  | [] => []
  | e :: es => e.clean :: cleanList es
end

/-- The `where` argument. resolve.py 39-46. -/
inductive WhereIn where
  | none
  | text (s : String)
  | dict (e : WEntry)
  | list (es : List WEntry)
deriving Repr

/-- The filters of the query after resolve.py 41-45. -/
inductive WhereOut where
  | text (s : String)
  | list (es : List WEntry)
deriving Repr

/-- Resolve.py 41-45: `always_where` is appended with `extend`, which text and dicts do not have. An
empty argument becomes a new list. -/
def addAlways (w : WhereIn) (always : List Items) : Res WhereOut :=
  match w with
  | .none => .ok (.list (cleanList (always.map .cond)))
  | .text s => if s = "" then .ok (.list (cleanList (always.map .cond)))
    else if always.isEmpty then .ok (.text s) else .error .attributeError
  | .dict e => if always.isEmpty then .ok (.list [e]) else .error .attributeError
  | .list es => .ok (.list (cleanList (es ++ always.map .cond)))

/-- What the caller's own list holds afterwards: `self.where` is that very list unless it was empty
(resolve.py 41-44). -/
def callerList (es : List WEntry) (always : List Items) : List WEntry :=
  if es.isEmpty then es else es ++ always.map .cond

end ML
