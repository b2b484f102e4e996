import Verif.Text.Model
import Verif.JoinGraph.Model
import Mathlib.Data.Nat.Notation
/-
Expanding `${...}` references in the SQL of fields.
`/repo/metrics_layer/core/model/field.py` 250-311 (only that `sql` is a text), 511-516, 799-817, 2550-2603 and
`/repo/metrics_layer/core/model/join_graph.py` 355-368 (`identClause`, in Verif/JoinGraph/Model.lean).
-/
set_option autoImplicit false
namespace ML

/-- The loop shared by `replace_fields` (field.py 2584-2602), `_number_aggregate_sql` (field.py 802-814) and
`strict_replaced_query` (field.py 541-554): for each reference found in the original text, in order, the value of the name is
computed and every `${name}` in the current text is replaced by it. -/
def replaceEach (value : List Char → Res (List Char)) : List (List Char) → List Char → Res (List Char)
  | [], text => .ok text
  | n :: ns, text =>
    match value n with
    | .error e => .error e
    | .ok v => replaceEach value ns (replaceAll (refText n) v text)

/-- What these functions read of a field: the name of its view, its `sql` text (`none` when there is none), whether it is a measure
of type `number`, and what `apply_dimension_group_time_sql` makes of the expanded text (the identity for dimensions). field.py 2550-2603. -/
structure RField where
  view : List Char
  sql : Option (List Char)
  isNumber : Bool
  wrap : List Char → List Char

/-- `re.sub(r"[ ]{2,}", " ", text)`, field.py 2577: runs of spaces become one space. `prev` tells whether the last character kept
is a space. -/
def collapseSpaces : Bool → List Char → List Char
  | _, [] => []
  | prev, c :: cs => if c = ' ' then (if prev then collapseSpaces true cs else c :: collapseSpaces true cs) else c :: collapseSpaces false cs

/-- `raw_sql_query` of a field whose SQL is a text, field.py 511-516 with 2550-2603, not `alias_only`. The first argument bounds
the depth of references: Python raises RecursionError. `get view name` is `get_field_with_view_info`. A measure of type number
gives a list, which the caller refuses with a QueryError (field.py 2596-2601); an empty text or one with `{%` gives `None`, which
`str.replace` refuses with a TypeError. -/
def rawSql (get : List Char → List Char → Res RField) : ℕ → RField → Res (List Char)
  | 0, _ => .error .recursion
  | n + 1, f =>
    if f.isNumber then .error .query
    else
      match f.sql with
      | none => .error .query
      | some t =>
        if t = [] ∨ containsSub "{%".toList t = true then .error .typeError
        else
          match replaceEach (fun name =>
              if name = "TABLE".toList then .ok f.view
              else match get f.view name with
                | .error e => .error e
                | .ok g => rawSql get n g) (fieldsToReplace t) t with
          | .error e => .error e
          | .ok r => .ok (f.wrap (collapseSpaces false (strip r)))

/-- `_number_aggregate_sql`, field.py 799-817, not `alias_only`; `agg` gives the aggregate SQL of a referenced field. -/
def numberSql (view : List Char) (agg : List Char → Res (List Char)) (t : List Char) : Res (List Char) :=
  replaceEach (fun name =>
    if name = "TABLE".toList then .ok ('(' :: view ++ [')'])
    else match agg name with
      | .error e => .error e
      | .ok v => .ok ('(' :: v ++ [')'])) (fieldsToReplace t) t

end ML
