import Verif.Tiers.Model
/-
The SQL a dimension gets from `case`, `tiers` and the type yesno: `/repo/metrics_layer/core/model/field.py` 247-251, 301-315, 2616-2644.
Labels are texts; a label of another kind is printed by Python, which is not modelled. Lower-casing the references in the text (lines 2646-2651) is left to C45.
-/
set_option autoImplicit false
namespace ML

/-- An entry of `whens`: its `sql` and its `label`, if given; field.py 2635-2638. -/
structure WhenDef where
  sql : Option (List Char)
  label : Option (List Char)
  deriving DecidableEq, Repr

/-- The `case` of a dimension: `whens` and `else`, if given; field.py 2635, 2641. -/
structure CaseDef where
  whens : Option (List WhenDef)
  els : Option (List Char)
  deriving DecidableEq, Repr

/-- `when["sql"].replace('"', "'")`, field.py 2637. -/
def singleQuotes (s : List Char) : List Char := s.map (fun c => if c = '"' then '\'' else c)

/-- `when … then '…' `, field.py 2638. -/
def whenText (sql label : List Char) : List Char := "when ".toList ++ singleQuotes sql ++ " then '".toList ++ label ++ "' ".toList

/-- The loop over `whens`, field.py 2635-2639. -/
def whensText : List WhenDef → Res (List Char)
  | [] => .ok []
  | w :: ws =>
    match w.sql with
    | none => .error .keyError
    | some s =>
      match w.label with
      | none => .error .keyError
      | some l =>
        match whensText ws with
        | .error e => .error e
        | .ok t => .ok (whenText s l ++ t)

/-- `_translate_looker_case_to_sql`, field.py 2632-2644. An `else` that is missing or empty is left out. -/
def caseSql (c : CaseDef) : Res (List Char) :=
  match c.whens with
  | none => .error .keyError
  | some ws =>
    match whensText ws with
    | .error e => .error e
    | .ok t => .ok ("case ".toList ++ t ++ (if (c.els.getD []).isEmpty then [] else "else '".toList ++ c.els.getD [] ++ "' ".toList) ++ "end".toList)

/-- What `Field.sql` reads of a dimension: its `sql`, its `case`, its `type` and its `tiers`, a list or not; field.py 247-314. -/
structure DimDef where
  sql : Option (List Char)
  cases : Option CaseDef
  type : String
  tiers : Option (List ℚ)

/-- `Field.sql` of a dimension, field.py 247-251 and 301-315: the text of `sql`, else of `case`; then tiers; then parentheses for yesno. Python prints a boundary as
`num` says. -/
def dimSql (num : ℚ → String) (d : DimDef) : Res (Option (List Char)) :=
  let first : Res (Option (List Char)) :=
    match d.sql, d.cases with
    | some s, _ => .ok (some s)
    | none, some c => (caseSql c).map some
    | none, none => .ok none
  match first with
  | .error e => .error e
  | .ok none => .ok none
  | .ok (some s) =>
    let tiered : Res (List Char) :=
      match d.tiers with
      | some ts => if d.type = "tier" then (tierCase ts).map (fun ws => (tierText num (String.ofList s) ws).toList) else .ok s
      | none => .ok s
    match tiered with
    | .error e => .error e
    | .ok t => .ok (some (if d.type = "yesno" then '(' :: t ++ [')'] else t))

end ML
