import Verif.Dump.Model
/-
The table of a view: model/view.py 57-66 and 1008-1047. A table name can be a plain text, a dbt reference, or a text with
one table per environment: `-- if dev -- dev_db.orders -- if prod -- live.orders`.
-/
set_option autoImplicit false
namespace ML

/-- The part `([^--]*)--` of the expressions of view.py 1025 and 1038: everything up to the first `-`, which must begin `--`. The
result: what is matched by the group, and what follows. -/
def upToDashes (s : List Char) : Option (List Char × List Char) :=
  match s.span (· ≠ '-') with
  | (c, '-' :: '-' :: rest) => some (c, rest)
  | _ => none

/-- `re.findall("-- if([^--]*)--", text)`, view.py 1025; `skip` characters of a match remain. -/
def findCondsGo : ℕ → List Char → List (List Char)
  | _, [] => []
  | skip + 1, _ :: cs => findCondsGo skip cs
  | 0, c :: cs =>
    if isPrefix "-- if".toList (c :: cs) then
      match upToDashes ((c :: cs).drop 5) with
      | some (cond, _) => cond :: findCondsGo (cond.length + 6) cs
      | none => findCondsGo 0 cs
    else findCondsGo 0 cs

/-- `re.search(everything_between, text)`, view.py 1038-1041: the text of the group. Simplification: the phrase, which the code uses
as a regular expression, is taken literally; it contains no special characters. -/
def searchBetween (phrase : List Char) : List Char → Option (List Char)
  | [] => none
  | c :: cs =>
    if isPrefix phrase (c :: cs) then
      match upToDashes ((c :: cs).drop phrase.length) with
      | some (t, _) => some t
      | none => searchBetween phrase cs
    else searchBetween phrase cs

/-- `re.search(everything_after, text)`, view.py 1039 and 1044, on a text without line ends: what follows the first occurrence of
the phrase. The phrase is taken literally, as above. -/
def searchAfter (phrase : List Char) : List Char → Option (List Char)
  | [] => none
  | c :: cs => if isPrefix phrase (c :: cs) then some ((c :: cs).drop phrase.length) else searchAfter phrase cs

/-- `_resolve_conditional_sql_table_name`, view.py 1021-1047. The whole match is `phrase + group + "--"`. -/
def resolveConditional (s : List Char) (env : Option (List Char)) : Res (List Char) :=
  match (findCondsGo 0 s).find? (fun c => decide (some (strip c) = env)) with
  | none => .error .query
  | some cond =>
    let phrase := "-- if".toList ++ cond ++ "--".toList
    let text := s.filter (fun c => c != '\n')
    match searchBetween phrase text with
    | some t => .ok (strip (replaceAll "--".toList [] (phrase ++ t ++ "--".toList)))
    | none =>
      match searchAfter phrase text with
      | some t => .ok (strip t)
      | none => .ok s

/-- `resolve_sql_table_name`, view.py 1008-1018, with `resolve_dbt_ref`, project.py 578-587. -/
def resolveTableName (env : Option String) (manifest : Option (List (String × DbtNode))) (schema : Option String) (s : String) : Res String :=
  if containsSub "-- if".toList s.toList then (resolveConditional s.toList (env.map String.toList)).map String.ofList
  else if containsSub "ref(".toList s.toList then resolveDbtRef manifest schema (String.ofList (refArgument s.toList))
  else .ok s

end ML
