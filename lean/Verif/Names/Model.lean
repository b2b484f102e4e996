import Verif.Basic
/-
Names: `metrics_layer/core/model/base.py`.
-/
set_option autoImplicit false
namespace ML

/-- Result of `field_name_parts`: (explore name, view name, field name). base.py 70-79. -/
abbrev NameParts := Option String × Option String × String

/-- `MetricsLayerBase.field_name_parts`, base.py 70-79.
Two dots: three parts; one dot: two parts; any other count: the whole text is the name. -/
def fieldNameParts (s : String) : NameParts :=
  if s.toList.count '.' = 2 then
    match splitChars '.' s.toList with
    | [e, v, n] => (some (String.ofList e), some (String.ofList v), String.ofList n)
    | _ => (none, none, s)      -- unreachable, see `fieldNameParts_three`
  else if s.toList.count '.' = 1 then
    match splitChars '.' s.toList with
    | [v, n] => (none, some (String.ofList v), String.ofList n)
    | _ => (none, none, s)      -- unreachable, see `fieldNameParts_two`
  else (none, none, s)

/-- The character class of `NAME_REGEX`, base.py 7. -/
def isNameChar (c : Char) : Bool :=
  ('A' ≤ c && c ≤ 'Z') || ('a' ≤ c && c ≤ 'z') || ('0' ≤ c && c ≤ '9') || c = '_'

/-- `MetricsLayerBase.valid_name`, base.py 23-28: greedy match of `[A-Za-z0-9_]+` at the start,
then comparison of the match with the whole name. -/
def validName (s : String) : Bool :=
  let m := s.toList.takeWhile isNameChar
  if m.isEmpty then false else m == s.toList

end ML
