import Verif.Basic
/-
`${...}` references in texts: metrics_layer/core/model/base.py 88-92.
-/
set_option autoImplicit false
namespace ML

/-- The shortest text before a `}` that contains no line break: what `(.*?)\}` matches. base.py 93. -/
def untilBrace : List Char → Option (List Char)
  | [] => none
  | c :: cs =>
    if c = '}' then some []
    else if c = '\n' then none
    else (untilBrace cs).map (c :: ·)

/-- The scan of `re.finditer(r"\$\{(.*?)\}", text)`; `skip` characters of a match remain. base.py 93. -/
def refsGo : Nat → List Char → List (List Char)
  | _, [] => []
  | skip + 1, _ :: cs => refsGo skip cs
  | 0, c :: cs =>
    match c, cs with
    | '$', '{' :: rest =>
      match untilBrace rest with
      | some g => g :: refsGo (g.length + 2) cs
      | none => refsGo 0 cs
    | _, _ => refsGo 0 cs

/-- `SQLReplacement.fields_to_replace`, base.py 88-92. -/
def fieldsToReplace (text : List Char) : List (List Char) := refsGo 0 text

/-- `"${" + name + "}"`. field.py 2550-2603. -/
def refText (name : List Char) : List Char := '$' :: '{' :: name ++ ['}']

end ML
