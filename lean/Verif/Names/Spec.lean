import Verif.Names.Model
/-
Specification vocabulary for names (C06).
-/
set_option autoImplicit false
namespace ML

/-- Specification: write the parts back with dots. -/
def Spec.joinParts : NameParts → String
  | (some e, some v, n) => e ++ "." ++ v ++ "." ++ n
  | (none, some v, n) => v ++ "." ++ n
  | (_, none, n) => n

/-- Specification: a text without dots. -/
def Spec.dotFree (s : String) : Prop := '.' ∉ s.toList

end ML
