import Verif.Column.Model
/-
What the reader of an answer relies on: columns and labels tell fields apart (C79).
-/
set_option autoImplicit false
namespace ML.Spec

/-- Neither name is the other one followed by an underscore and more. -/
def NamesApart (v w : String) : Prop := (∀ t, w ≠ v ++ "_" ++ t) ∧ ∀ t, v ≠ w ++ "_" ++ t

/-- A name as validation asks for, in the small letters it is stored in: letters, digits, underscores. -/
def SmallName (s : String) : Prop := ∀ c ∈ s.toList, ('a'.toNat ≤ c.toNat ∧ c.toNat ≤ 'z'.toNat) ∨ ('0'.toNat ≤ c.toNat ∧ c.toNat ≤ '9'.toNat) ∨ c = '_'

end ML.Spec
