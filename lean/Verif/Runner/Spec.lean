import Verif.Runner.Model
/-
Connections that are opened and closed, and what is sent over them (C88).
-/
set_option autoImplicit false
namespace ML.Spec

/-- The calls of the driver that were made, in turn, each with what it raised (`none`: it did what it should). -/
abbrev DriverTrace := List (DriverCall × Option Err)

/-- The texts the warehouse was given, whether or not it accepted them. -/
def sentTexts (tr : DriverTrace) : List String :=
  tr.filterMap fun x => match x.1 with
    | .execute t _ => some t
    | _ => none

/-- After these calls a connection is open: one was made and has not been closed since. -/
def OpenAfter (tr : DriverTrace) : Prop := ∃ before args after, tr = before ++ (DriverCall.connect args, none) :: after ∧ (DriverCall.close, none) ∉ after

/-- A text was refused by the warehouse. -/
def QueryFailed (tr : DriverTrace) : Prop := ∃ t o e, (DriverCall.execute t o, some e) ∈ tr

/-- The arguments are these attributes of the connection, each under its name. -/
def Credentials (c : Conn) (args : Kw) (l : List (String × String)) : Prop :=
  ∀ x ∈ l, ∃ v, dictGet args x.1 = some v ∧ dictGet c.attrs x.2 = some v

end ML.Spec
