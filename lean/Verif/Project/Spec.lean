import Verif.Project.Model
/-
Specification vocabulary for the project state machine (C08-C11).
-/
set_option autoImplicit false
namespace ML.Spec

/-- A field definition with its name in lower case. -/
def lowName (f : FieldDef) : FieldDef := { f with name := lower f.name }

/-- A view with all its field names in lower case. -/
def lowView (v : ViewDef) : ViewDef := { v with fields := v.fields.map lowName }

/-- A project with all field names in lower case. -/
def lowProj (P : Proj) : Proj := { P with views := P.views.map lowView }

/-- Two projects that differ at most in the letter case of field names. -/
def SameUpToCase (P Q : Proj) : Prop := lowProj P = lowProj Q

/-- The heap references a caller's program names. -/
def refs : Prog → List Nat
  | .skip => []
  | .op (.mutate r _) => [r]
  | .op _ => []
  | .seq p q => refs p ++ refs q
  | .replace objs p => objs ++ refs p
  | .attempt p => refs p

/-- Every reference the project holds points to an object. -/
def Closed {G : Type} (s : PState G) : Prop :=
  ∀ r, r ∈ s.models ∨ r ∈ s.views ∨ r ∈ s.dashboards → r < s.heap.length

/-- What a reading call would answer if nothing were cached. Calls that do not read give nothing. -/
def uncached {G : Type} (build : Proj → Res G) (P : Proj) : Op → Option (Out G)
  | .fields a =>
    match projFields P a.viewName a.showHidden a.expand with
    | .ok fs => some (.fields fs)
    | .error e => some (.err e)
  | .lookup k n v =>
    match (match k with
      | .field => getField P n v
      | .byName => getFieldByName P n v
      | .byTag => getFieldByTag P n v) with
    | .ok f => some (.field f)
    | .error e => some (.err e)
  | .graph =>
    match build P with
    | .ok g => some (.graph g)
    | .error e => some (.err e)
  | _ => none

/-- Calls that keep the default `refresh_cache=True`, do not edit dictionaries behind the project's
back, and never set the empty dictionary as user. -/
def Disciplined : Prog → Prop
  | .skip => True
  | .op (.addField _ _ r) => r = true
  | .op (.removeField _ _ r) => r = true
  | .op (.setUser u) => u ≠ some []
  | .op (.mutate _ _) => False
  | .op _ => True
  | .seq p q => Disciplined p ∧ Disciplined q
  | .replace _ p => Disciplined p
  | .attempt p => Disciplined p

/-- The program never changes the user. -/
def KeepsUser : Prog → Prop
  | .skip => True
  | .op (.setUser _) => False
  | .op _ => True
  | .seq p q => KeepsUser p ∧ KeepsUser q
  | .replace _ p => KeepsUser p
  | .attempt p => KeepsUser p

end ML.Spec
