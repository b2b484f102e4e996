import Verif.Sets.Model
import Verif.Names.Spec
/-
Specification vocabulary for C30.
-/
set_option autoImplicit false
namespace ML.Spec

/-- An entry of a set: a field or a set, included or excluded, perhaps with a view name. -/
structure SetItem where
  minus : Bool
  star : Bool
  view : Option String
  name : String
  deriving DecidableEq, Repr

/-- How an entry is written: `name`, `view.name`, `-name`, `name*`, `-view.name*` and so on. -/
def SetItem.text (i : SetItem) : String :=
  (if i.minus then "-" else "") ++ (match i.view with | some v => v ++ "." ++ i.name | none => i.name) ++
    (if i.star then "*" else "")

/-- A name that can be written: no dot, star or minus in it. -/
def PlainName (s : String) : Prop := '.' ∉ s.toList ∧ '*' ∉ s.toList ∧ '-' ∉ s.toList

/-- The names in an entry are plain, and the view name is not empty. -/
structure SetItem.Ok (i : SetItem) : Prop where
  name : PlainName i.name
  view : ∀ v, i.view = some v → PlainName v ∧ v ≠ ""

/-- The set an entry `name*` or `view.name*` means: the first of that name, in that view or in any. -/
def NamedSet (env : SetEnv) (i : SetItem) (t : SetDef) : Prop :=
  match i.view with
  | some v => ∃ x, env.views.find? (fun x => x.1 = v) = some x ∧ x.2.find? (fun s => s.name = i.name) = some t
  | none => (env.views.flatMap (·.2)).find? (fun s => s.name = i.name) = some t

/-- The field `f` is meant by an entry of `s`. `M t f` says that the set `t` contains `f`. -/
def Means (env : SetEnv) (M : SetDef → String → Prop) (s : SetDef) (i : SetItem) (f : String) : Prop :=
  if i.star then
    if i.view = none ∧ i.name = "ALL_FIELDS" then ∃ l, env.allFields s.viewName = .ok l ∧ f ∈ l
    else ∃ t, NamedSet env i t ∧ M t f
  else
    ∃ v, (i.view = some v ∨ (i.view = none ∧ s.viewName = some v)) ∧ f = v ++ "." ++ i.name

/-- The set in question and all sets of the project. -/
def setsAround (env : SetEnv) (s₀ : SetDef) : List SetDef := s₀ :: env.views.flatMap (·.2)

/-- Set algebra: a set contains exactly what its entries without a minus mean and its entries with a minus
do not mean, wherever these stand. -/
def SetAlgebra (env : SetEnv) (s₀ : SetDef) (items : SetDef → List SetItem) (M : SetDef → String → Prop) : Prop :=
  ∀ s ∈ setsAround env s₀, ∀ f, M s f ↔ (∃ i ∈ items s, i.minus = false ∧ Means env M s i f) ∧
    ¬ ∃ i ∈ items s, i.minus = true ∧ Means env M s i f

/-- The sets are written with these entries. -/
def WrittenAs (env : SetEnv) (s₀ : SetDef) (items : SetDef → List SetItem) : Prop :=
  ∀ s ∈ setsAround env s₀, s.fields = (items s).map SetItem.text ∧ ∀ i ∈ items s, i.Ok

/-- No set refers to itself, directly or through others: every reference goes down in `rank`. -/
def NoCycle (env : SetEnv) (s₀ : SetDef) (items : SetDef → List SetItem) (rank : SetDef → ℕ) : Prop :=
  ∀ s ∈ setsAround env s₀, ∀ i ∈ items s, i.star = true → ∀ t, NamedSet env i t → rank t < rank s

/-- Every field entry has a view, its own or that of the set, and the fields of the view can be listed. -/
def Resolvable (env : SetEnv) (s₀ : SetDef) (items : SetDef → List SetItem) : Prop :=
  ∀ s ∈ setsAround env s₀, ∀ i ∈ items s,
    (i.star = false → i.view = none → ∃ v, s.viewName = some v ∧ v ≠ "") ∧
    (i.star = true → i.name = "ALL_FIELDS" → ∃ l, env.allFields s.viewName = .ok l)

end ML.Spec
