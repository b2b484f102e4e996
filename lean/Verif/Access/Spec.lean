import Verif.Access.Model
import Verif.Names.Lemmas
/-
Specification vocabulary for access control and lookup (C01, C02, C05, C07).
Nothing here calls the functions of the model except `lower` and `fieldNameParts`.
-/
set_option autoImplicit false
namespace ML.Spec

/-- `g` is the grant the name `n` stands for: the first one declared under that name, in model
order. -/
def Declares (P : Proj) (n : String) (g : Grant) : Prop :=
  ∃ pre post, P.models.flatMap (·.accessGrants) = pre ++ g :: post ∧ g.name = n ∧
    ∀ x ∈ pre, x.name ≠ n

/-- The user has value `v` for attribute `a`: the first entry for `a` holds `v`. -/
def HasAttr (u : User) (a v : String) : Prop :=
  ∃ pre post, u = pre ++ (a, some v) :: post ∧ ∀ x ∈ pre, x.1 ≠ a

/-- The grant lets the user through: they lack the attribute or have an allowed value. -/
def Passes (u : User) (g : Grant) : Prop :=
  ∀ v, HasAttr u g.userAttr v → v ∈ g.allowed

/-- Every grant name in the list is declared by some model. -/
def AllDeclared (P : Proj) (req : List String) : Prop := ∀ n ∈ req, ∃ g, Declares P n g

/-- An object requiring the grants `req` is visible. -/
def Visible (P : Proj) (req : List String) : Prop :=
  ∀ u, P.user = some u → ∀ n ∈ req, ∃ g, Declares P n g ∧ Passes u g

/-- The object is denied: all its grants are known, and one of them stops the user. -/
def Denied (P : Proj) (req : List String) : Prop :=
  AllDeclared P req ∧ ∃ u, P.user = some u ∧ ∃ n ∈ req, ∃ g, Declares P n g ∧ ¬ Passes u g

/-- No view, field or dashboard of the project requires an undeclared grant. -/
def WellFormed (P : Proj) : Prop :=
  (∀ v ∈ P.views, AllDeclared P v.grants ∧ ∀ f ∈ v.fields, AllDeclared P f.grants) ∧
  ∀ d ∈ P.dashboards, AllDeclared P d.grants

/-- The field objects one definition stands for, in a lookup that expands dimension groups. -/
def Expansion (v : ViewDef) (d : FieldDef) (f : Field) : Prop :=
  f.viewName = lower v.name ∧ f.name = lower d.name ∧ f.fieldType = d.fieldType ∧ f.typ = d.typ ∧
  f.primaryKey = d.primaryKey ∧ f.tags = d.tags ∧
  ((d.fieldType ≠ .dimensionGroup ∧ f.dimGroup = none ∧ f.hidden = d.hidden) ∨
   (d.fieldType = .dimensionGroup ∧ ∃ t ∈ d.timeframes, f.dimGroup = some t ∧
      f.hidden = (d.hidden || t == "raw")) ∨
   (d.fieldType = .dimensionGroup ∧ d.timeframes = [] ∧ ∃ i ∈ d.intervals,
      f.dimGroup = some (i ++ "s") ∧ f.hidden = d.hidden))

/-- `f` is a field of the project the user may see. -/
def VisibleField (P : Proj) (f : Field) : Prop :=
  ∃ v ∈ P.views, Visible P v.grants ∧ ∃ d ∈ v.fields, Visible P d.grants ∧ Expansion v d f

/-- The name a field is asked for by: `created_date`, `days_between`, `total`. -/
def FieldCalled (f : Field) (n : String) : Prop :=
  (f.fieldType = .dimensionGroup ∧ f.typ = "time" ∧ ∃ t, f.dimGroup = some t ∧ n = f.name ++ "_" ++ t) ∨
  (f.fieldType = .dimensionGroup ∧ f.typ = "duration" ∧
      ∃ t, f.dimGroup = some t ∧ n = t ++ "_" ++ f.name) ∨
  ((f.fieldType ≠ .dimensionGroup ∨ (f.typ ≠ "time" ∧ f.typ ≠ "duration")) ∧ n = f.name)

/-- The project with every denied view, field and dashboard deleted. `k` and `kf` decide what is
kept. -/
def Restricts (P Q : Proj) : Prop :=
  ∃ (kv : List String → Bool),
    (∀ r, kv r = false ↔ Denied P r) ∧
    Q.models = P.models ∧ Q.user = P.user ∧
    Q.views = (P.views.filter (fun v => kv v.grants)).map
      (fun v => { v with fields := v.fields.filter (fun f => kv f.grants) }) ∧
    Q.dashboards = P.dashboards.filter (fun d => kv d.grants)

end ML.Spec
