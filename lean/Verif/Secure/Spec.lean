import Verif.Secure.Model
import Verif.Answer.Spec
import Verif.Joined.Spec
import Verif.Access.Spec
/-
What a user may see of the tables (C80).
-/
set_option autoImplicit false
namespace ML.Spec

section
variable {ρ : Type}

/-- The access filter lets the user see row `r` of view `v`: if the user has the attribute, all its comparisons with the user's value are true of the row.
A filter on a field of another view says nothing of the row. -/
def Allows (S : SecProject) (E : Engine (JRow ρ)) (test : Nat → Val → TV) (af : AccessFilter) (v : String) (r : ρ) : Prop :=
  ∀ u value, S.user = some u → HasAttr u af.userAttr value → value ≠ "" →
    ∀ f s, S.get af.field = .ok f → f.view = v → f.sql = .dimension s → ∀ i ∈ S.cmp af.field value, test i (E.value [(v, r)] s) = .t

/-- The user may see row `r` of view `v`: its view's access filters allow it. -/
def MaySee (S : SecProject) (E : Engine (JRow ρ)) (test : Nat → Val → TV) (v : String) (r : ρ) : Prop :=
  ∀ af ∈ S.filters v, Allows S E test af v r

/-- The row of `v` is let through by all access filters of the given views. -/
def MaySeeFor (S : SecProject) (E : Engine (JRow ρ)) (test : Nat → Val → TV) (views : List String) (v : String) (r : ρ) : Prop :=
  ∀ u ∈ views, ∀ af ∈ S.filters u, Allows S E test af v r

/-- The two tables have the same rows for whom `see` holds, in the same order; they may differ in all others. -/
def SameRows (see : ρ → Prop) (a b : List ρ) : Prop :=
  ∃ p : ρ → Bool, (∀ r, p r = true ↔ see r) ∧ a.filter p = b.filter p

/-- The column of a dimension is computed from the row of its view, and NULL where there is none. -/
def OwnColumn (E : Engine (JRow ρ)) (f : AnsField) : Prop :=
  ∃ s, f.sql = .dimension s ∧ ∀ row, E.value row s = (dictGet row f.view).bind (fun r => E.value [(f.view, r)] s)

/-- The access filters of the project can be used: each is on a dimension, computed from the rows of its view, none of its comparisons is true of NULL,
and comparisons are numbered so that number `i` is on the filter's field, and is not the one of a group filter of the question. -/
structure Filterable (S : SecProject) (E : Engine (JRow ρ)) (test : Nat → Val → TV) (q : Question) : Prop where
  known : ∀ v, ∀ af ∈ S.filters v, ∃ f, S.get af.field = .ok f ∧ OwnColumn E f
  null : ∀ v, ∀ af ∈ S.filters v, ∀ value, ∀ i ∈ S.cmp af.field value, test i none ≠ .t
  numbered : ∀ v, ∀ af ∈ S.filters v, ∀ value, ∀ i ∈ S.cmp af.field value, q.fieldOf i = af.field ∧ ∀ g ∈ q.groupFilters, i ≠ g.comparison

/-- The lists of views for which the query builds a FROM: that of its fields, and for a filter with a group_by those of the entity and of the field. -/
def BuildsFrom (S : SecProject) (q : Question) (views : List String) : Prop :=
  QueryViews S.answers q views ∨ ∃ g ∈ q.groupFilters, ∃ d m, S.get g.groupBy = .ok d ∧ S.get g.field = .ok m ∧ views = [d.view, m.view].dedup

end
end ML.Spec
