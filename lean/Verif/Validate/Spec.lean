import Verif.Validate.Model
/-
Specification vocabulary for C47: what counts as a problem of a project.
-/
set_option autoImplicit false
namespace ML.Spec

/-- `m` is the message of a problem one of the checks finds in the project. -/
inductive Problem (p : VProject) : String → Prop
  | model {es : List Report} {r : Report} : .ok es ∈ p.models → r ∈ es → Problem p r.message
  | graph {es : List Report} {r : Report} : p.graph = .ok es → r ∈ es → Problem p r.message
  | tag {e : String} : some e ∈ p.tags → Problem p e
  | noAccessFilter {v : VView} {a : String} : v ∈ p.views → a ∈ p.required →
      v.accessFilters = [] →
      Problem p ("View " ++ v.name ++ " does not have any access filters, but an access filter"
               ++ " with user attribute " ++ a ++ " is required.")
  | missingAccessFilter {v : VView} {a : String} : v ∈ p.views → a ∈ p.required →
      v.accessFilters ≠ [] → a ∉ v.accessFilters →
      Problem p ("View " ++ v.name ++ " does not have an access filter with the required user"
               ++ " attribute " ++ a)
  | table {v : VView} {e : String} : v ∈ p.views → v.tableError = some e →
      Problem p (e ++ " in the view " ++ v.name)
  | refsRaise {v : VView} {e : String} : v ∈ p.views → v.references = .error e →
      Problem p (e ++ " in the view " ++ v.name)
  | ref {v : VView} {bs : List BadRef} {b : BadRef} : v ∈ p.views → v.references = .ok bs →
      b ∈ bs → b.personal = false →
      Problem p ("Could not locate reference " ++ b.reference ++ " in field " ++ b.field
        ++ " in view " ++ v.name)
  | personalRef {v : VView} {bs : List BadRef} {b : BadRef} : v ∈ p.views →
      v.references = .ok bs → b ∈ bs → b.personal = true →
      Problem p ("Warning: Could not locate reference " ++ b.reference ++ " in field " ++ b.field
        ++ " in view " ++ v.name)
  | view {v : VView} {r : Report} : v ∈ p.views → r ∈ v.errors → Problem p r.message
  | dash {d : VDash} {r : Report} : d ∈ p.dashboards → r ∈ d.errors → Problem p r.message
  | dashName {n : String} : 2 ≤ (p.dashboards.map (·.name)).count n →
      Problem p ("Dashboard name " ++ n ++ " appears "
        ++ toString ((p.dashboards.map (·.name)).count n)
        ++ " times, make sure dashboard names are unique")

/-- The checks can run to the end: every model and the join graph can be built. -/
def Buildable (p : VProject) : Prop :=
  (∀ m ∈ p.models, ∃ es, m = .ok es) ∧ ∃ es, p.graph = .ok es

/-- The references of every view can be collected. -/
def RefsCollectable (p : VProject) : Prop := ∀ v ∈ p.views, ∃ bs, v.references = .ok bs

/-- The first element of `l` with each message, in order. -/
def FirstOfEach (l out : List Report) : Prop :=
  out.Sublist l ∧ (out.map (·.message)).Nodup ∧
  ∀ pre r post, l = pre ++ r :: post → (∀ q ∈ pre, q.message ≠ r.message) → r ∈ out

end ML.Spec
