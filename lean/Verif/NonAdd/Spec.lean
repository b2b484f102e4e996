import Verif.NonAdd.Model
/- What "the metric's definition is unchanged" means, without addresses. -/
set_option autoImplicit false
namespace ML.Spec

/-- A non-additive dimension as its author reads it: every name with its view. -/
structure Written where
  name : String
  choice : String
  aware : Bool
  groups : Option (List String)
  deriving DecidableEq, Repr

/-- The definition of metric `id` in a state: names qualified with the metric's view, groupings as a list. -/
def written (view : String → String) (s : NStore) (id : String) : Option Written :=
  (s.defs id).map (fun d => ⟨qualifyIn (view id) d.name, d.choice, d.aware,
    d.groups.map (fun a => (s.heap[a]?.getD []).map (qualifyIn (view id)))⟩)

/-- A state as it is after loading a project in which every list of groupings that is given has an element: each list exists and
belongs to one metric (`json.loads` shares nothing, project.py 138). -/
structure Loaded (s : NStore) : Prop where
  lists : ∀ id d a, s.defs id = some d → d.groups = some a → ∃ l, s.heap[a]? = some l ∧ l ≠ []
  own : ∀ id d id' d' a, s.defs id = some d → s.defs id' = some d' → d.groups = some a → d'.groups = some a → id = id'

/-- No field of the view has the name, in any letter case. -/
def TempFree (fs : List (String × List String)) (view name : String) : Prop :=
  ∀ p ∈ fs, p.1 = view → ∀ f ∈ p.2, lower f ≠ lower name

/-- The temporary measure a query makes for a definition, `max_order_date` for the latest `order_date`, does not have the name of
a field of the view it is put into. -/
def NoClash (env : NEnv) (s : NStore) (q : NQuery) : Prop :=
  ∀ id ∈ q.metrics, ∀ w, written env.view s id = some w →
    TempFree s.fields (env.dimView w.name) (w.choice ++ "_" ++ lastPart w.name)

/-- Every query of the history is answered. -/
def Answered (env : NEnv) : NStore → List NQuery → Prop
  | _, [] => True
  | s, q :: qs => (∃ o, (runNonAdd env s q).2 = .ok o) ∧ Answered env (runNonAdd env s q).1 qs

end ML.Spec
