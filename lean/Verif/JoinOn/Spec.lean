import Verif.JoinOn.Model
import Verif.Refs.Spec
import Verif.FieldCheck.Spec
/-
Specification vocabulary for C73: what a reference of a join condition stands for.
-/
set_option autoImplicit false
namespace ML.Spec

/-- The reference is written `view.field` or `explore.view.field`. -/
def RefNames (ref : List Char) (view field : String) : Prop :=
  '.' ∉ view.toList ∧ '.' ∉ field.toList ∧
  (ref = view.toList ++ '.' :: field.toList ∨ ∃ e : List Char, '.' ∉ e ∧ ref = e ++ '.' :: (view.toList ++ '.' :: field.toList))

/-- The reference names no view: it has no dot, or more than two. -/
def NoView (ref : List Char) : Prop := ref.count '.' = 0 ∨ 2 < ref.count '.'

/-- The reference stands for this SQL: that of the field it names. -/
def RefStandsFor (env : JoinEnv) (ref sql : List Char) : Prop :=
  ∃ v f name, RefNames ref v f ∧ env.getView v = .ok name ∧ env.getField f name = .ok () ∧ env.sqlQuery f name = .ok sql

/-- What is wrong with a reference. -/
inductive RefWrong (env : JoinEnv) (ref : List Char) : JoinProblem → Prop
  | noView (h : NoView ref) : RefWrong env ref (.noView (String.ofList ref))
  | unknownView (v f : String) (h : RefNames ref v f) (hv : ∃ e, env.getView v = .error e) : RefWrong env ref (.unknownView v)
  | unknownField (v f name : String) (h : RefNames ref v f) (hv : env.getView v = .ok name) (hf : ∃ e, env.getField f name = .error e) :
      RefWrong env ref (.unknownField v f)

/-- The ways to say how two views are joined. -/
inductive JoinWay
  | condition | key | sql | cross

/-- The definition says in this way how the views are joined. -/
def JoinsBy (d : FDef) : JoinWay → Prop
  | .condition => HasKey d "sql_on"
  | .key => HasKey d "foreign_key"
  | .sql => HasKey d "sql"
  | .cross => Given d "type" (.str "cross")

end ML.Spec
