import Verif.ArbAnswer.Named
import Verif.ArbAnswer.Spec
import Verif.Answer.Spec
/- What it is for a table to be the answer of a sub-query of a merge (C91), in the words of C55. -/
set_option autoImplicit false
namespace ML
namespace Spec
variable {ρ : Type}

/-- The names of a sub-query's fields are names of these fields, and their columns have the labels of these fields. -/
def Labelled (env : ArbEnv) : List String → List AnsField → Prop :=
  List.Forall₂ (fun n d => ∃ f, env.get n = .ok f ∧ f.aliasName = d.label)

/-- `table` is what the warehouse with data `D` answers to a question that groups by the dimensions of the sub-query and shows its
metrics; filters, order and limit are as they come. -/
def SubAnswer (P : AnsProject) (w : Warehouse) (D : Db ρ) (env : ArbEnv) (sub : SubQ) (table : List (MLine ℚ)) : Prop :=
  ∃ q s ds ms out, buildStmt P w q = .ok s ∧ s.Answers D out ∧
    Proper P q ds ms ∧ GroupsRows q ds ms ∧ ds ≠ [] ∧ q.groupFilters = [] ∧
    (∀ t, q.order ≠ .text t) ∧ (∀ o ∈ askedOrder w q, o.1 ≠ "__DEFAULT__") ∧
    (q.limit ≠ some 0 ∨ w ≠ .sqlServer ∧ w ≠ .azureSynapse) ∧
    (ds.map AnsField.label).Nodup ∧ Labelled env sub.dimensions ds ∧ Labelled env sub.metrics ms ∧
    table = out.map (byName (ds.map AnsField.label ++ ms.map AnsField.label))

end Spec
end ML
