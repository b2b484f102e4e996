import Verif.Slice.Spec
/-
One query asked of two states of the data (C85).
-/
set_option autoImplicit false
namespace ML.Spec

section
variable {ρ : Type}

/-- Two states of the data in one warehouse: the same expressions and comparisons, other rows. -/
structure SameWarehouse (D D' : Db ρ) : Prop where
  engine : D'.engine = D.engine
  test : D'.test = D.test

/-- The conditions of the query on groups are on metrics. -/
def HavingsOnMetrics (P : AnsProject) (q : Question) : Prop :=
  ∀ l ∈ leavesList q.havings, ∀ i ∈ l.first :: l.rest, ∃ f m, P.get (q.fieldOf i) = .ok f ∧ f.sql = .measure m

/-- The values of the dimensions on a row. -/
def dimensionsOf (D : Db ρ) (w : Warehouse) (fpk : FunctionalPk) (ds : List AnsField) (r : ρ) : List Val := ds.map (fun d => valueOf D.engine w fpk d [r])

/-- The two states have, in whatever order, the same rows that pass the query's filters and have the values `k` of the dimensions. -/
def SameBehind (D D' : Db ρ) (P : AnsProject) (w : Warehouse) (q : Question) (ds : List AnsField) (k : List Val) : Prop :=
  ∀ views G G', QueryViews P q views → Behind (PassesWhere D P w views q) (dimensionsOf D w (P.fpk views) ds) (D.rows views) k G →
    Behind (PassesWhere D' P w views q) (dimensionsOf D' w (P.fpk views) ds) (D'.rows views) k G' → G.Perm G'

end
end ML.Spec
