import Verif.Slice.Spec
/-
What the ordering says of two answers to a query (C84).
-/
set_option autoImplicit false
namespace ML.Spec

/-- What a line shows in the columns of the ordering. -/
def orderValues (cols : List (Nat × Bool)) (line : List Val) : List Val := cols.map (fun c => (line[c.1]?).join)

/-- Every dimension of the query is in its ordering. -/
def OrdersByAll (P : AnsProject) (w : Warehouse) (q : Question) : Prop := ∀ d ∈ q.dimensions, ∃ o ∈ askedOrder w q, P.get o.1 = P.get d

/-- The query orders by columns, and has no filter with a group_by. -/
structure OrdersByColumns (w : Warehouse) (q : Question) : Prop where
  groups : q.groupFilters = []
  order : (∀ t, q.order ≠ .text t) ∧ ∀ o ∈ askedOrder w q, o.1 ≠ "__DEFAULT__"

end ML.Spec
