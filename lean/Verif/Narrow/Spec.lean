import Verif.Slice.Spec
import Verif.Drill.Spec
/-
A query with a further filter beside the query without it (C90).
-/
set_option autoImplicit false
namespace ML.Spec

section
variable {ρ : Type}

/-- How the value of a metric on some of the rows compares with its value on all of them: a count, of rows or of different values, is at most as large (a missing count is a zero),
a maximum at most and a minimum at least as large, if there is one. Sums, averages and medians can be larger or smaller. -/
def FromFewer (t : MeasureType) (some_ all : Val) : Prop :=
  match t with
  | .count | .countDistinct => 0 ≤ some_.getD 0 ∧ some_.getD 0 ≤ all.getD 0
  | .max => ∀ x, some_ = some x → ∃ y, all = some y ∧ x ≤ y
  | .min => ∀ x, some_ = some x → ∃ y, all = some y ∧ y ≤ x
  | _ => True

/-- The second query is the first one with a further filter. -/
structure Adds (q q' : Question) (x : FObj) : Prop where
  wheres : q'.wheres = q.wheres ++ [x]
  havings : q'.havings = q.havings
  fieldOf : q'.fieldOf = q.fieldOf

/-- The filter is true of the row. -/
def Holds (D : Db ρ) (P : AnsProject) (w : Warehouse) (views : List String) (q : Question) (x : FObj) (r : ρ) : Prop :=
  meaning (compared D P w (P.fpk views) q.fieldOf [r]) x = .t

/-- Of every row that the query reads, one of the two filters is true and the other is not. -/
def Splits (D : Db ρ) (P : AnsProject) (w : Warehouse) (q : Question) (x y : FObj) : Prop :=
  ∀ views, QueryViews P q views → ∀ r ∈ D.rows views, PassesWhere D P w views q r → (Holds D P w views q x r ↔ ¬ Holds D P w views q y r)

end
end ML.Spec
