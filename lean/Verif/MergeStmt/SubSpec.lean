import Verif.MergeStmt.SubModel
import Verif.MergeStmt.Spec
import Verif.Answer.Spec
/-
What the user of a merged query relies on, down to the rows of the warehouse (C60).
-/
set_option autoImplicit false
namespace ML.Spec

section
variable {ρ : Type}

/-- The sub-query `h` of the merged query asks for the dimensions `ds` and the metrics `ms`, whose columns differ, groups, and the
table joined under its name is the warehouse's answer to it, from the tables of `views`. -/
structure AnswersSub (P : AnsProject) (w : Warehouse) (D : Db ρ) (d : MergedDef) (db : String → List (MRow ℚ)) (h : String)
    (views : List String) (q : Question) (ds ms : List AnsField) : Prop where
  asked : ∃ names fields force, q = subQuestion q.metrics q.dimensions q.wheres names fields force
  proper : Proper P q ds ms
  grouped : GroupsRows q ds ms
  labels : ((ds ++ ms).map AnsField.label).Nodup
  dimensions : (dimsOf d.src h).map MDim.column = ds.map AnsField.label
  metrics : dictGet d.metrics h = some (ms.map AnsField.label) ∨ dictGet d.metrics h = none ∧ ms = []
  answer : ∃ s out, buildStmt P w q = .ok s ∧ s.block.views = views ∧ s.Answers D out ∧ db h = out.map (namedRow ((ds ++ ms).map AnsField.label))

/-- The combination `k` occurs in the sub-query: a row of the warehouse that passes its filters and the access filters has these values. -/
def Occurs (P : AnsProject) (w : Warehouse) (D : Db ρ) (views : List String) (q : Question) (ds : List AnsField) (k : List ℚ) : Prop :=
  ∃ r ∈ D.rows views, PassesWhere D P w views q r ∧ ds.map (fun f => valueOf D.engine w (P.fpk views) f [r]) = k.map some

/-- `v` is the metric `m` for the combination `k`: its aggregate over exactly the rows that pass and have these values; NULL if there are
none. -/
def MetricFor (P : AnsProject) (w : Warehouse) (D : Db ρ) (views : List String) (q : Question) (ds : List AnsField) (m : AnsField)
    (k : List ℚ) (v : Val) : Prop :=
  ∃ G, Behind (PassesWhere D P w views q) (fun r => ds.map (fun f => valueOf D.engine w (P.fpk views) f [r])) (D.rows views)
      (k.map some) G ∧
    (G = [] → v = none) ∧ (G ≠ [] → v = valueOf D.engine w (P.fpk views) m G)

/-- The rows that pass the filters of the sub-query have values in all its dimensions. -/
def NoNulls (P : AnsProject) (w : Warehouse) (D : Db ρ) (views : List String) (q : Question) (ds : List AnsField) : Prop :=
  ∀ r ∈ D.rows views, PassesWhere D P w views q r → ∀ f ∈ ds, valueOf D.engine w (P.fpk views) f [r] ≠ none

end
end ML.Spec
