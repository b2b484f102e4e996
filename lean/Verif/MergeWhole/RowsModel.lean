import Verif.MergeWhole.Model
import Verif.MergeStmt.SubModel
/-
The sub-queries of a merged query, written as statements.
`/repo/metrics_layer/core/sql/merged_query_resolve.py` 60-79.
-/
set_option autoImplicit false
namespace ML

/-- The statement of one sub-query, merged_query_resolve.py 62-77: the question made of the ids of its metrics and dimensions and of its
conditions, given to the resolver of single queries. `conds` stands for the filters as the resolver reads them: the comparisons, and the
names of the fields in them (query_base.py 41-79); `force` is the user's `force_group_by` (lines 65 and 74). -/
def writeSub (P : AnsProject) (w : Warehouse) (conds : List MWhere → List FObj × List String) (fieldOf : ℕ → String) (force : Bool)
    (a : SubAsk) : Res (Stmt × Warehouse) :=
  match buildStmt P w (subQuestion a.metrics a.dimensions (conds a.wheres).1 (conds a.wheres).2 fieldOf force) with
  | .error e => .error e
  | .ok s => .ok (s, w)

end ML
