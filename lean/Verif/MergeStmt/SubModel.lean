import Verif.MergeStmt.Model
/-
The sub-queries of a merged query, as questions of area `Answer`, and their answers as the tables that the merged statement joins.
`/repo/metrics_layer/core/sql/merged_query_resolve.py` 47-79, `/repo/metrics_layer/core/sql/query_merged_results.py` 18-24.
-/
set_option autoImplicit false
namespace ML
open Spec

/-- The query of one sub-query, merged_query_resolve.py 60-76: its metrics, dimensions and filters, no HAVING, no ordering, no limit;
`force_group_by` is the user's (lines 65 and 74). Filters with a `group_by` key are left out of the model. -/
def subQuestion (metrics dimensions : List String) (wheres : List FObj) (whereNames : List String) (fieldOf : Nat → String) (force : Bool) :
    Question where
  metrics := metrics
  dimensions := dimensions
  wheres := wheres
  havings := []
  whereNames := whereNames
  havingNames := []
  orderNames := []
  groupFilters := []
  order := .json []
  limit := none
  force := force
  fieldOf := fieldOf

/-- A line of a sub-query's answer, read by column names, query_merged_results.py 18-24: the value at the place of the column. -/
def namedRow (columns : List String) (line : List Val) : MRow ℚ := fun c => (line[columns.idxOf c]?).join

end ML
