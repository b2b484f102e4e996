import Verif.Refs.Model
/-
The SQL of metrics that are defined by other metrics, to any depth.
`/repo/metrics_layer/core/model/field.py` 496-536 and 799-817.
-/
set_option autoImplicit false
namespace ML

/-- What `sql_query` reads of a metric, field.py 496-536: its view, whether it is of type number, its `sql`, and for the other types the aggregate
(field.py 580-797, a parameter here: C21, C22 and C26). -/
structure MetricField where
  view : List Char
  isNumber : Bool
  sql : List Char
  aggregate : Res (List Char)

/-- `sql_query` of a metric, not `alias_only`, field.py 496-508 with 519-536 and 799-817. The first argument bounds the depth of references: Python raises
RecursionError. `get view name` is `get_field_with_view_info`. -/
def metricSql (get : List Char → List Char → Res MetricField) : ℕ → MetricField → Res (List Char)
  | 0, _ => .error .recursion
  | n + 1, f =>
    if f.isNumber then
      numberSql f.view (fun name => match get f.view name with
        | .error e => .error e
        | .ok g => metricSql get n g) f.sql
    else f.aggregate

end ML
