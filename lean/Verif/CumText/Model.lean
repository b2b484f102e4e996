import Verif.Expr.Model
/-
The SQL texts of cumulative metrics: the condition under which a row is joined to a day, with the metric's own `cumulative_where`, and the columns
of the final query. `/repo/metrics_layer/core/sql/query_cumulative_metric.py` 202-225, 295-334, 373-403 and `/repo/metrics_layer/core/model/field.py` 471-517.
-/
set_option autoImplicit false
namespace ML

/-- What a field is for its alias: a dimension (or a metric), a group of a time or a group of a duration, field.py 482-494. -/
inductive WhereKind
  | dimension
  | time
  | duration
  deriving DecidableEq, Repr

/-- What `_replace_cumulative_where` reads of a field, query_cumulative_metric.py 301-312. -/
structure WhereField where
  view : List Char
  name : List Char
  kind : WhereKind
  group : List Char
  deriving DecidableEq, Repr

/-- `alias(with_view=True)`, field.py 482-494, which is `sql_query(alias_only=True)` of a dimension, field.py 510-514. -/
def WhereField.label (f : WhereField) : List Char :=
  f.view ++ '_' :: (match f.kind with
    | .dimension => f.name
    | .time => f.name ++ '_' :: f.group
    | .duration => f.group ++ '_' :: f.name)

/-- What these functions read of a cumulative metric: `alias(with_view=True)`, `cumulative_where` (`none` when there is none) and `update_where_timeframe`,
which is true when it is not given. field.py 471-480, query_cumulative_metric.py 295-334. -/
structure CumTexts where
  label : List Char
  cumWhere : Option (List Char)
  updateTimeframe : Option Bool
  deriving DecidableEq, Repr

/-- `update_where_timeframe`, field.py 471-474. -/
def CumTexts.updates (m : CumTexts) : Bool := m.updateTimeframe.getD true

/-- `cte_prefix`, field.py 476-480. -/
def CumTexts.prefix (m : CumTexts) (aggregated : Bool) : List Char :=
  (if aggregated then "aggregated".toList else "subquery".toList) ++ '_' :: m.label

/-- Whether the group of the field is replaced by the one of the query, query_cumulative_metric.py 304-308 and 327-331. -/
def CumTexts.moves (m : CumTexts) (group : List Char) (f : WhereField) : Bool :=
  f.kind != .dimension && f.group != group && m.updates

/-- The name that stands for the day in `cumulative_where`, query_cumulative_metric.py 299 and 319. -/
def cumulativeDate : List Char := "cumulative_date".toList

/-- `_cumulative_where_fields(refs_only=True)`, query_cumulative_metric.py 316-322: the references without the day. -/
def cumWhereRefs (t : List Char) : List (List Char) := fieldsToReplace (replaceAll (refText cumulativeDate) [] t)

/-- `_replace_cumulative_where`, query_cumulative_metric.py 295-314. `get` is `design.get_field`; the field it returns is changed in place. -/
def replaceCumWhere (get : List Char → Res WhereField) (group : List Char) (m : CumTexts) (spine t : List Char) : Res (List Char) :=
  replaceEach (fun ref =>
    match get ref with
    | .error e => .error e
    | .ok f => .ok (m.prefix false ++ '.' :: (if m.moves group f then { f with group := group } else f).label))
    (cumWhereRefs t) (replaceAll (refText cumulativeDate) spine t)

/-- The loop of `_cumulative_where_fields`, query_cumulative_metric.py 324-333. -/
def cumWhereLoop (get : List Char → Res WhereField) (group : List Char) (m : CumTexts) : List (List Char) → Res (List WhereField)
  | [] => .ok []
  | r :: rs =>
    match get r with
    | .error e => .error e
    | .ok f =>
      match (if m.moves group f then get (f.view ++ '.' :: f.name ++ '_' :: group) else .ok f) with
      | .error e => .error e
      | .ok g =>
        match cumWhereLoop get group m rs with
        | .error e => .error e
        | .ok gs => .ok (g :: gs)

/-- `_cumulative_where_fields`, query_cumulative_metric.py 316-334: the fields that are selected by the query of the metric's rows. -/
def cumWhereFields (get : List Char → Res WhereField) (group : List Char) (m : CumTexts) (t : List Char) : Res (List WhereField) :=
  cumWhereLoop get group m (cumWhereRefs t)

/-- The condition of the join of the rows to the days, query_cumulative_metric.py 217-228. `dateLabel` is `date_field.alias(with_view=True)`. -/
def cumOn (get : List Char → Res WhereField) (group : List Char) (m : CumTexts) (dateLabel : List Char) : Res (List Char) :=
  let spine := "date_spine.date".toList
  let lessThanNow := m.prefix false ++ '.' :: dateLabel ++ "<=".toList ++ spine
  match m.cumWhere with
  | none => .ok lessThanNow
  | some [] => .ok lessThanNow
  | some t =>
    match replaceCumWhere get group m spine t with
    | .error e => .error e
    | .ok w => .ok (lessThanNow ++ " AND ".toList ++ w)

/-- A column of the final query as `_get_select_columns` sees it, query_cumulative_metric.py 373-390: a dimension or a metric that is not cumulative, a
cumulative metric with the alias of its `measure`, or a number with a cumulative part. For a number, `MetricField.aggregate` of the metrics it names is
their `sql_query(alias_only=True)`, field.py 496-517. -/
inductive CumShown
  | plain (label : List Char)
  | cumulative (m : CumTexts) (measureLabel : List Char)
  | number (f : MetricField)

/-- The SQL of a column of the final query, query_cumulative_metric.py 373-390. `base` is the table everything is joined to, `n` bounds the depth of
references. Simplified: `${TABLE}` in the SQL of a number, which is treated differently here (field.py 804-809), is not modelled. -/
def cumColumn (get : List Char → List Char → Res MetricField) (n : ℕ) (base : List Char) : CumShown → Res (List Char)
  | .plain label => .ok (base ++ '.' :: label)
  | .cumulative m measureLabel => .ok (m.prefix true ++ '.' :: measureLabel)
  | .number f => metricSql get n f

/-- `current_date`, query_cumulative_metric.py 392-403, in the WHERE of the aggregating query, 243. -/
def currentDate (warehouse : String) : Res (List Char) :=
  if warehouse = "SNOWFLAKE" ∨ warehouse = "REDSHIFT" ∨ warehouse = "BIGQUERY" then .ok "current_date()".toList
  else if warehouse = "POSTGRES" then .ok "current_date".toList
  else .error .notImplemented

end ML
