import Verif.Basic
import Mathlib.Order.Defs.LinearOrder
import Mathlib.Data.List.Dedup
/-
Model of cumulative metrics: `metrics_layer/core/sql/query_cumulative_metric.py`, with the meaning of the SQL it generates.
-/
set_option autoImplicit false
namespace ML

/-! ### The generated query -/

/-- A dimension of a query: its view, its name and, for a dimension group, the chosen group (`""` otherwise).
query_cumulative_metric.py 203-275. -/
structure CumCol where
  view : String
  name : String
  group : String
  deriving DecidableEq, Repr

/-- A measure of type `cumulative`: its id, its `measure` (the referenced metric) with that measure's view and the view's
`default_date`, the fields `cumulative_where` mentions (`[]` without it) and `update_where_timeframe`. query_cumulative_metric.py
144-165. -/
structure CumMetric where
  id : String
  measure : String
  view : String
  defaultDate : String
  whereCols : List CumCol
  updateTimeframe : Bool
  deriving DecidableEq, Repr

/-- A condition of the query's `where`: a condition on a field, or a group of conditions. `F` is expression and value.
query_cumulative_metric.py 144-165. -/
inductive CumWhere (F : Type)
  | cond (col : CumCol) (f : F)
  | group
  deriving DecidableEq, Repr

/-- A metric as `separate_metrics` sees it, query_cumulative_metric.py 96-107: a cumulative one, one without cumulative parts,
or a number with a cumulative part and the metrics it references. -/
inductive CumField
  | cumulative (m : CumMetric)
  | plain (id : String)
  | number (id : String) (refs : List (String ⊕ CumMetric))
  deriving Repr

/-- The references of one metric split into cumulative ones and others, query_cumulative_metric.py 97-107. -/
def CumField.parts : CumField → List (String ⊕ CumMetric)
  | .cumulative m => [.inr m]
  | .plain i => [.inl i]
  | .number _ refs => refs

/-- `Project.deduplicate_fields`, project.py: the first field of every id. -/
def dedupMetrics : List CumMetric → List CumMetric
  | [] => []
  | m :: ms => m :: (dedupMetrics ms).filter (fun n => n.id != m.id)

/-- `Project.deduplicate_fields` on the ids of plain metrics. query_cumulative_metric.py 89-112 and project.py 590-601. -/
def dedupIds : List String → List String
  | [] => []
  | m :: ms => m :: (dedupIds ms).filter (fun n => n != m)

/-- `separate_metrics`, query_cumulative_metric.py 88-113, on the fields of `metrics + having`. -/
def separateMetrics (fields : List CumField) : List CumMetric × List String :=
  let parts := fields.flatMap CumField.parts
  (dedupMetrics (parts.filterMap Sum.getRight?), dedupIds (parts.filterMap Sum.getLeft?))

/-- The name under which a default date is compared, query_cumulative_metric.py 280-285. -/
def CumMetric.dateAlias (m : CumMetric) : String :=
  if '.' ∈ m.defaultDate.toList then m.defaultDate else m.view ++ "." ++ m.defaultDate

/-- `_is_default_date`, query_cumulative_metric.py 278-286. -/
def isDefaultDate (ms : List CumMetric) (c : CumCol) : Bool :=
  decide (c.view ++ "." ++ c.name ∈ ms.map CumMetric.dateAlias)

/-- `default_date_dimension_group`, query_cumulative_metric.py 288-294. The method is cached; the cached value is the one
computed here, because `self.dimensions` only grows at its end and only when a default date is already among them. -/
def defaultGroup (ms : List CumMetric) (dims : List CumCol) : String :=
  match dims.find? (isDefaultDate ms) with
  | some d => d.group
  | none => "date"

/-- `_get_default_date`, query_cumulative_metric.py 336-355. `known` says which fields exist. -/
def getDefaultDate (known : CumCol → Bool) (group : String) (m : CumMetric) : Res CumCol :=
  if '.' ∈ m.defaultDate.toList then .error .accessDenied
  else if known ⟨m.view, m.defaultDate, group⟩ then .ok ⟨m.view, m.defaultDate, group⟩
  else .error .accessDenied

/-- `_cumulative_where_fields`, query_cumulative_metric.py 316-334. -/
def cumWhereCols (group : String) (m : CumMetric) : List CumCol :=
  m.whereCols.map fun c => if c.group != "" && c.group != group && m.updateTimeframe then { c with group := group } else c

/-- The query of a metric's rows: the columns it selects beside the metric and the conditions in its WHERE.
query_cumulative_metric.py 144-201. -/
structure CumRows (F : Type) where
  cols : List CumCol
  filters : List (CumCol × F)
  deriving DecidableEq, Repr

/-- The conditions that are not on a default date, query_cumulative_metric.py 160-164; a group of conditions has no `"field"`. -/
def rowFilters {F : Type} (ms : List CumMetric) : List (CumWhere F) → Res (List (CumCol × F))
  | [] => .ok []
  | .group :: _ => .error .keyError
  | .cond c f :: ws =>
    match rowFilters ms ws with
    | .error e => .error e
    | .ok rest => if isDefaultDate ms c then .ok rest else .ok ((c, f) :: rest)

/-- The conditions on a default date, query_cumulative_metric.py 245-260: the group of the filtered field and the condition. -/
def dateFilters {F : Type} (ms : List CumMetric) : List (CumWhere F) → Res (List (String × F))
  | [] => .ok []
  | .group :: _ => .error .keyError
  | .cond c f :: ws =>
    match dateFilters ms ws with
    | .error e => .error e
    | .ok rest => if isDefaultDate ms c then .ok ((c.group, f) :: rest) else .ok rest

/-- `cumulative_subquery`, query_cumulative_metric.py 144-165. -/
def cumRows {F : Type} (known : CumCol → Bool) (ms : List CumMetric) (dims : List CumCol) (ws : List (CumWhere F)) (m : CumMetric) :
    Res (CumRows F) :=
  let group := defaultGroup ms dims
  match getDefaultDate known group m with
  | .error e => .error e
  | .ok date =>
    let dated := if dims.any (fun d => date.name == d.name && date.view == d.view) then dims else dims ++ [date]
    match rowFilters ms ws with
    | .error e => .error e
    | .ok filters => .ok ⟨dated ++ cumWhereCols group m, filters⟩

/-- A column of the aggregating query: the date of the spine or a column of the metric's rows. query_cumulative_metric.py 203-275. -/
inductive CumRef
  | spine
  | col (c : CumCol)
  deriving DecidableEq, Repr

/-- The aggregating query of a metric, query_cumulative_metric.py 204-276: the date of the rows that is compared with the spine, the
truncation of the spine (`none`: the spine itself, day by day), the columns selected beside the metric, GROUP BY and HAVING. -/
structure CumAgg (F : Type) where
  date : CumCol
  spine : Option String
  select : List CumRef
  groupBy : List CumRef
  having : List (String × F)
  deriving DecidableEq, Repr

/-- The groups for which the spine can be truncated, query_cumulative_metric.py 127. -/
def spineGroups : List String := ["date", "week", "month", "quarter", "year"]

/-- `date_spine_by_time_frame`, query_cumulative_metric.py 123-142: the dimensions afterwards and the truncation. For any other group
the `date` of the first metric's default date is appended to the query's dimensions. -/
def spineByTimeFrame (ms : List CumMetric) (dims : List CumCol) : List CumCol × Option String :=
  let group := defaultGroup ms dims
  if group ∉ spineGroups then
    match ms with
    | [] => (dims, none)
    | m :: _ => (dims ++ [⟨m.view, m.defaultDate, "date"⟩], none)
  else if group = "date" then (dims, none)
  else (dims, some group)

/-- `aggregate_cumulative_subquery`, query_cumulative_metric.py 204-276: the dimensions afterwards and the query. -/
def cumAgg {F : Type} (known : CumCol → Bool) (ms : List CumMetric) (dims : List CumCol) (ws : List (CumWhere F)) (m : CumMetric) :
    Res (List CumCol × CumAgg F) :=
  match getDefaultDate known (defaultGroup ms dims) m with
  | .error e => .error e
  | .ok date =>
    let (dims, spine) := spineByTimeFrame ms dims
    let select := dims.map fun d => if isDefaultDate ms d then .spine else .col d
    let present := dims.any (isDefaultDate ms)
    match dateFilters ms ws with
    | .error e => .error e
    | .ok having =>
      let others := (dims.filter fun d => !isDefaultDate ms d).map CumRef.col
      .ok (dims, {
        date := date
        spine := spine
        select := select
        groupBy := if present then others ++ [CumRef.spine] else others
        having := if present then having else [] })

/-- The loop over the cumulative metrics, query_cumulative_metric.py 55-60. -/
def cumCtes {F : Type} (known : CumCol → Bool) (ms : List CumMetric) (ws : List (CumWhere F)) :
    List CumCol → List CumMetric → Res (List CumCol × List (CumRows F × CumAgg F))
  | dims, [] => .ok (dims, [])
  | dims, m :: rest =>
    match cumRows known ms dims ws m with
    | .error e => .error e
    | .ok rows =>
      match cumAgg known ms dims ws m with
      | .error e => .error e
      | .ok (dims, agg) =>
        match cumCtes known ms ws dims rest with
        | .error e => .error e
        | .ok (dims, ctes) => .ok (dims, (rows, agg) :: ctes)

/-- The warehouses with a date spine, query_cumulative_metric.py 115-123. -/
def spineWarehouses : List String := ["SNOWFLAKE", "REDSHIFT", "BIGQUERY", "POSTGRES"]

/-- The whole query, query_cumulative_metric.py 42-85: the final dimensions, the sub-queries of the cumulative metrics, and whether the
other metrics are the base the sub-queries are joined to. -/
structure CumPlan (F : Type) where
  dims : List CumCol
  ctes : List (CumRows F × CumAgg F)
  baseIsPlain : Bool
  deriving DecidableEq, Repr

/-- `get_query`, query_cumulative_metric.py 42-85. -/
def cumPlan {F : Type} (known : CumCol → Bool) (warehouse : String) (fields : List CumField) (dims : List CumCol)
    (ws : List (CumWhere F)) : Res (CumPlan F) :=
  if warehouse ∉ spineWarehouses then .error .notImplemented
  else
    let (ms, plain) := separateMetrics fields
    match cumCtes known ms ws dims ms with
    | .error e => .error e
    | .ok (dims, ctes) =>
      if plain = [] ∧ ms = [] then .error .indexError else .ok ⟨dims, ctes, plain ≠ []⟩

/-! ### What the SQL computes -/

section Eval
variable {F R V A : Type} [LinearOrder V]

/-- The data one cumulative metric runs on: the rows of its tables, their columns (`none` is NULL), which rows satisfy a condition,
the days of the spine, today, the truncation of a date to a group, which dates satisfy a condition, and `cumulative_where`.
meaning of query_cumulative_metric.py 114-275. -/
structure CumData (F R V : Type) where
  rows : List R
  val : R → CumCol → Option V
  keeps : CumCol × F → R → Bool
  days : List V
  today : V
  asGroup : String → V → V
  dateHolds : F → V → Bool
  extra : R → V → Bool

/-- The rows of the metric's own sub-query: those that satisfy its WHERE; there is no GROUP BY. query_cumulative_metric.py 144-201. -/
def CumData.table (D : CumData F R V) (q : CumRows F) : List R := D.rows.filter fun r => q.filters.all fun f => D.keeps f r

/-- `row.date <= spine.date` is true. query_cumulative_metric.py 203-275. -/
def leDate (a : Option V) (d : V) : Bool :=
  match a with
  | some t => decide (t ≤ d)
  | none => false

/-- The dates of the spine the aggregating query reads from. query_cumulative_metric.py 114-142. -/
def CumData.spineDates (D : CumData F R V) (spine : Option String) : List V :=
  match spine with
  | none => D.days
  | some g => (D.days.map (D.asGroup g)).dedup

/-- `FROM spine JOIN rows ON row.date <= spine.date AND cumulative_where WHERE spine.date <= current_date`.
query_cumulative_metric.py 203-275. -/
def CumData.pairs (D : CumData F R V) (q : CumRows F) (a : CumAgg F) : List (V × R) :=
  ((D.spineDates a.spine).filter fun d => decide (d ≤ D.today)).flatMap fun d =>
    ((D.table q).filter fun r => leDate (D.val r a.date) d && D.extra r d).map fun r => (d, r)

/-- The value of a column of the aggregating query. query_cumulative_metric.py 203-275. -/
def CumData.ref (D : CumData F R V) (c : CumRef) (p : V × R) : Option V :=
  match c with
  | .spine => some p.1
  | .col c => D.val p.2 c

/-- GROUP BY: one group for every combination of values; without GROUP BY everything is one group, also when it is empty.
query_cumulative_metric.py 203-275. -/
def CumData.groups (D : CumData F R V) (q : CumRows F) (a : CumAgg F) : List (List (V × R)) :=
  let ps := D.pairs q a
  if a.groupBy = [] then [ps]
  else
    let key := fun p => a.groupBy.map fun c => D.ref c p
    (ps.map key).dedup.map fun k => ps.filter fun p => decide (key p = k)

/-- HAVING, on the date of the spine of a group. query_cumulative_metric.py 203-275. -/
def CumData.havingHolds (D : CumData F R V) (a : CumAgg F) (g : List (V × R)) : Bool :=
  match g with
  | [] => a.having.isEmpty
  | p :: _ => a.having.all fun h => D.dateHolds h.2 (D.asGroup h.1 p.1)

/-- The columns of a group: those of any of its members. query_cumulative_metric.py 203-275. -/
def CumData.groupCols (D : CumData F R V) (a : CumAgg F) (g : List (V × R)) : List (Option V) :=
  match g with
  | [] => a.select.map fun _ => none
  | p :: _ => a.select.map fun c => D.ref c p

/-- The rows of the aggregating query: the columns and the aggregate of the metric over the group's rows.
query_cumulative_metric.py 203-275. -/
def CumData.result (D : CumData F R V) (agg : List R → A) (q : CumRows F) (a : CumAgg F) : List (List (Option V) × A) :=
  ((D.groups q a).filter (D.havingHolds a)).map fun g => (D.groupCols a g, agg (g.map Prod.snd))

/-- `_derive_join`, query_cumulative_metric.py 357-372: all dimensions are equal as SQL compares them; `1=1` without dimensions. -/
def colsEq : List (Option V) → List (Option V) → Bool
  | [], [] => true
  | some x :: xs, some y :: ys => decide (x = y) && colsEq xs ys
  | _, _ => false

/-- One LEFT JOIN of the final query, query_cumulative_metric.py 75-77, selecting the joined metric. -/
def leftJoinCum (base : List (List (Option V) × List (Option A))) (cte : List (List (Option V) × A)) :
    List (List (Option V) × List (Option A)) :=
  base.flatMap fun b =>
    match cte.filter fun c => colsEq b.1 c.1 with
    | [] => [(b.1, b.2 ++ [none])]
    | cs => cs.map fun c => (b.1, b.2 ++ [some c.2])

/-- The final query, query_cumulative_metric.py 66-77: the base and the sub-queries joined to it one after the other. -/
def finalRows (base : List (List (Option V) × List (Option A))) (ctes : List (List (List (Option V) × A))) :
    List (List (Option V) × List (Option A)) := ctes.foldl leftJoinCum base

/-- The first sub-query as base, query_cumulative_metric.py 66-71. -/
def asBase (cte : List (List (Option V) × A)) : List (List (Option V) × List (Option A)) := cte.map fun c => (c.1, [some c.2])

end Eval
end ML
