import Verif.Basic
import Mathlib.Data.List.Dedup
/-
The part of a single query that decides about duplicates, GROUP BY, HAVING and ORDER BY.
`/repo/metrics_layer/core/sql/single_query_resolve.py` 154-187 and
`/repo/metrics_layer/core/sql/query_generator.py` 42-97, 120-149, 154-282, 426-439.
-/
set_option autoImplicit false
namespace ML

/-- What these functions read of a field: its view, `primary_key`, `field_type == "measure"`, `alias(with_view=True)` and the
expression `get_sql` gives, single_query_resolve.py 159-172 and query_generator.py 257-273, 426-435. -/
structure QField where
  view : String
  primaryKey : Bool
  isMeasure : Bool
  label : String
  sql : String
  deriving DecidableEq, Repr

/-- One entry of the list `_parse_order_by_object` returns, query_generator.py 120-149. -/
structure OrderArg where
  field : String
  sort : String
  deriving DecidableEq, Repr

/-- One clause of an ordering text: `"desc" in clause.lower()` and the chain of `replace` calls, query_generator.py 124-142. -/
def orderClause (clause : List Char) : OrderArg :=
  let low := clause.map Char.toLower
  if containsSub "desc".toList low then
    ⟨String.ofList (strip (replaceAll "nulls first".toList [] (replaceAll "nulls last".toList [] (replaceAll "desc".toList [] low)))), "desc"⟩
  else
    ⟨String.ofList (strip (replaceAll "nulls first".toList [] (replaceAll "nulls last".toList [] (replaceAll "asc".toList [] low)))), "asc"⟩

/-- The `order_by` argument: absent, a text, or a list of `{"field", "sort"}` dictionaries whose `sort` may be missing,
query_generator.py 46, 84-87. A dictionary without `field` is refused earlier (single_query_resolve.py 201-217) and not modelled. -/
inductive OrderBy
  | absent
  | text (s : String)
  | json (l : List (String × Option String))
  deriving DecidableEq, Repr

/-- `if order_by`: an empty text or an empty list counts as absent, query_generator.py 77, 84. -/
def OrderBy.given : OrderBy → Bool
  | .absent => false
  | .text s => !s.toList.isEmpty
  | .json l => !l.isEmpty

/-- `_parse_order_by_object`, query_generator.py 120-149. -/
def parseOrderBy : OrderBy → List OrderArg
  | .absent => []
  | .text s => (splitChars ',' s.toList).map orderClause
  | .json l => l.map (fun c => ⟨c.1, lower (c.2.getD "asc")⟩)

/-- One ORDER BY item of the SQL: `ORDER BY column ASC|DESC NULLS LAST`, query_generator.py 274-277. -/
structure OrderItem where
  column : String
  desc : Bool
  nullsLast : Bool
  deriving DecidableEq, Repr

/-- The request: names, `force_group_by`, the field names found in the three clauses, whether `having` is non-empty,
`order_by`, the columns of `select_raw_sql` with their aliases stripped, and two facts about the warehouse: BigQuery groups by
alias (query_generator.py 431) and Snowflake, Redshift and DuckDB order by default (query_generator.py 86). -/
structure QRequest where
  metrics : List String
  dimensions : List String
  force : Bool
  whereNames : List String
  havingNames : List String
  orderNames : List String
  hasHaving : Bool
  order : OrderBy
  raw : List String
  bigquery : Bool
  defaultOrder : Bool
  deriving Repr

/-- The looked-up fields and the decision about grouping, single_query_resolve.py 154-181. -/
structure Parsed where
  metricFields : List QField
  dimFields : List QField
  noGroupBy : Bool
  deriving DecidableEq, Repr

/-- `get_field_with_error_handling` for each name in turn, single_query_resolve.py 183-187. -/
def lookupAll (get : String → Res QField) : List String → Res (List QField)
  | [] => .ok []
  | n :: ns =>
    match get n with
    | .error e => .error e
    | .ok f =>
      match lookupAll get ns with
      | .error e => .error e
      | .ok fs => .ok (f :: fs)

/-- `parse_input`, single_query_resolve.py 154-181. -/
def parseInput (get : String → Res QField) (q : QRequest) : Res Parsed :=
  if (q.metrics ++ q.dimensions).dedup.length ≠ (q.metrics ++ q.dimensions).length then .error .query
  else
    match lookupAll get q.metrics with
    | .error e => .error e
    | .ok ms =>
      match lookupAll get q.dimensions with
      | .error e => .error e
      | .ok ds =>
        match lookupAll get (q.whereNames ++ q.havingNames ++ q.orderNames) with
        | .error e => .error e
        | .ok _ => .ok ⟨ms, ds, ds.any (fun d => d.primaryKey && (some d.view == ms.head?.map QField.view) && !q.force)⟩

/-- The order arguments of the query: the parsed ones, or one `__DEFAULT__`, query_generator.py 84-87. -/
def orderArgs (q : QRequest) : List OrderArg :=
  if q.order.given then parseOrderBy q.order
  else if q.defaultOrder then [⟨"__DEFAULT__", ""⟩] else []

/-- The checks of `parse_definition`, query_generator.py 60-87. -/
def checkClauses (q : QRequest) (noGroupBy : Bool) : Res Unit :=
  if q.hasHaving && noGroupBy then .error .argument
  else if q.order.given && noGroupBy then .error .argument
  else .ok ()

/-- The ORDER BY items, query_generator.py 258-277. -/
def orderItems (get : String → Res QField) (fields : List QField) : List OrderArg → Res (List OrderItem)
  | [] => .ok []
  | a :: as =>
    match (if a.field = "__DEFAULT__" then
        .ok (fields.head?.map (fun f => (⟨f.label, f.isMeasure, true⟩ : OrderItem)))
      else match get a.field with
        | .error e => .error e
        | .ok f => .ok (some ⟨f.label, a.sort == "desc", true⟩) : Res (Option OrderItem)) with
    | .error e => .error e
    | .ok it =>
      match orderItems get fields as with
      | .error e => .error e
      | .ok rest => .ok (it.toList ++ rest)

/-- The clauses of the SQL this area is about. `groupBy = none` when no GROUP BY is asked for. query_generator.py 154-282. -/
structure Clauses where
  groupBy : Option (List String)
  having : Bool
  orderBy : List OrderItem
  deriving DecidableEq, Repr

/-- `get_group_by_columns`, query_generator.py 426-439. -/
def groupColumns (q : QRequest) (ds : List QField) : List String :=
  ds.map (fun f => if q.bigquery then f.label else f.sql) ++ q.raw

/-- A single query from its arguments to its clauses: `parse_input`, `parse_definition` and the parts of `get_query` at
query_generator.py 181-189 and 256-277. -/
def queryClauses (get : String → Res QField) (q : QRequest) : Res Clauses :=
  match parseInput get q with
  | .error e => .error e
  | .ok p =>
    match checkClauses q p.noGroupBy with
    | .error e => .error e
    | .ok _ =>
      if p.noGroupBy then .ok ⟨none, false, []⟩
      else
        match orderItems get (p.metricFields ++ p.dimFields) (orderArgs q) with
        | .error e => .error e
        | .ok items => .ok ⟨some (groupColumns q p.dimFields), q.hasHaving, items⟩

end ML
