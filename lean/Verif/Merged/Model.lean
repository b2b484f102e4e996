import Verif.Joined.Model
import Verif.SymAgg.Model
import Mathlib.Data.List.Sort
import Mathlib.Data.String.Basic
/-
The statement that merges several sub-queries: sql/query_merged_results.py, and what the warehouse computes
for its FROM clause and its dimension columns. Sub-queries are tables of rows; a row gives each column
a value or NULL.
-/
set_option autoImplicit false
namespace ML

/-- A dimension of a sub-query: the properties of the field that the merge reads, query_merged_results.py 59-130
and `Field.alias`, field.py 482-494. -/
structure MDim where
  view : String
  name : String
  group : Option String
  duration : Bool
  datatype : String
  deriving DecidableEq, Repr

/-- `Field.alias()`, field.py 482-494. -/
def MDim.short (d : MDim) : String :=
  match d.group with
  | none => d.name
  | some g => if d.duration then g ++ "_" ++ d.name else d.name ++ "_" ++ g

/-- `Field.alias(with_view=True)`, field.py 482-494. -/
def MDim.column (d : MDim) : String := d.view ++ "_" ++ d.short

/-- `Field.id()`, field.py 175-179. -/
def MDim.id (d : MDim) : String := d.view ++ "." ++ d.short

/-- `field_key`, query_merged_results.py 95. -/
def MDim.key (d : MDim) : String := d.view ++ "." ++ d.name

/-- `field_key_dim_group`, query_merged_results.py 96-99. -/
def MDim.keyGroup (d : MDim) : String :=
  match d.group with
  | none => d.key
  | some g => d.key ++ "_" ++ g

/-- One entry of `mapping_lookup`, query_merged_results.py 100-106. -/
structure MapRef where
  cte : String
  field : String
  deriving DecidableEq, Repr

/-- The definition given to `MetricsLayerMergedResultsQuery`, merged_query_resolve.py 89-101: the sub-queries in the order of
`join_hashes` (sorted), the dimensions of each (a dictionary) and the mappings of a field key. -/
structure MergeDef where
  warehouse : Warehouse
  hashes : List String
  dims : List (String × List MDim)
  mapping : String → List MapRef

/-- The ON part of a join of two sub-queries, query_merged_results.py 46-78: nothing for a CROSS JOIN, `1=1`, or the
equalities of two columns, each with or without a cast on both sides. -/
inductive MJoin
  | cross
  | always
  | eqs (l : List (String × String × Bool))
  deriving DecidableEq, Repr

/-- The loop of `_build_join_criteria`, query_merged_results.py 63-76: the i-th dimension of the first sub-query against
the i-th of the second; a missing one is an IndexError. -/
def mergeEqs (w : Warehouse) : List MDim → List MDim → Res (List (String × String × Bool))
  | [], _ => .ok []
  | _ :: _, [] => .error .indexError
  | a :: as, b :: bs =>
    match mergeEqs w as bs with
    | .error e => .error e
    | .ok l => .ok ((a.column, b.column, decide (w = .bigquery ∧ a.datatype ≠ b.datatype)) :: l)

/-- One turn of the loop of `build_cte_from`, query_merged_results.py 46-55, with `_build_join_criteria` 58-78. -/
def mergeJoin (d : MergeDef) (first second : String) : Res MJoin :=
  if d.warehouse = .redshift ∧ d.dims.all (fun p => p.2.isEmpty) then .ok .cross
  else if d.dims.all (fun p => p.2.isEmpty) then .ok .always
  else
    match dictGet d.dims first, dictGet d.dims second with
    | none, _ => .error .keyError
    | some [], none => .ok (.eqs [])
    | some (_ :: _), none => .error .keyError
    | some as, some bs =>
      match mergeEqs d.warehouse as bs with
      | .error e => .error e
      | .ok l => .ok (.eqs l)

/-- The text of the ON part, query_merged_results.py 66-78. -/
def MJoin.text (first second : String) : MJoin → String
  | .cross => ""
  | .always => "1=1"
  | .eqs l => " and ".intercalate (l.map (fun p =>
      if p.2.2 then "CAST(" ++ first ++ "." ++ p.1 ++ " AS TIMESTAMP)=CAST(" ++ second ++ "." ++ p.2.1 ++ " AS TIMESTAMP)"
      else first ++ "." ++ p.1 ++ "=" ++ second ++ "." ++ p.2.1))

section
variable {V : Type} [DecidableEq V]

/-- A row of a sub-query: the value of each column, `none` for NULL. Result of the sub-queries of merged_query_resolve.py 62-79. -/
abbrev MRow (V : Type) := String → Option V

/-- SQL equality is true: both sides are there and equal. A cast to TIMESTAMP is taken to keep values, so that equal
values stay equal and different ones different. Semantics of query_merged_results.py 71-75. -/
def sqlEq (a b : Option V) : Bool :=
  match a, b with
  | some x, some y => decide (x = y)
  | _, _ => false

/-- Whether the ON part is true of a joined row and a row of the next sub-query, query_merged_results.py 58-78. -/
def MJoin.holds (first : String) (j : MJoin) (row : JRow (MRow V)) (t : MRow V) : Bool :=
  match j with
  | .cross => true
  | .always => true
  | .eqs l => l.all (fun p => sqlEq ((dictGet row first).bind (fun r => r p.1)) (t p.2.1))

/-- One row with the rows of the next sub-query that match it, FULL OUTER JOIN of query_merged_results.py 53. -/
def outerRow (p : MRow V → Bool) (tgt : String) (table : List (MRow V)) (row : JRow (MRow V)) : List (JRow (MRow V)) :=
  match table.filter p with
  | [] => [row]
  | t :: ts => (t :: ts).map (fun t => (tgt, t) :: row)

/-- `FULL OUTER JOIN tgt ON p` and `CROSS JOIN tgt`, query_merged_results.py 50 and 53. -/
def mergeStep (first : String) (j : MJoin) (tgt : String) (table : List (MRow V)) (rows : List (JRow (MRow V))) :
    List (JRow (MRow V)) :=
  match j with
  | .cross => rows.flatMap (fun row => table.map (fun t => (tgt, t) :: row))
  | j => rows.flatMap (fun row => outerRow (j.holds first row) tgt table row) ++
      (table.filter (fun t => !rows.any (fun row => j.holds first row t))).map (fun t => [(tgt, t)])

/-- The joins of `build_cte_from` after the first sub-query, query_merged_results.py 43-55, and their rows. -/
def mergeRest (d : MergeDef) (db : String → List (MRow V)) (first : String) :
    List String → List (JRow (MRow V)) → Res (List (JRow (MRow V)))
  | [], rows => .ok rows
  | h :: hs, rows =>
    match mergeJoin d first h with
    | .error e => .error e
    | .ok j => mergeRest d db first hs (mergeStep first j h (db h) rows)

/-- The rows of the FROM clause of `build_cte_from`, query_merged_results.py 38-56. -/
def mergedRows (d : MergeDef) (db : String → List (MRow V)) : Res (List (JRow (MRow V))) :=
  match d.hashes with
  | [] => .ok []
  | h :: hs => mergeRest d db h hs ((db h).map (fun r => [(h, r)]))

end

/-- The expression of a dimension column, query_merged_results.py 112-127. -/
inductive MExpr
  | col (cte column : String)
  | ifNull (a b : MExpr)
  deriving DecidableEq, Repr

/-- `if_null_lookup`, query_dialect.py 203-214. -/
def ifNullName : Warehouse → String
  | .snowflake | .bigquery => "ifnull"
  | .redshift | .druid => "nvl"
  | .sqlServer | .azureSynapse => "isnull"
  | .postgres | .databricks | .duckDb | .trino => "coalesce"

/-- The text of an expression, query_merged_results.py 114-127 and 141-146. -/
def MExpr.text (f : String) : MExpr → String
  | .col c a => c ++ "." ++ a
  | .ifNull a b => f ++ "(" ++ a.text f ++ ", " ++ b.text f ++ ")"

/-- The value of an expression on a joined row: `ifnull(a, b)` is `a` unless it is NULL. Query result of
query_merged_results.py 129-131. -/
def MExpr.eval {V : Type} (row : JRow (MRow V)) : MExpr → Option V
  | .col c a => (dictGet row c).bind (fun r => r a)
  | .ifNull a b => match a.eval row with | some v => some v | none => b.eval row

/-- `aliases[0]["cte"] + "." + aliases[0]["field"].replace(".", "_")`, query_merged_results.py 142. -/
def MapRef.col (m : MapRef) : MExpr := .col m.cte (String.ofList (replaceAll ['.'] ['_'] m.field.toList))

/-- `nested_if_null`, query_merged_results.py 140-146; an empty list is an IndexError. -/
def nestedIfNull : List MapRef → Res MExpr
  | [] => .error .indexError
  | [m] => .ok m.col
  | m :: m' :: ms =>
    match nestedIfNull (m' :: ms) with
    | .error e => .error e
    | .ok e => .ok (.ifNull m.col e)

/-- The dictionary `mapping_lookup` built at query_merged_results.py 91-106, at one key: a field of several sub-queries
contributes its mappings once for each. -/
def localMapping (d : MergeDef) (key : String) : List MapRef :=
  ((d.dims.flatMap (·.2)).filter (fun f => f.keyGroup = key)).flatMap (fun f =>
    (d.mapping f.key).map (fun m =>
      ⟨m.cte, match f.group with | none => m.field | some g => m.field ++ "_" ++ g⟩))

/-- `present_fields`, query_merged_results.py 121-123. -/
def presentFields (d : MergeDef) (f : MDim) : List MapRef :=
  (localMapping d f.id).filter (fun m => (d.dims.flatMap (·.2)).any (fun g => g.id = m.field))

/-- One turn of the loops of query_merged_results.py 110-127. -/
def dimensionSqlStep (d : MergeDef) (acc : List (String × MExpr)) (h : String) (f : MDim) :
    Res (List (String × MExpr)) :=
  let acc := match dictGet acc f.column with
    | none => dictSet acc f.column (.col h f.column)
    | some e => dictSet acc f.column (.ifNull e (.col h f.column))
  if localMapping d f.id = [] then .ok acc
  else
    match nestedIfNull (presentFields d f) with
    | .error e => .error e
    | .ok n => .ok (dictSet acc f.column (.ifNull (.col h f.column) n))

/-- The turns of the loops in order, query_merged_results.py 110-127. -/
def dimensionSqlGo (d : MergeDef) : List (String × MDim) → List (String × MExpr) → Res (List (String × MExpr))
  | [], acc => .ok acc
  | (h, f) :: rest, acc =>
    match dimensionSqlStep d acc h f with
    | .error e => .error e
    | .ok acc => dimensionSqlGo d rest acc

/-- The order of the loops: sub-queries by name, each with its fields in order, query_merged_results.py 110-111. -/
def dimensionOrder (d : MergeDef) : List (String × MDim) :=
  (d.dims.insertionSort (fun a b => a.1 ≤ b.1)).flatMap (fun p => p.2.map (fun f => (p.1, f)))

/-- `dimension_sql`, query_merged_results.py 108-127. -/
def dimensionSql (d : MergeDef) : Res (List (String × MExpr)) := dimensionSqlGo d (dimensionOrder d) []

/-- A metric of a sub-query: the column it is computed as, query_merged_results.py 83-89. -/
def metricColumns (metrics : List (String × List String)) : List (String × MExpr) :=
  ((metrics.insertionSort (fun a b => a.1 ≤ b.1)).flatMap (fun p => p.2.map (fun a => (a, MExpr.col p.1 a)))).foldl
    (fun acc p => if acc.any (fun q => q.1 = p.1) then acc else acc ++ [p]) []

end ML
