import Verif.MergePlan.Model
import Verif.MergeStmt.Model
/-
A merged query as a whole: from the plan of its sub-queries to the definition of the statement that joins them.
`/repo/metrics_layer/core/sql/merged_query_resolve.py` 12-110.
-/
set_option autoImplicit false
namespace ML

/-- What one sub-query is asked for, merged_query_resolve.py 60-76: the ids of its metrics and dimensions, its conditions; `having` and
`order_by` are empty lists and the limit is `None`. -/
structure SubAsk where
  metrics : List String
  dimensions : List String
  wheres : List MWhere
  having : List MWhere
  limit : Option ℕ

/-- The loop over the dimensions' sub-queries, merged_query_resolve.py 53-54. -/
def addNewHashes : List String → List String → List String
  | [], acc => acc
  | k :: ks, acc => if k ∈ acc then addNewHashes ks acc else addNewHashes ks (acc ++ [k])

/-- `join_hashes`, merged_query_resolve.py 51-54. -/
def joinHashes (plan : Plan) : List String := addNewHashes (plan.dims.map (·.1)) (plan.metrics.map (·.1))

/-- `f"{j.split('__')[0]}__cte_subquery_{i}"`, merged_query_resolve.py 57. -/
def readableName (j : String) (i : ℕ) : String :=
  String.ofList (((splitSub "__".toList j.toList).head?).getD []) ++ "__cte_subquery_" ++ toString i

/-- `join_hash_readability_lookup`, merged_query_resolve.py 56-58: the sub-queries in sorted order, numbered. -/
def readabilityLookup (hashes : List String) : List (String × String) :=
  (hashes.insertionSort (· ≤ ·)).zipIdx.map (fun p => (p.1, readableName p.1 p.2))

/-- `join_hash_readability_lookup[k]`, merged_query_resolve.py 77, 81, 82 and 85. -/
def readable (lookup : List (String × String)) (k : String) : Res String :=
  match dictGet lookup k with
  | none => .error .keyError
  | some n => .ok n

/-- What a sub-query of the plan is asked for, merged_query_resolve.py 62-76. -/
def subAsk (plan : Plan) (h : String) : Res SubAsk :=
  match dictGet plan.where_ h with
  | none => .error .keyError
  | some ws => .ok ⟨((dictGet plan.metrics h).getD []).map PField.id, ((dictGet plan.dims h).getD []).map PField.id, ws, [], none⟩

/-- The loop over the sub-queries, merged_query_resolve.py 60-79: the readable names in order, the statements by name, and the query
type of the last resolver. `write` stands for the `SingleSQLQueryResolver` of line 67 and its `get_query` of line 77. -/
def writeSubs {Q : Type} (write : SubAsk → Res (Q × Warehouse)) (plan : Plan) (lookup : List (String × String)) :
    List String → List String × List (String × Q) × Option Warehouse → Res (List String × List (String × Q) × Option Warehouse)
  | [], acc => .ok acc
  | h :: hs, acc =>
    match subAsk plan h with
    | .error e => .error e
    | .ok a =>
      match write a with
      | .error e => .error e
      | .ok (s, w) =>
        match readable lookup h with
        | .error e => .error e
        | .ok n => writeSubs write plan lookup hs (acc.1 ++ [n], dictSet acc.2.1 n s, some w)

/-- `{join_hash_readability_lookup[k]: m for k, m in items}`, merged_query_resolve.py 81 and 82. -/
def renameKeys {V : Type} (lookup : List (String × String)) : List (String × V) → List (String × V) → Res (List (String × V))
  | [], acc => .ok acc
  | (k, v) :: l, acc =>
    match readable lookup k with
    | .error e => .error e
    | .ok n => renameKeys lookup l (dictSet acc n v)

/-- The entries of one name, merged_query_resolve.py 84-86. -/
def renameRefs (lookup : List (String × String)) : List (String × String) → Res (List MapRef)
  | [] => .ok []
  | (field, h) :: l =>
    match readable lookup h with
    | .error e => .error e
    | .ok n =>
      match renameRefs lookup l with
      | .error e => .error e
      | .ok rs => .ok (⟨n, field⟩ :: rs)

/-- `readable_mapping_lookup`, merged_query_resolve.py 83-88. -/
def renameMapping (lookup : List (String × String)) : List (String × List (String × String)) → Res (List (String × List MapRef))
  | [] => .ok []
  | (k, items) :: l =>
    match renameRefs lookup items with
    | .error e => .error e
    | .ok rs =>
      match renameMapping lookup l with
      | .error e => .error e
      | .ok m => .ok ((k, rs) :: m)

/-- The definition given to `MetricsLayerMergedResultsQuery`, merged_query_resolve.py 90-106, without what is the user's own. -/
structure MergedConfig (Q : Type) where
  metrics : List (String × List PField)
  dims : List (String × List PField)
  queries : List (String × Q)
  hashes : List String
  mapping : List (String × List MapRef)
  warehouse : Warehouse
  semicolon : Bool

/-- `get_query` after `derive_sub_queries`, merged_query_resolve.py 50-106: without sub-queries `resolver` is not bound (line 89);
Druid and Trino get no semicolon. -/
def mergedConfig {Q : Type} (write : SubAsk → Res (Q × Warehouse)) (plan : Plan) (semicolon : Bool) : Res (MergedConfig Q) :=
  let lookup := readabilityLookup (joinHashes plan)
  match writeSubs write plan lookup (joinHashes plan) ([], [], none) with
  | .error e => .error e
  | .ok (names, queries, w) =>
    match renameKeys lookup plan.metrics [] with
    | .error e => .error e
    | .ok ms =>
      match renameKeys lookup plan.dims [] with
      | .error e => .error e
      | .ok ds =>
        match renameMapping lookup plan.lookup with
        | .error e => .error e
        | .ok mp =>
          match w with
          | none => .error .unboundLocal
          | some w => .ok ⟨ms, ds, queries, names.insertionSort (· ≤ ·), mp, w, semicolon && !(w = .druid || w = .trino)⟩

/-- `MergedSQLQueryResolver(...)` and its `get_query`, merged_query_resolve.py 13-106: a funnel is refused (26-27), then the query is
planned and its sub-queries are written. -/
def resolveMerged {Q : Type} (write : SubAsk → Res (Q × Warehouse)) (env : PlanEnv) (funnel : Bool) (metrics having dimensions : List String)
    (wheres : List MWhere) (semicolon : Bool) : Res (MergedConfig Q) :=
  if funnel then .error .query
  else
    match derivePlan env metrics having dimensions wheres with
    | .error e => .error e
    | .ok plan => mergedConfig write plan semicolon

/-- The definition of the statement, as area `MergeStmt` reads it, merged_query_resolve.py 90-102: `dim` and `column` read the fields of
dimensions and metrics; the merged metrics, `having` and the limit are the user's. -/
def MergedConfig.toDef {Q : Type} (c : MergedConfig Q) (dim : PField → MDim) (column : PField → String) (merged : List SMetric)
    (having : List FObj) (fieldOf : ℕ → String) (limit : Option ℕ) : MergedDef where
  src := { warehouse := c.warehouse, hashes := c.hashes, dims := c.dims.map (fun p => (p.1, p.2.map dim)),
           mapping := fun k => (dictGet c.mapping k).getD [] }
  metrics := c.metrics.map (fun p => (p.1, p.2.map column))
  merged := merged
  having := having
  fieldOf := fieldOf
  limit := limit

end ML
