import Verif.Dict
import Mathlib.Data.Nat.Notation
/-
Model of arbitrary merged queries: `metrics_layer/core/sql/arbitrary_merge_resolve.py` 18-218 and
`sql/query_arbitrary_merged_queries.py` 11-137.
-/
set_option autoImplicit false
namespace ML

/-! ### Validation -/

/-- A value under a key that should hold a list, as the `isinstance(…, list)` checks of
arbitrary_merge_resolve.py 184-195 see it. -/
inductive ListArg (α : Type)
  | missing
  | notList
  | list (l : List α)
  deriving DecidableEq, Repr

/-- A value under a key that should hold a string, arbitrary_merge_resolve.py 201-204. -/
inductive StrArg
  | missing
  | notStr
  | str (s : String)
  deriving DecidableEq, Repr

/-- An item of `join_fields`, arbitrary_merge_resolve.py 200-215. Something other than a dictionary
raises an error that depends on its kind (`in` on a number is a `TypeError`, on a string it is a
substring test). -/
inductive JoinArg
  | notDict (e : Err)
  | dict (field sourceField : StrArg)
  deriving DecidableEq, Repr

/-- The keys of one merged query read by the validation, arbitrary_merge_resolve.py 177-218, and its
`join_type`, 75. `funnel` says whether a truthy `funnel` is given; `rest` stands for the keys that
are only handed to the sub-query (`where`, `having`, `order_by`, `limit`). -/
structure MergeArg where
  metrics : ListArg String
  dimensions : ListArg String
  funnel : Bool := false
  joinFields : ListArg JoinArg := .missing
  joinType : Option String := none
  rest : String := ""
  deriving DecidableEq, Repr

/-- An item of `merged_queries`, arbitrary_merge_resolve.py 180. -/
inductive MergeItem
  | notDict
  | dict (a : MergeArg)
  deriving DecidableEq, Repr

/-- A join field after validation: `field` is in this query, `source` in the first,
arbitrary_merge_resolve.py 210-215. -/
structure JoinKey where
  field : String
  source : String
  deriving DecidableEq, Repr

/-- A merged query after validation. The join fields of the first query are not looked at by the
validation (191), they are `rawJoin`. -/
structure MergeSub where
  metrics : List String
  dimensions : List String
  joinFields : List JoinKey
  rawJoin : List JoinArg
  joinType : Option String
  rest : String
  deriving DecidableEq, Repr

/-- The loop over `join_fields`, arbitrary_merge_resolve.py 200-215. -/
def cleanJoin : List JoinArg → Res (List JoinKey)
  | [] => .ok []
  | .notDict e :: _ => .error e
  | .dict f s :: rest =>
    match f, s with
    | .str f, .str s =>
      match cleanJoin rest with
      | .error e => .error e
      | .ok js => .ok (⟨f.toLower, s.toLower⟩ :: js)
    | _, _ => .error .query

/-- The body of the loop of `validate_arbitrary_merged_queries`, arbitrary_merge_resolve.py 179-217. -/
def cleanMerge (i : ℕ) : MergeItem → Res MergeSub
  | .notDict => .error .query
  | .dict a =>
    match a.metrics, a.dimensions with
    | .list ms, .list ds =>
      if a.funnel then .error .query
      else
        match a.joinFields with
        | .notList => .error .query
        | .missing => if 0 < i then .error .query else .ok ⟨ms, ds, [], [], a.joinType, a.rest⟩
        | .list js =>
          if 0 < i then
            if js = [] then .error .query
            else
              match cleanJoin js with
              | .error e => .error e
              | .ok ks => .ok ⟨ms, ds, ks, [], a.joinType, a.rest⟩
          else .ok ⟨ms, ds, [], js, a.joinType, a.rest⟩
    | _, _ => .error .query

/-- `validate_arbitrary_merged_queries`, arbitrary_merge_resolve.py 177-218, from number `i` on. -/
def cleanMergesFrom : ℕ → List MergeItem → Res (List MergeSub)
  | _, [] => .ok []
  | i, q :: qs =>
    match cleanMerge i q with
    | .error e => .error e
    | .ok c =>
      match cleanMergesFrom (i + 1) qs with
      | .error e => .error e
      | .ok cs => .ok (c :: cs)

/-! ### The sub-queries -/

/-- The parts of a sub-query's resolver (`SQLQueryResolver`) that are read: its metrics and
dimensions after mapped names are replaced, its `mapping_lookup` (name ↦ fields), the ids recorded
in `field_object_lookup`, and the fields of its `where` and `order_by`. arbitrary_merge_resolve.py 145-174. -/
structure SubRes where
  metrics : List String
  dimensions : List String
  mappings : List (String × List String) := []
  ids : List (String × String) := []
  whereFields : List String := []
  orderFields : List String := []
  deriving DecidableEq, Repr

/-- A field as this code reads it: `id()`, `alias(with_view=True)` and `datatype`. arbitrary_merge_resolve.py 51-104. -/
structure AField where
  id : String
  aliasName : String
  datatype : Option String := none
  deriving DecidableEq, Repr

/-- The project and the construction of sub-queries, taken as they come: `get` is
`project.get_field`, `resolve` is `_init_resolver` with the extra lookup dimensions
(arbitrary_merge_resolve.py 145-161), `build` is `resolver.get_query` (67), `bigquery` and
`redshift` say which warehouse the query is for. -/
structure ArbEnv where
  get : String → Res AField
  resolve : MergeSub → List String → Res SubRes
  build : MergeSub → SubRes → Res Unit
  bigquery : Bool := false
  redshift : Bool := false

/-- `_resolve_join_logic`, arbitrary_merge_resolve.py 121-137: the name to join on. `StopIteration`
and a missing field become a `JoinError`. -/
def joinKeyName (env : ArbEnv) (r : SubRes) (name : String) : Res String :=
  match dictGet r.mappings name with
  | some fields =>
    match fields.find? (fun f => decide (f ∈ r.dimensions)) with
    | some f => .ok f
    | none => .error .join
  | none =>
    match env.get name with
    | .error .accessDenied => .error .join
    | .error e => .error e
    | .ok f => if f.id ∈ r.dimensions.map (fun d => (dictGet r.ids d).getD d) then .ok name else .error .join

/-- `_resolve_join_fields_mappings`, arbitrary_merge_resolve.py 106-118. -/
def joinKeys (env : ArbEnv) (primary r : SubRes) : List JoinKey → Res (List JoinKey)
  | [] => .ok []
  | k :: ks =>
    match joinKeyName env r k.field with
    | .error e => .error e
    | .ok f =>
      match joinKeyName env primary k.source with
      | .error e => .error e
      | .ok s =>
        match joinKeys env primary r ks with
        | .error e => .error e
        | .ok js => .ok (⟨f, s⟩ :: js)

/-- `_add_mapping_lookup`, arbitrary_merge_resolve.py 163-174. `last` is the local `field_name`,
which keeps its value between the rounds of the loop and is unbound at first. -/
def noteMappings (r : SubRes) : Option String → List (String × List String) → List (String × String) → Res (List (String × String))
  | _, [], lookup => .ok lookup
  | last, (name, fields) :: rest, lookup =>
    if (dictGet lookup name).isSome then noteMappings r last rest lookup
    else
      let last' :=
        match fields.find? (fun f => decide (f ∈ r.dimensions)) with
        | some f => some f
        | none =>
          match fields.find? (fun f => decide (f ∈ r.whereFields)) with
          | some f => some f
          | none =>
            match fields.find? (fun f => decide (f ∈ r.orderFields)) with
            | some f => some f
            | none => last
      match last' with
      | none => .error .unboundLocal
      | some f => noteMappings r last' rest (dictSet lookup name f)

/-- An entry of `sub_queries`, arbitrary_merge_resolve.py 68-77; the alias is `merged_query_{i}`. -/
structure SubQ where
  cte : String
  metrics : List String
  dimensions : List String
  joinFields : List JoinKey
  joinType : Option String
  deriving DecidableEq, Repr

/-- The join fields of the first query read as they are, arbitrary_merge_resolve.py 53 and 58. A
malformed one raises there, always taken as a `KeyError` here. -/
def rawKeys : List JoinArg → Res (List JoinKey)
  | [] => .ok []
  | .dict (.str f) (.str s) :: rest =>
    match rawKeys rest with
    | .error e => .error e
    | .ok ks => .ok (⟨f, s⟩ :: ks)
  | _ :: _ => .error .keyError

/-- The first query with its join fields read by `rawKeys`; the others have none to read. arbitrary_merge_resolve.py 53-58. -/
def openRaw (q : MergeSub) : Res MergeSub :=
  match rawKeys q.rawJoin with
  | .error e => .error e
  | .ok ks => .ok { q with joinFields := ks ++ q.joinFields, rawJoin := [] }

/-- The loop of `get_query`, arbitrary_merge_resolve.py 57-77, from number `i` on. -/
def subQueries (env : ArbEnv) (primary : SubRes) : ℕ → List MergeSub → List (String × String) → Res (List SubQ × List (String × String))
  | _, [], lookup => .ok ([], lookup)
  | i, q :: qs, lookup =>
    match env.resolve q (q.joinFields.map (·.field)) with
    | .error e => .error e
    | .ok r =>
      match noteMappings r none r.mappings lookup with
      | .error e => .error e
      | .ok lookup =>
        match (if 0 < i then joinKeys env primary r q.joinFields else .ok q.joinFields) with
        | .error e => .error e
        | .ok js =>
          match env.build q r with
          | .error e => .error e
          | .ok _ =>
            match subQueries env primary (i + 1) qs lookup with
            | .error e => .error e
            | .ok (ss, lookup) =>
              .ok (⟨"merged_query_" ++ toString i, r.metrics, r.dimensions, js, q.joinType⟩ :: ss, lookup)

/-! ### The merged query -/

/-- The join kinds of pypika used, query_base.py 58-68. -/
inductive SqlJoin
  | left | inner | outer | cross
  deriving DecidableEq, Repr

/-- `pypika_join_type_lookup`, query_base.py 58-68, after the default of
query_arbitrary_merged_queries.py 78-80. -/
def sqlJoinOf : Option String → SqlJoin
  | some "inner" => .inner
  | some "full_outer" => .outer
  | some "cross" => .cross
  | _ => .left

/-- One equality of a join condition, query_arbitrary_merged_queries.py 96-108: `cte.column` of the
first query and of the joined one, and whether both are cast to a timestamp. -/
structure JoinCond where
  base : String × String
  joined : String × String
  cast : Bool
  deriving DecidableEq, Repr

/-- `_build_join_criteria`, query_arbitrary_merged_queries.py 90-112. The empty list is `1=1`. -/
def joinConds (env : ArbEnv) (base joined : String) : List JoinKey → Res (List JoinCond)
  | [] => .ok []
  | k :: ks =>
    match env.get k.field with
    | .error e => .error e
    | .ok jf =>
      match env.get k.source with
      | .error e => .error e
      | .ok bf =>
        match joinConds env base joined ks with
        | .error e => .error e
        | .ok cs => .ok (⟨(base, bf.aliasName), (joined, jf.aliasName), env.bigquery && bf.datatype != jf.datatype⟩ :: cs)

/-- The joins of `build_cte_from`, query_arbitrary_merged_queries.py 69-84: the joined alias, the
kind and the condition. -/
def arbJoins (env : ArbEnv) (base : String) : List SubQ → Res (List (String × SqlJoin × List JoinCond))
  | [] => .ok []
  | q :: qs =>
    if env.redshift && q.joinFields.isEmpty then
      match arbJoins env base qs with
      | .error e => .error e
      | .ok js => .ok ((q.cte, .cross, []) :: js)
    else
      match joinConds env base q.cte q.joinFields with
      | .error e => .error e
      | .ok cs =>
        match arbJoins env base qs with
        | .error e => .error e
        | .ok js => .ok ((q.cte, sqlJoinOf q.joinType, cs) :: js)

/-- The aliases of a list of names: `project.get_field(…).alias(with_view=True)`,
query_arbitrary_merged_queries.py 120-123 and 127-129. -/
def aliasesOf (env : ArbEnv) : List String → Res (List String)
  | [] => .ok []
  | n :: ns =>
    match env.get n with
    | .error e => .error e
    | .ok f =>
      match aliasesOf env ns with
      | .error e => .error e
      | .ok as => .ok (f.aliasName :: as)

/-- The inner loop of `get_select_columns`, query_arbitrary_merged_queries.py 126-135, over the
aliases of one sub-query: the new columns and the aliases seen. -/
def pickColumns (cte : String) : List String → List String → List (String × String) × List String
  | seen, [] => ([], seen)
  | seen, a :: as =>
    if a ∈ seen then pickColumns cte seen as
    else
      let r := pickColumns cte (seen ++ [a]) as
      ((cte, a) :: r.1, r.2)

/-- `get_select_columns`, query_arbitrary_merged_queries.py 113-137: the columns `cte.alias as alias`
in order. The look-up table of aliases is this list read as a dictionary. -/
def selectColumns (env : ArbEnv) : List String → List SubQ → Res (List (String × String))
  | _, [] => .ok []
  | seen, q :: qs =>
    match aliasesOf env (q.joinFields.map (·.field)) with
    | .error e => .error e
    | .ok js =>
      match aliasesOf env (q.metrics ++ q.dimensions) with
      | .error e => .error e
      | .ok as =>
        let r := pickColumns q.cte (seen ++ js) as
        match selectColumns env r.2 qs with
        | .error e => .error e
        | .ok cols => .ok (r.1 ++ cols)

/-- The column a filter or an ordering uses: `_handle_cte_alias_replacement` (query_filter.py 214-223)
and query_arbitrary_merged_queries.py 45-51, with the table of aliases given by the columns. -/
def useColumn (env : ArbEnv) (cols : List (String × String)) (name : String) : Res (String × String) :=
  match env.get name with
  | .error e => .error e
  | .ok f =>
    match cols.find? (fun c => decide (c.2 = f.aliasName)) with
    | some c => .ok c
    | none => .error .query

/-- `useColumn` on a list of names. query_arbitrary_merged_queries.py 18-61. -/
def useColumns (env : ArbEnv) (cols : List (String × String)) : List String → Res (List (String × String))
  | [] => .ok []
  | n :: ns =>
    match useColumn env cols n with
    | .error e => .error e
    | .ok c =>
      match useColumns env cols ns with
      | .error e => .error e
      | .ok cs => .ok (c :: cs)

/-- The query that is built: its sub-queries, joins, selected columns and the columns its conditions
and ordering use. query_arbitrary_merged_queries.py 18-61. -/
structure ArbQuery where
  subs : List SubQ
  joins : List (String × SqlJoin × List JoinCond)
  columns : List (String × String)
  filters : List (String × String)
  orders : List (String × String)
  deriving DecidableEq, Repr

/-- `ArbitraryMergedQueryResolver(…).get_query`, arbitrary_merge_resolve.py 20-104, with
`MetricsLayerMergedQueries.get_query`, query_arbitrary_merged_queries.py 18-60. `filters` are the
field names of `where` and `having` in order (all plain conditions), `orders` those of `order_by`. Names
in the mapping look-up are replaced first (81-87). -/
def arbQuery (env : ArbEnv) (items : List MergeItem) (filters orders : List String) : Res ArbQuery :=
  match cleanMergesFrom 0 items with
  | .error e => .error e
  | .ok [] => .error .indexError
  | .ok (q0 :: rest) =>
    match openRaw q0 with
    | .error e => .error e
    | .ok q =>
        match env.resolve q ((q :: rest).flatMap (fun m => m.joinFields.map (·.source))) with
        | .error e => .error e
        | .ok primary =>
          match noteMappings primary none primary.mappings [] with
          | .error e => .error e
          | .ok lookup =>
            match subQueries env primary 0 (q :: rest) lookup with
            | .error e => .error e
            | .ok (subs, lookup) =>
              let clean := fun n : String => (dictGet lookup n.toLower).getD n
              match arbJoins env "merged_query_0" subs.tail with
              | .error e => .error e
              | .ok joins =>
                match selectColumns env [] subs with
                | .error e => .error e
                | .ok cols =>
                  match useColumns env cols (filters.map clean) with
                  | .error e => .error e
                  | .ok fs =>
                    match useColumns env cols (orders.map clean) with
                    | .error e => .error e
                    | .ok os => .ok ⟨subs, joins, cols, fs, os⟩

end ML
