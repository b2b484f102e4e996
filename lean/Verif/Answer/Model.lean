import Verif.Filters.Spec
import Verif.ParseQ.Model
import Verif.SymAgg.Model
/-
A whole single query: the statement `MetricsLayerQuery.get_query` builds from the arguments, with filters that carry a
`group_by`, and what a warehouse answers to such a statement.
`/repo/metrics_layer/core/sql/query_generator.py` 42-118, 154-280, 284-333, 426-450,
`/repo/metrics_layer/core/sql/query_filter.py` 195-236, 275-301, `/repo/metrics_layer/core/sql/query_dialect.py` 54-216.
Not in this area: the text of the FROM clause (area `Design`, C17-C19), number, cumulative and non-additive measures, funnels,
`select_raw_sql`.
-/
set_option autoImplicit false
namespace ML
open Spec

/-- What a field is for the SQL: a dimension with its expression (`sql_query`, field.py 496-515) or an aggregate measure
(`aggregate_sql_query`, field.py 517-579). -/
inductive FieldSql
  | dimension (sql : String)
  | measure (m : Measure)
  deriving DecidableEq, Repr

/-- What `get_query` reads of a field: its view, `alias()` (field.py 482-494), `primary_key` and its SQL. -/
structure AnsField where
  view : String
  name : String
  primaryKey : Bool
  sql : FieldSql
  deriving DecidableEq, Repr

/-- `alias(with_view=True)`, field.py 492-493. -/
def AnsField.label (f : AnsField) : String := f.view ++ "_" ++ f.name

/-- `field_type == "measure"`, field.py 506. -/
def AnsField.isMeasure (f : AnsField) : Bool := match f.sql with | .dimension _ => false | .measure _ => true

/-- An expression of the statement: computed row by row, or an aggregate (field.py 506-508). -/
inductive SqlExpr
  | row (sql : String)
  | agg (a : Agg)
  deriving DecidableEq, Repr

/-- `field.sql_query(query_type, functional_pk)`, field.py 496-508, used by SELECT (query_generator.py 299, 445-446) and by the
conditions (query_filter.py 212). -/
def fieldExpr (w : Warehouse) (fpk : FunctionalPk) (f : AnsField) : Res SqlExpr :=
  match f.sql with
  | .dimension s => .ok (.row s)
  | .measure m => (aggregateSql m w fpk).map .agg

/-- `field.raw_sql_query(query_type)` of a dimension or an aggregate measure, field.py 510-515. -/
def rawExpr (f : AnsField) : SqlExpr :=
  match f.sql with
  | .dimension s => .row s
  | .measure m => .row m.sql

/-- The part of a field the `ParseQ` area reads, for `parse_input`, GROUP BY and ORDER BY, query_generator.py 257-277, 426-435. The
aggregate text of a measure never reaches those clauses. -/
def AnsField.toQ (f : AnsField) : QField :=
  ⟨f.view, f.primaryKey, f.isMeasure, f.label, match f.sql with | .dimension s => s | .measure m => m.sql⟩

/-- A filter with a `group_by` key: the measure or dimension it is on, the entity to group by, and the comparison, query_filter.py
275-301. The comparison's number is the number of the leaf. -/
structure GroupFilter where
  field : String
  groupBy : String
  comparison : Nat
  deriving DecidableEq, Repr

/-- The arguments of the query. `wheres` and `havings` are the JSON filters without `group_by`; comparison `i` of a filter is on
field `fieldOf i`. single_query_resolve.py 24-46. -/
structure Question where
  metrics : List String
  dimensions : List String
  wheres : List FObj
  havings : List FObj
  whereNames : List String
  havingNames : List String
  orderNames : List String
  groupFilters : List GroupFilter
  order : OrderBy
  limit : Option Nat
  force : Bool
  fieldOf : Nat → String

/-- What the project and the design answer: `get_field` (query_design.py 259-260), the functional key of the FROM built for the
given views (query_design.py 195-219), and the comparisons the access filters of those views demand (query_design.py 262-288). -/
structure AnsProject where
  get : String → Res AnsField
  fpk : List String → FunctionalPk
  access : List String → List Nat

/-- One SELECT statement without its FROM text: `views` are the views the FROM is built for (`field_lookup`, query_design.py
24-31), `groupBy = none` when `groupby` is never called, `cond i` is the expression comparison `i` compares, and `byAlias` tells
whether the GROUP BY items are aliases (query_generator.py 431). -/
structure Block where
  views : List String
  select : List (SqlExpr × String)
  whereText : Option (List Tok)
  groupBy : Option (List String)
  byAlias : Bool
  havingText : Option (List Tok)
  orderBy : List OrderItem
  nullsOption : Bool
  limit : Option Nat
  cond : Nat → Res SqlExpr

/-- `expression IN (SELECT DISTINCT column FROM cte)` with the CTE, query_generator.py 191-200 and query_filter.py 225-236; `view`
is the view of the expression. -/
structure InCte where
  view : String
  sql : String
  column : String
  cte : Block

/-- The statement: the main block and its group filters. query_generator.py 154-280. -/
structure Stmt where
  block : Block
  inCtes : List InCte

/-- The builders with `NULLS LAST`, query_dialect.py 193-204: not Druid, SQL Server and Azure Synapse. -/
def hasNullsOption : Warehouse → Bool
  | .druid | .sqlServer | .azureSynapse => false
  | _ => true

/-- `base_query.limit(self.limit)`, query_generator.py 275: `LIMIT n`, but SQL Server and Synapse set `_top`
(query_dialect.py 176-178), which pypika leaves out when it is falsy (`MSSQLQueryBuilder._top_sql`). -/
def limitClause (w : Warehouse) (limit : Option Nat) : Option Nat :=
  match w with
  | .sqlServer | .azureSynapse => if limit = some 0 then none else limit
  | _ => limit

/-- The access filter as text, query_design.py 284-288. -/
def accessText : List Nat → Option (List Tok)
  | [] => none
  | cs => some (joinAnd (cs.map (fun i => [Tok.atom i])))

/-- `get_field` for each name in turn, query_generator.py 296-300. -/
def getAll (get : String → Res AnsField) : List String → Res (List AnsField)
  | [] => .ok []
  | n :: ns =>
    match get n with
    | .error e => .error e
    | .ok f =>
      match getAll get ns with
      | .error e => .error e
      | .ok fs => .ok (f :: fs)

/-- `_get_group_by_select_columns`, query_generator.py 295-300. -/
def groupSelect (w : Warehouse) (fpk : FunctionalPk) : List AnsField → Res (List (SqlExpr × String))
  | [] => .ok []
  | f :: fs =>
    match fieldExpr w fpk f with
    | .error e => .error e
    | .ok x =>
      match groupSelect w fpk fs with
      | .error e => .error e
      | .ok xs => .ok ((x, f.label) :: xs)

/-- `_deduplicate_select`, query_generator.py 329-336: the first column of each alias. -/
def dedupSelect (seen : List String) : List (SqlExpr × String) → List (SqlExpr × String)
  | [] => []
  | c :: cs => if c.2 ∈ seen then dedupSelect seen cs else c :: dedupSelect (c.2 :: seen) cs

/-- `_get_no_group_by_select_columns`, query_generator.py 302-327. -/
def rawSelect (fs : List AnsField) : List (SqlExpr × String) :=
  dedupSelect [] (fs.map (fun f => (rawExpr f, f.label)))

/-- `get_select_columns`, query_generator.py 284-293: the raw columns when nothing is grouped. -/
def blockColumns (w : Warehouse) (fpk : FunctionalPk) (groupBy : Option (List String)) (fs : List AnsField) :
    Res (List (SqlExpr × String)) :=
  match groupBy with
  | none => .ok (rawSelect fs)
  | some _ => groupSelect w fpk fs

/-- The HAVING clause, query_generator.py 183-185: none when nothing is grouped. -/
def havingClause (groupBy : Option (List String)) (havings : List FObj) : Res (Option (List Tok)) :=
  match groupBy with
  | none => .ok none
  | some _ => clauseText (havings.map QFilter.json)

/-- The `ParseQ` request of a question, query_generator.py 42-90. -/
def Question.toRequest (q : Question) (w : Warehouse) : QRequest where
  metrics := q.metrics
  dimensions := q.dimensions
  force := q.force
  whereNames := q.whereNames
  havingNames := q.havingNames
  orderNames := q.orderNames
  hasHaving := !q.havings.isEmpty
  order := q.order
  raw := []
  bigquery := w = .bigquery
  defaultOrder := w = .snowflake || w = .redshift || w = .duckDb

/-- The project's `get_field`, as `ParseQ` reads it, query_design.py 259-260. -/
def getQ (get : String → Res AnsField) (n : String) : Res QField := (get n).map AnsField.toQ

/-- The comparisons of a clause, query_filter.py 195-212. -/
def clauseComparisons : Option (List Tok) → List Nat
  | none => []
  | some ts => ts.filterMap (fun t => match t with | .atom i => some i | _ => none)

/-- Each comparison needs its field and the field's SQL, query_filter.py 127 and 212 (the error is raised where the comparison is met;
here after the clauses are put together). -/
def checkConds (cond : Nat → Res SqlExpr) : List Nat → Res Unit
  | [] => .ok ()
  | i :: is =>
    match cond i with
    | .error e => .error e
    | .ok _ => checkConds cond is

/-- One SELECT: `parse_definition` and `get_query` of a query without group filters, query_generator.py 42-118 and 154-189,
256-280. `views` are the views of `field_lookup`. -/
def buildBlock (P : AnsProject) (w : Warehouse) (views : List String) (q : Question) : Res Block :=
  match queryClauses (getQ P.get) (q.toRequest w) with
  | .error e => .error e
  | .ok c =>
    match getAll P.get (q.dimensions ++ q.metrics) with
    | .error e => .error e
    | .ok fs =>
      match blockColumns w (P.fpk views) c.groupBy fs with
      | .error e => .error e
      | .ok sel =>
        match clauseText (parseFilterObject (.filters q.wheres) (accessText (P.access views))) with
        | .error e => .error e
        | .ok wh =>
          match havingClause c.groupBy q.havings with
          | .error e => .error e
          | .ok hv =>
            let cond := fun i => match P.get (q.fieldOf i) with
              | .error e => .error e
              | .ok f => fieldExpr w (P.fpk views) f
            match checkConds cond (clauseComparisons wh ++ clauseComparisons hv) with
            | .error e => .error e
            | .ok _ =>
              .ok ⟨views, sel, wh, c.groupBy, decide (w = Warehouse.bigquery), hv, c.orderBy, hasNullsOption w, limitClause w q.limit, cond⟩

/-- The views of `field_lookup`: of the metrics, the dimensions and the named fields of the clauses; fields of filters with a
`group_by` key are not in it (single_query_resolve.py 154-181 and 224-227). -/
def lookupViews (P : AnsProject) (q : Question) : Res (List String) :=
  match getAll P.get (q.metrics ++ q.dimensions ++ q.whereNames ++ q.havingNames ++ q.orderNames) with
  | .error e => .error e
  | .ok fs => .ok (fs.map AnsField.view).dedup

/-- The question of a group filter's CTE, query_filter.py 279-300: the entity as only dimension, the condition as HAVING, no
WHERE. -/
def cteQuestion (q : Question) (g : GroupFilter) : Question where
  metrics := []
  dimensions := [g.groupBy]
  wheres := []
  havings := [.leaf { field := some g.field, first := g.comparison }]
  whereNames := []
  havingNames := []
  orderNames := []
  groupFilters := []
  order := .absent
  limit := none
  force := false
  fieldOf := fun i => if i = g.comparison then g.field else q.fieldOf i

/-- `f.cte(...)` and `f.isin_sql_query(...)`, query_filter.py 225-236 and 275-301. -/
def buildInCte (P : AnsProject) (w : Warehouse) (q : Question) (g : GroupFilter) : Res InCte :=
  match P.get g.groupBy with
  | .error e => .error e
  | .ok d =>
    match P.get g.field with
    | .error e => .error e
    | .ok m =>
      match buildBlock P w [d.view, m.view].dedup (cteQuestion q g) with
      | .error e => .error e
      | .ok b =>
        match d.sql with
        | .dimension s => .ok ⟨d.view, s, d.label, b⟩
        | .measure _ => .error .other

/-- The loop over the group filters, query_generator.py 191-200. -/
def buildInCtes (P : AnsProject) (w : Warehouse) (q : Question) : List GroupFilter → Res (List InCte)
  | [] => .ok []
  | g :: gs =>
    match buildInCte P w q g with
    | .error e => .error e
    | .ok c =>
      match buildInCtes P w q gs with
      | .error e => .error e
      | .ok cs => .ok (c :: cs)

/-- `SingleSQLQueryResolver` and `MetricsLayerQuery.get_query`, single_query_resolve.py 48-91 and query_generator.py 154-280.
`sorted(self.having_group_by_filters)` (line 193) compares two filters, which have no order: a TypeError. -/
def buildStmt (P : AnsProject) (w : Warehouse) (q : Question) : Res Stmt :=
  match lookupViews P q with
  | .error e => .error e
  | .ok views =>
    match buildBlock P w views q with
    | .error e => .error e
    | .ok b =>
      if 2 ≤ q.groupFilters.length then .error .typeError
      else
        match buildInCtes P w q q.groupFilters with
        | .error e => .error e
        | .ok cs => .ok ⟨b, cs⟩

/-! ### The warehouse -/

section
variable {ρ : Type}

/-- The warehouse: the rows of the FROM built for the given views, the views in that FROM, the value of row expressions and the
hash function, and the truth of comparison `i` for the value it compares (Filters and dates are areas `Filters`, `FilterStr`).
The FROM is query_generator.py 338-372. -/
structure Db (ρ : Type) where
  rows : List String → List ρ
  tables : List String → List String
  engine : Engine ρ
  test : Nat → Val → TV

/-- The value of an expression over a group of rows: an aggregate, or the value all rows of the group share; the expressions of
query_generator.py 295-300. -/
def SqlExpr.eval (E : Engine ρ) (G : List ρ) : SqlExpr → Val
  | .row s => (G.head?).bind (fun r => E.value r s)
  | .agg a => a.eval E G

/-- The truth of comparison `i` on a group of rows (a single row for WHERE), query_filter.py 212. -/
def Block.truth (D : Db ρ) (b : Block) (G : List ρ) (i : Nat) : TV :=
  match b.cond i with
  | .ok x => D.test i (x.eval D.engine G)
  | .error _ => .u

/-- A clause of conditions keeps the items on which it is true, query_generator.py 172-175 and 183-185. A WHERE with an aggregate
is refused by the warehouse; this is not in the relation. -/
def KeepsItems (D : Db ρ) (b : Block) (text : Option (List Tok)) (items kept : List (List ρ)) : Prop :=
  match text with
  | none => kept = items
  | some ts => ∃ e, Reads ts e ∧ kept = items.filter (fun G => e.eval (b.truth D G) = .t)

/-- The only column with the given alias; an alias of two columns is ambiguous. ORDER BY and BigQuery's GROUP BY use it,
query_generator.py 274-277 and 431-432. -/
def columnOf (sel : List (SqlExpr × String)) (a : String) : Option (Nat × SqlExpr) :=
  match (sel.zipIdx).filter (fun c => c.1.2 = a) with
  | [c] => some (c.2, c.1.1)
  | _ => none

/-- The expression a GROUP BY item stands for, query_generator.py 426-435. -/
def Block.groupExpr (b : Block) (t : String) : Option String :=
  if b.byAlias then
    match columnOf b.select t with
    | some (_, .row s) => some s
    | _ => none
  else some t

/-- GROUP BY, query_generator.py 178-180: without it every row stands alone; with no items everything is one group (the select
list then has aggregates); otherwise one group for each combination of values, in any order. -/
def Block.Groups (D : Db ρ) (b : Block) (kept : List ρ) (groups : List (List ρ)) : Prop :=
  match b.groupBy with
  | none => groups = kept.map (fun r => [r])
  | some [] => groups = [kept]
  | some ts => ∃ sqls, ts.mapM b.groupExpr = some sqls ∧
      groups.Perm ((kept.map (fun r => sqls.map (D.engine.value r))).dedup.map
        (fun k => kept.filter (fun r => sqls.map (D.engine.value r) = k)))

/-- Whether value `x` comes strictly before value `y`: NULLs last where the option is written, and as the lowest value where
it is not (SQL Server, Druid), query_generator.py 274-277 and query_dialect.py 84-112. -/
def valBefore (desc nullsOption : Bool) (x y : Val) : Bool :=
  match x, y with
  | some a, some b => if desc then b < a else a < b
  | some _, none => nullsOption || desc
  | none, some _ => !(nullsOption || desc)
  | none, none => false

/-- Whether line `x` comes strictly before line `y` under ORDER BY columns `(index, desc)`, query_generator.py 258-277. -/
def lineBefore (nullsOption : Bool) : List (Nat × Bool) → List Val → List Val → Bool
  | [], _, _ => false
  | (i, d) :: rest, x, y =>
    let a := (x[i]?).join
    let b := (y[i]?).join
    if valBefore d nullsOption a b then true
    else if valBefore d nullsOption b a then false
    else lineBefore nullsOption rest x y

/-- The ORDER BY columns of a block; `none` when one of them is unknown or ambiguous, query_generator.py 258-277. -/
def Block.orderColumns (b : Block) : Option (List (Nat × Bool)) :=
  b.orderBy.mapM (fun o => (columnOf b.select o.column).map (fun c => (c.1, o.desc)))

/-- `out` is an answer a warehouse may give to the block over the given rows: WHERE, GROUP BY, HAVING, SELECT, ORDER BY with ties in any order,
LIMIT; query_generator.py 167-189, 256-275. -/
def Block.Answers (D : Db ρ) (b : Block) (rows : List ρ) (out : List (List Val)) : Prop :=
  ∃ kept groups sel lines cols,
    KeepsItems D b b.whereText (rows.map (fun r => [r])) (kept.map (fun r => [r])) ∧
    b.Groups D kept groups ∧
    KeepsItems D b b.havingText groups sel ∧
    lines.Perm (sel.map (fun G => b.select.map (fun c => c.1.eval D.engine G))) ∧
    b.orderColumns = some cols ∧
    lines.Pairwise (fun x y => lineBefore b.nullsOption cols y x = false) ∧
    out = (match b.limit with | none => lines | some n => lines.take n)

/-- The values of a group filter's CTE column, query_filter.py 225-236: `SELECT DISTINCT column FROM cte`. -/
def InCte.Values (D : Db ρ) (c : InCte) (vs : List Val) : Prop :=
  ∃ lines i x, c.cte.Answers D (D.rows c.cte.views) lines ∧ columnOf c.cte.select c.column = some (i, x) ∧
    vs = lines.map (fun l => (l[i]?).join)

/-- `expression IN (values)` is true: not NULL and among the values, query_filter.py 225-236. -/
def inValues (E : Engine ρ) (sql : String) (vs : List Val) (r : ρ) : Bool :=
  (E.value r sql).isSome && decide (E.value r sql ∈ vs)

/-- The group filters restrict the rows: each expression's view has to be in the FROM, query_generator.py 191-200. -/
def CteRows (D : Db ρ) (views : List String) : List InCte → List ρ → List ρ → Prop
  | [], rows, out => out = rows
  | c :: cs, rows, out => c.view ∈ D.tables views ∧ ∃ vs, c.Values D vs ∧
      CteRows D views cs (rows.filter (inValues D.engine c.sql vs)) out

/-- An answer to the whole statement, query_generator.py 154-280. -/
def Stmt.Answers (D : Db ρ) (s : Stmt) (out : List (List Val)) : Prop :=
  ∃ rows, CteRows D s.block.views s.inCtes (D.rows s.block.views) rows ∧ s.block.Answers D rows out

end
end ML
