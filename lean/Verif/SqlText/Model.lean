import Verif.Answer.Model
import Verif.Refs.Model
/-
The text of a query: the parts `get_query` hands to pypika's builder and the text the builder makes of them.
`/repo/metrics_layer/core/sql/query_generator.py` 154-281, 284-360, 423-437, `/repo/metrics_layer/core/sql/query_dialect.py` 61-204,
`/repo/metrics_layer/core/sql/query_base.py` 54-85, `/repo/metrics_layer/core/sql/query_filter.py` 225-237,
`/repo/metrics_layer/core/sql/single_query_resolve.py` 86-91. The builder itself is the library pypika 0.48 (`QueryBuilder.get_sql` and
what it calls), whose text is written here clause by clause. The SQL of fields, of conditions and of sub-queries are texts of their own,
modelled elsewhere.
-/
set_option autoImplicit false
namespace ML

/-- pypika's `sep.join(parts)`, query_dialect.py 111. -/
def joinWith (sep : List Char) : List (List Char) → List Char
  | [] => []
  | [x] => x
  | x :: y :: r => x ++ sep ++ joinWith sep (y :: r)

/-- The join words, `pypika_join_type_lookup`, query_base.py 58-69. -/
inductive JoinWord
  | left | inner | full | cross
  deriving DecidableEq, Repr

/-- `pypika_join_type_lookup`, query_base.py 58-69: a missing or unknown type is a left join. -/
def joinWordOf (t : Option String) : JoinWord :=
  if t = some "left_outer" then .left
  else if t = some "inner" then .inner
  else if t = some "full_outer" then .full
  else if t = some "cross" then .cross
  else .left

/-- The text of a join word, pypika's `Join.get_sql`; query_base.py 58-69. -/
def JoinWord.text : JoinWord → List Char
  | .left => "LEFT JOIN ".toList
  | .inner => "JOIN ".toList
  | .full => "FULL OUTER JOIN ".toList
  | .cross => "CROSS JOIN ".toList

/-- A table of the FROM, query_generator.py 367-374. -/
inductive TableRef
  | table (name label : List Char)
  | derived (sql name : List Char)
  deriving DecidableEq, Repr

/-- `_table_expression` and pypika's `Table.get_sql`, query_generator.py 367-374. -/
def TableRef.text : TableRef → List Char
  | .table name label => name ++ ' ' :: label
  | .derived sql name => '(' :: sql ++ ") as ".toList ++ name

/-- One join: its word, the table and the condition, query_generator.py 346-358. A join of type `cross` has no condition (355-356). -/
structure TJoin where
  word : JoinWord
  table : List Char
  on : Option (List Char)
  deriving DecidableEq, Repr

/-- pypika's `JoinOn.get_sql` and `Join.get_sql`, query_generator.py 355-358. -/
def TJoin.text (j : TJoin) : List Char :=
  j.word.text ++ j.table ++ (match j.on with | none => [] | some c => " ON ".toList ++ c)

/-- What the builder holds when the text is made, query_generator.py 154-281. -/
structure SqlParts where
  ctes : List (List Char × List Char)
  top : Option ℕ
  select : List (List Char)
  source : List Char
  joins : List TJoin
  wheres : List (List Char)
  groupBy : List (List Char)
  havings : List (List Char)
  orderBy : List (List Char × Bool × Bool)
  limit : Option ℕ
  deriving DecidableEq, Repr

/-- The numbers of LIMIT and TOP in decimal, query_dialect.py 176-178. -/
def natText (n : ℕ) : List Char := (toString n).toList

/-- pypika's `_with_sql`; query_generator.py 191, 214 and 251. -/
def cteText (c : List Char × List Char) : List Char := c.1 ++ " AS (".toList ++ c.2 ++ ") ".toList

/-- `MSSQLQueryBuilder._top_sql` of pypika, query_dialect.py 172-178 and 202-203. -/
def topText : Option ℕ → List Char
  | none => []
  | some n => "TOP (".toList ++ natText n ++ ") ".toList

/-- pypika's `_limit_sql`, query_generator.py 273-274. -/
def limitText : Option ℕ → List Char
  | none => []
  | some n => " LIMIT ".toList ++ natText n

/-- The first part of the text, pypika's `_with_sql` and `_select_sql` with `MSSQLQueryBuilder._top_sql`; query_generator.py 166-168. -/
def selectText (p : SqlParts) : List Char :=
  (if p.ctes = [] then [] else "WITH ".toList ++ joinWith [','] (p.ctes.map cteText)) ++ "SELECT ".toList ++
    topText p.top ++ joinWith [','] p.select

/-- The FROM, query_generator.py 339-365. -/
def fromText (p : SqlParts) : List Char := " FROM ".toList ++ p.source ++ p.joins.flatMap (fun j => ' ' :: j.text)

/-- A clause that is left out when there is nothing in it: pypika's `get_sql`, query_generator.py 171-185. -/
def clause (word sep : List Char) (items : List (List Char)) : List Char :=
  if items = [] then [] else word ++ joinWith sep items

/-- One item of ORDER BY, query_dialect.py 90-110. -/
def orderText (o : List Char × Bool × Bool) : List Char :=
  o.1 ++ (if o.2.1 then " DESC".toList else " ASC".toList) ++ (if o.2.2 then " NULLS LAST".toList else [])

/-- pypika's `QueryBuilder.get_sql`, the clauses in their order; without columns there is no text. query_generator.py 276 and
query_dialect.py 67-111. -/
def sqlText (p : SqlParts) : List Char :=
  if p.select = [] then [] else
    selectText p ++ fromText p ++ clause " WHERE ".toList " AND ".toList p.wheres ++ clause " GROUP BY ".toList [','] p.groupBy ++
      clause " HAVING ".toList " AND ".toList p.havings ++ clause " ORDER BY ".toList [','] (p.orderBy.map orderText) ++
      limitText p.limit

/-! ### What `get_query` hands to the builder -/

/-- A column: the SQL of the field and its alias; `MetricsLayerQueryBase.sql`, query_base.py 71-74. -/
def aliasedColumn (c : List Char × List Char) : List Char := c.1 ++ " as ".toList ++ c.2

/-- Python's `text.split(sep)`, query_generator.py 332 and query_base.py 84; `skip` counts the characters of a separator still to be passed
over, `cur` is the current part, reversed. -/
def splitGo (sep : List Char) : ℕ → List Char → List Char → List (List Char)
  | _, cur, [] => [cur.reverse]
  | skip + 1, cur, _ :: cs => splitGo sep skip cur cs
  | 0, cur, c :: cs =>
    if sep.isPrefixOf (c :: cs) then cur.reverse :: splitGo sep (sep.length - 1) [] cs else splitGo sep 0 (c :: cur) cs

/-- Python's `text.split(" as ")[-1]`, query_generator.py 332. -/
def afterLastAs (text : List Char) : List Char := ((splitGo " as ".toList 0 [] text).getLast?).getD []

/-- `_deduplicate_select`, query_generator.py 329-336: the first column of each alias. -/
def dedupColumns (seen : List (List Char)) : List (List Char) → List (List Char)
  | [] => []
  | s :: r => if afterLastAs s ∈ seen then dedupColumns seen r else s :: dedupColumns (afterLastAs s :: seen) r

/-- `re.findall(r"(?i)\ as\ ", text)`, query_base.py 79; `skip` counts the characters of a match still to be passed over. -/
def findAs : ℕ → List Char → List (List Char)
  | _, [] => []
  | skip + 1, _ :: cs => findAs skip cs
  | 0, c :: cs =>
    if ((c :: cs).take 4).map Char.toLower = " as ".toList then (c :: cs).take 4 :: findAs 3 cs else findAs 0 cs

/-- `strip_alias`, query_base.py 76-85: all matches are written ` AS `, and the last part is dropped. -/
def stripAlias (sql : List Char) : List Char :=
  match findAs 0 sql with
  | [] => sql
  | ms => joinWith " AS ".toList (splitGo " AS ".toList 0 []
      (ms.foldl (fun text m => replaceAll m " AS ".toList text) sql)).dropLast

/-- The filter on a CTE: `isin_sql_query`, query_filter.py 225-237, with the text of pypika's `isin`. -/
def isinText (field label cte : List Char) : List Char :=
  field ++ " IN (SELECT DISTINCT ".toList ++ label ++ " FROM ".toList ++ cte ++ [')']

/-- A filter with a `group_by` key: the text of its CTE's query, the entity's SQL and its alias, query_generator.py 187-195. -/
structure EntityFilter where
  query : List Char
  field : List Char
  label : List Char
  deriving DecidableEq, Repr

/-- The subquery of a non additive metric: its alias, its text and the condition of its join, query_generator.py 197-243. -/
structure DateCte where
  name : List Char
  query : List Char
  on : List Char
  deriving DecidableEq, Repr

/-- What `get_query` reads, query_generator.py 154-281: the warehouse, the view tables and joins, columns of dimensions and metrics (grouped and
not), the raw columns, the conditions, the filters with a `group_by` key, the non additive metrics, the ordering as alias and whether
descending, the limit. `groupSql` are the dimensions' SQL, which may differ from the selected one, line 431. The filters by funnels (245-254) are
left out. -/
structure TextQuery where
  warehouse : Warehouse
  base : TableRef
  joins : List (Option String × Bool × TableRef × List Char)
  noGroup : Bool
  columns : List (List Char × List Char)
  rawColumns : List (List Char × List Char)
  groupSql : List (List Char × List Char)
  raw : List (List Char)
  wheres : List (List Char)
  havings : List (List Char)
  entities : List EntityFilter
  dates : List DateCte
  order : List (List Char × Bool)
  limit : Option ℕ

/-- The CTE of the `i`-th filter with a `group_by` key, query_generator.py 189. -/
def entityName (i : ℕ) : List Char := "filter_subquery_".toList ++ natText i

/-- The SELECT, query_generator.py 284-336. -/
def textSelect (q : TextQuery) : List (List Char) :=
  (if q.noGroup then dedupColumns [] (q.rawColumns.map aliasedColumn) else q.columns.map aliasedColumn) ++ q.raw

/-- The GROUP BY, query_generator.py 424-437: the aliases on BigQuery; raw columns without their aliases. -/
def textGroup (q : TextQuery) : List (List Char) :=
  if q.noGroup then []
  else q.groupSql.map (fun d => if q.warehouse = .bigquery then d.2 else d.1) ++ q.raw.map stripAlias

/-- Whether the warehouse writes its limit as TOP, query_dialect.py 172-178 and 202-203. -/
def writesTop : Warehouse → Bool
  | .sqlServer | .azureSynapse => true
  | _ => false

/-- The join of a view, query_generator.py 347-358. -/
def viewJoin (j : Option String × Bool × TableRef × List Char) : TJoin :=
  if j.2.1 then ⟨.cross, j.2.2.1.text, none⟩ else ⟨joinWordOf j.1, j.2.2.1.text, some j.2.2.2⟩

/-- `get_query`, query_generator.py 154-275: what the builder holds. -/
def queryParts (q : TextQuery) : SqlParts where
  ctes := q.entities.zipIdx.map (fun e => (entityName e.2, e.1.query)) ++ q.dates.map (fun d => (d.name, d.query))
  top := if writesTop q.warehouse then limitClause q.warehouse q.limit else none
  select := textSelect q
  source := q.base.text
  joins := q.joins.map viewJoin ++ q.dates.map (fun d => ⟨.left, d.name, some d.on⟩)
  wheres := q.wheres ++ q.entities.zipIdx.map (fun e => isinText e.1.field e.1.label (entityName e.2))
  groupBy := textGroup q
  havings := if q.noGroup then [] else q.havings
  orderBy := if q.noGroup then [] else q.order.map (fun o => (o.1, o.2, hasNullsOption q.warehouse))
  limit := if writesTop q.warehouse then none else limitClause q.warehouse q.limit

/-- The text handed out, query_generator.py 276-281 and single_query_resolve.py 86-89: a semicolon after it, except on Druid and Trino
(definitions.py 25). -/
def queryText (q : TextQuery) (semicolon : Bool) : List Char :=
  sqlText (queryParts q) ++ (if semicolon && q.warehouse ≠ .druid && q.warehouse ≠ .trino then [';'] else [])

end ML
