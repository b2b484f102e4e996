import Verif.SqlText.Whole
/-
C75: the text of a query, read as SQL, is one SELECT with the parts of the query, each in its clause.
-/
set_option autoImplicit false
namespace ML
open Spec

/-- C75. The text of a query whose parts keep to their places is read as one SELECT: the columns with their names, the tables with their joins and
conditions, the conditions on rows and groups, the grouping, the ordering and the limit are those of the query. -/
theorem C75_read (q : TextQuery) (exprs : List (List Char)) (semicolon : Bool) (h : WellWritten q exprs) :
    readSql (queryText q semicolon) = some (wanted q exprs) := by
  have hp := wellPlaced_of q exprs h
  unfold queryText
  split_ifs
  · rw [sqlText_read_semicolon _ hp, asRead_wanted q exprs h]
  · rw [List.append_nil, sqlText_read _ hp, asRead_wanted q exprs h]

/-- C75. Two queries whose texts are the same ask for the same. -/
theorem C75_same (q q' : TextQuery) (exprs exprs' : List (List Char)) (s s' : Bool) (h : WellWritten q exprs) (h' : WellWritten q' exprs')
    (e : queryText q s = queryText q' s') : wanted q exprs = wanted q' exprs' := by
  have h1 := C75_read q exprs s h
  rw [e, C75_read q' exprs' s' h'] at h1
  exact (Option.some.inj h1).symm

/-- C75. A semicolon ends the text if it is asked for, but not on Druid and Trino; the text before it is the same. -/
theorem C75_semicolon (q : TextQuery) :
    queryText q true = queryText q false ++ (match q.warehouse with | .druid | .trino => [] | _ => [';']) := by
  unfold queryText
  cases q.warehouse <;> simp

/-- C75. Rows are grouped by a raw column's expression: its alias, after the last ` as `, is left out. -/
theorem C75_raw (r e : List Char) (h : RawColumn r e) : stripAlias r = e := stripAlias_raw h

/-! ### Examples -/

instance (a : List Char) : Decidable (Keeps a) := by unfold Keeps; infer_instance
instance (a : List Char) : Decidable (OneItem a) := by unfold OneItem; infer_instance
instance (a : List Char) : Decidable (NoOr a) := by unfold NoOr; infer_instance
instance (a : List Char) : Decidable (NoAsEnd a) := by unfold NoAsEnd; infer_instance
instance (t : TableRef) : Decidable (TableKeeps t) := by cases t <;> (unfold TableKeeps; infer_instance)

/-- Revenue per channel and new customer, of large orders in Germany or by customers that bought often, with a join. -/
def exText : TextQuery where
  warehouse := .snowflake
  base := .table "analytics.order_lines".toList "order_lines".toList
  joins := [(some "inner", false, .derived "SELECT * FROM raw WHERE x = ')'".toList "orders".toList, "order_lines.order_id=orders.id".toList),
    (none, true, .table "analytics.days".toList "days".toList, [])]
  noGroup := false
  columns := [("order_lines.channel".toList, "order_lines_channel".toList), ("SUM(order_lines.revenue, 'a, b')".toList, "order_lines_revenue".toList)]
  rawColumns := []
  groupSql := [("order_lines.channel".toList, "order_lines_channel".toList)]
  raw := ["CAST(orders.day AS DATE) as day".toList, "orders.x".toList]
  wheres := ["orders.country='Germany, or from where'".toList, "(a = 1 OR b = 2)".toList]
  havings := ["SUM(order_lines.revenue)>12".toList]
  entities := [⟨"SELECT customer_id as c FROM t GROUP BY customer_id HAVING COUNT(*) > 3".toList, "order_lines.customer_id".toList, "c".toList⟩]
  dates := [⟨"cte_max_day".toList, "SELECT MAX(day) as d FROM t".toList, "1=1".toList⟩]
  order := [("order_lines_revenue".toList, true), ("order_lines_channel".toList, false)]
  limit := some 20

example : String.ofList (queryText exText true) =
    "WITH filter_subquery_0 AS (SELECT customer_id as c FROM t GROUP BY customer_id HAVING COUNT(*) > 3) ,cte_max_day AS (SELECT MAX(day) as d FROM t) SELECT order_lines.channel as order_lines_channel,SUM(order_lines.revenue, 'a, b') as order_lines_revenue,CAST(orders.day AS DATE) as day,orders.x FROM analytics.order_lines order_lines JOIN (SELECT * FROM raw WHERE x = ')') as orders ON order_lines.order_id=orders.id CROSS JOIN analytics.days days LEFT JOIN cte_max_day ON 1=1 WHERE orders.country='Germany, or from where' AND (a = 1 OR b = 2) AND order_lines.customer_id IN (SELECT DISTINCT c FROM filter_subquery_0) GROUP BY order_lines.channel,CAST(orders.day AS DATE),orders.x HAVING SUM(order_lines.revenue)>12 ORDER BY order_lines_revenue DESC NULLS LAST,order_lines_channel ASC NULLS LAST LIMIT 20;" := by
  decide +kernel

/-- The raw columns of the example without their aliases. -/
def exExprs : List (List Char) := ["CAST(orders.day AS DATE)".toList, "orders.x".toList]

theorem exRaw : RawColumn "CAST(orders.day AS DATE) as day".toList "CAST(orders.day AS DATE)".toList := by
  have h : ∀ x : List Char, x <:+: "CAST(orders.day AS DATE)".toList → x.map Char.toLower = [' ', 'a', 's', ' '] → x = [' ', 'A', 'S', ' '] := by
    rintro x ⟨s, t, e⟩ hx
    have hl : x.length = 4 := by simpa using congrArg List.length hx
    have hs : s.length ≤ 20 := by
      have := congrArg List.length e
      simp only [List.length_append, hl] at this
      have h24 : "CAST(orders.day AS DATE)".toList.length = 24 := by decide +kernel
      omega
    have hx' : x = ("CAST(orders.day AS DATE)".toList.drop s.length).take 4 := by
      rw [← e, List.append_assoc, List.drop_left, List.take_left' hl]
    rw [hx'] at hx ⊢
    have hall : ∀ n ∈ List.range 21, (("CAST(orders.day AS DATE)".toList.drop n).take 4).map Char.toLower = [' ', 'a', 's', ' '] →
        ("CAST(orders.day AS DATE)".toList.drop n).take 4 = [' ', 'A', 'S', ' '] := by decide +kernel
    exact hall s.length (List.mem_range.mpr (by omega)) hx
  have := RawColumn.named "CAST(orders.day AS DATE)".toList " as ".toList "day".toList (by decide +kernel) (by decide +kernel) (by decide +kernel) h
  have e : "CAST(orders.day AS DATE)".toList ++ " as ".toList ++ "day".toList = "CAST(orders.day AS DATE) as day".toList := by decide +kernel
  rw [e] at this
  exact this

theorem exWritten : WellWritten exText exExprs where
  asked := Or.inl (by decide +kernel)
  columns := by
    intro c hc
    have hc : c ∈ exText.columns := by
      rcases hc with hc | hc
      · exact hc
      · cases hc
    have hall : ∀ c ∈ exText.columns, OneItem c.1 ∧ OneItem c.2 ∧ (readTop (toks c.1)).1 = none ∧ NoAsEnd c.1 ∧ ' ' ∉ c.2 := by
      decide +kernel
    exact hall c hc
  raw := by decide +kernel
  exprs := by
    refine ⟨?_, by decide +kernel⟩
    exact List.Forall₂.cons exRaw (List.Forall₂.cons (RawColumn.bare _ (by decide +kernel)) List.Forall₂.nil)
  groups := by decide +kernel
  base := by decide +kernel
  joins := by decide +kernel
  wheres := by decide +kernel
  havings := by decide +kernel
  entities := by decide +kernel
  dates := by decide +kernel
  order := by decide +kernel

example : readSql (queryText exText true) = some (wanted exText exExprs) := C75_read exText exExprs true exWritten

/-- What is read of it. -/
example : ((readSql (queryText exText true)).map (fun s => (s.columns.length, s.joins.map (fun j => j.1), s.wheres.map List.length, s.groupBy.length))) =
    some (4, [.inner, .cross, .left], [3], 3) ∧
    ((readSql (queryText exText true)).map (fun s => (s.orderBy, s.limit))) =
      some ([([.word "order_lines_revenue".toList], true, true), ([.word "order_lines_channel".toList], false, true)], some [.word "20".toList]) := by
  decide +kernel

/-- The same on SQL Server: TOP and no nulls. -/
def exTop : TextQuery := { exText with warehouse := .sqlServer }

example : (readSql (queryText exTop true)).map (fun s => s.top) = some (some "20".toList) ∧
    (readSql (queryText exTop true)).map (fun s => s.orderBy) =
      some [([.word "order_lines_revenue".toList], true, false), ([.word "order_lines_channel".toList], false, false)] ∧
    (readSql (queryText exTop true)).map (fun s => s.limit) = some none := by
  decide +kernel

/-- An ungrouped query in which a name comes twice. -/
def exRows : TextQuery where
  warehouse := .trino
  base := .table "analytics.order_lines".toList "order_lines".toList
  joins := []
  noGroup := true
  columns := []
  rawColumns := [("t.a".toList, "a".toList), ("t.b".toList, "b".toList), ("t.c".toList, "a".toList)]
  groupSql := []
  raw := []
  wheres := []
  havings := []
  entities := []
  dates := []
  order := []
  limit := some 20

/-- It is selected once. -/
example : String.ofList (queryText exRows true) =
    "SELECT t.a as a,t.b as b FROM analytics.order_lines order_lines LIMIT 20" := by decide +kernel

/-! ### Where a part does not keep to its place -/

/-- C75, the limit of it. A raw column without a name whose expression has ` as ` in it is cut off in the GROUP BY: `CAST(x as date)` is grouped by as
`CAST(x`, and the text is no SELECT. -/
theorem C75_raw_cast : ∃ q : TextQuery, q.raw = ["CAST(x as date)".toList] ∧ (∀ c ∈ q.raw, OneItem c) ∧
    stripAlias "CAST(x as date)".toList = "CAST(x".toList ∧ readSql (queryText q true) = none :=
  ⟨{ exText with raw := ["CAST(x as date)".toList] }, rfl, by decide +kernel, by decide +kernel, by decide +kernel⟩

/-- C75, the limit of it. A text with ` as ` in quotes before the alias changes its case in the GROUP BY, so that rows are grouped by another
expression than the one selected. -/
theorem C75_raw_quoted : ∃ e r : List Char, r = e ++ " as y".toList ∧ OneItem e ∧ toks (stripAlias r) ≠ toks e ∧
    e = "CASE WHEN x = ' as ' THEN 1 END".toList ∧ stripAlias r = "CASE WHEN x = ' AS ' THEN 1 END".toList :=
  ⟨"CASE WHEN x = ' as ' THEN 1 END".toList, _, rfl, by decide +kernel, by decide +kernel, rfl, by decide +kernel⟩

/-- C75, the limit of it. A join with `join_type: cross` and a condition is written `CROSS JOIN … ON …`, which is no SELECT. -/
theorem C75_cross_on : ∃ q : TextQuery, q.joins = [(some "cross", false, .table "t".toList "u".toList, "a=b".toList)] ∧
    readSql (queryText q true) = none ∧ readSql (queryText { q with joins := [(some "inner", false, .table "t".toList "u".toList, "a=b".toList)] } true) ≠ none :=
  ⟨{ exText with joins := [(some "cross", false, .table "t".toList "u".toList, "a=b".toList)] }, rfl, by decide +kernel, by decide +kernel⟩

/-- C75, the limit of it. A condition given as text with OR at its top takes the others apart: the WHERE is read as two alternatives, and the other
condition is in only one of them. -/
theorem C75_or : ∃ q : TextQuery, q.wheres = ["a = 1 or b = 2".toList, "c = 3".toList] ∧
    ((readSql (queryText q true)).map (fun s => s.wheres)) =
      some [[toks "a = 1".toList], [toks "b = 2".toList, toks "c = 3".toList]] :=
  ⟨{ exText with wheres := ["a = 1 or b = 2".toList, "c = 3".toList], entities := [] }, rfl, by decide +kernel⟩

/-- C75, the limit of it. A condition given as text that has a semicolon makes two statements. -/
theorem C75_two_statements : ∃ q : TextQuery, q.wheres = ["1=1; DROP TABLE t".toList] ∧
    ((tokens (queryText q false)).map (fun ts => (partsBetween isSemicolon ts).length)) = some 2 ∧ readSql (queryText q false) = none :=
  ⟨{ exText with wheres := ["1=1; DROP TABLE t".toList] }, rfl, by decide +kernel, by decide +kernel⟩

end ML
