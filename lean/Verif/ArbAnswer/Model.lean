import Verif.Arb.Model
/-
What the warehouse answers to the statement of `merged_queries`: the FROM clause, the conditions and the columns written by
sql/query_arbitrary_merged_queries.py, over the answers of the sub-queries. The order of the lines and the limit are in Page.lean.
-/
set_option autoImplicit false
namespace ML
variable {α : Type} [DecidableEq α]

/-- A line of a sub-query: each column has a value or NULL. query_arbitrary_merged_queries.py 64-66 (the WITH clause). -/
abbrev MLine (α : Type) := String → Option α

/-- A joined row: for each sub-query met so far the line it contributes, or nothing (all NULL).
query_arbitrary_merged_queries.py 69-86. -/
abbrev MJRow (α : Type) := List (String × Option (MLine α))

/-- The value of `cte.column` in a joined row. query_arbitrary_merged_queries.py 101-108 and 133. -/
def cellAt (row : MJRow α) (c : String × String) : Option α :=
  match dictGet row c.1 with
  | some (some l) => l c.2
  | _ => none

/-- `base=joined`, or `CAST(base AS TIMESTAMP)=CAST(joined AS TIMESTAMP)`, query_arbitrary_merged_queries.py 101-108; a NULL
equals nothing. `cast` is what the warehouse makes of a value cast to a timestamp. -/
def condEq (cast : α → α) (c : JoinCond) : Option α → Option α → Bool
  | some x, some y => if c.cast then decide (cast x = cast y) else decide (x = y)
  | _, _ => false

/-- The join condition `c1 and c2 and …` between a joined row and a line, query_arbitrary_merged_queries.py 90-111; the empty
one is `1=1`. -/
def joinHit (cast : α → α) (conds : List JoinCond) (row : MJRow α) (t : MLine α) : Bool :=
  conds.all (fun c => condEq cast c (cellAt row c.base) (t c.joined.2))

/-- The rows one row becomes in an inner join, query_arbitrary_merged_queries.py 81-84. -/
def innerRowsA (cast : α → α) (cte : String) (conds : List JoinCond) (table : List (MLine α)) (row : MJRow α) : List (MJRow α) :=
  (table.filter (joinHit cast conds row)).map (fun t => row ++ [(cte, some t)])

/-- The rows one row becomes in a left join, query_arbitrary_merged_queries.py 81-84. -/
def leftRowsA (cast : α → α) (cte : String) (conds : List JoinCond) (table : List (MLine α)) (row : MJRow α) : List (MJRow α) :=
  if table.any (joinHit cast conds row) then innerRowsA cast cte conds table row else [row ++ [(cte, none)]]

/-- One join of the FROM clause, query_arbitrary_merged_queries.py 73-84. A cross join written with a condition is read as an
inner join (not every warehouse accepts it). -/
def arbStep (cast : α → α) (tables : String → List (MLine α)) (rows : List (MJRow α)) (j : String × SqlJoin × List JoinCond) :
    List (MJRow α) :=
  match j.2.1 with
  | .left => rows.flatMap (leftRowsA cast j.1 j.2.2 (tables j.1))
  | .inner => rows.flatMap (innerRowsA cast j.1 j.2.2 (tables j.1))
  | .cross => rows.flatMap (innerRowsA cast j.1 j.2.2 (tables j.1))
  | .outer => rows.flatMap (leftRowsA cast j.1 j.2.2 (tables j.1)) ++
      ((tables j.1).filter (fun t => rows.all (fun r => !joinHit cast j.2.2 r t))).map (fun t => [(j.1, some t)])

/-- The FROM clause, `build_cte_from`, query_arbitrary_merged_queries.py 62-86. -/
def arbRows (cast : α → α) (tables : String → List (MLine α)) (q : ArbQuery) : List (MJRow α) :=
  q.joins.foldl (arbStep cast tables) ((tables "merged_query_0").map (fun l => [("merged_query_0", some l)]))

/-- The columns of a line, `cte.alias as alias`, query_arbitrary_merged_queries.py 131-135. -/
def showLine (cols : List (String × String)) (row : MJRow α) : List (String × Option α) :=
  cols.map (fun c => (c.2, cellAt row c))

/-- The lines of the statement, query_arbitrary_merged_queries.py 18-60. `tests` are the conditions put on the columns of
`where` and `having`, one for each, with `true` for a row that is kept. -/
def arbAnswer (cast : α → α) (tables : String → List (MLine α)) (tests : List (Option α → Bool)) (q : ArbQuery) :
    List (List (String × Option α)) :=
  ((arbRows cast tables q).filter (fun r => (q.filters.zip tests).all (fun p => p.2 (cellAt r p.1)))).map (showLine q.columns)

end ML
