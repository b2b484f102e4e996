import Verif.Design.Model
import Verif.Dict
/-
What the warehouse computes for the FROM clause that `get_join_query_from` writes
(sql/query_generator.py 339-360), and the designer's choice of a functional primary key on the same
joins. Tables are lists of rows. The text of a condition is abstracted to a predicate on the row of
the view on its left and the row of the view it joins; conditions that mention a third view are not
modelled. A missing (all NULL) row satisfies no condition, as for the equalities the library writes.
-/
set_option autoImplicit false
namespace ML

/-- The join words of SQL that the library uses, `pypika_join_type_lookup`, query_base.py 59-69. -/
inductive JoinKind
  | left | inner | full
  deriving DecidableEq, Repr

/-- `pypika_join_type_lookup`, query_base.py 59-69: an unknown or missing type is a left join.
`cross` is written as `CROSS JOIN ... ON ...` (query_generator.py 352-356, since `join.type` is
`join`, never `cross`); a warehouse that accepts it computes the inner join. -/
def joinKind (t : String) : JoinKind :=
  if t = "left_outer" then .left
  else if t = "inner" then .inner
  else if t = "full_outer" then .full
  else if t = "cross" then .inner
  else .left

/-- One join of the FROM clause: the views, the declared relationship, the join word and the
condition, join_graph.py 111-119 and query_generator.py 346-358. -/
structure JoinStep (ρ : Type) where
  src : String
  tgt : String
  rel : Rel
  kind : JoinKind
  on : ρ → ρ → Bool

/-- A row of the joined result: the row of each view in it; a view that is absent is all NULL.
Query result of query_generator.py 339-360. -/
abbrev JRow (ρ : Type) := List (String × ρ)

section
variable {ρ : Type}

/-- The rows of the joined table that match, SQL semantics of the ON of query_generator.py 350-358. -/
def matching (j : JoinStep ρ) (table : List ρ) (row : JRow ρ) : List ρ :=
  match dictGet row j.src with
  | none => []
  | some r => table.filter (j.on r)

/-- The result of one row under an inner join, query_generator.py 350-358. -/
def innerRows (j : JoinStep ρ) (table : List ρ) (row : JRow ρ) : List (JRow ρ) :=
  (matching j table row).map (fun t => (j.tgt, t) :: row)

/-- The result of one row under a left join, query_generator.py 350-358. -/
def leftRows (j : JoinStep ρ) (table : List ρ) (row : JRow ρ) : List (JRow ρ) :=
  match matching j table row with
  | [] => [row]
  | t :: ts => (t :: ts).map (fun t => (j.tgt, t) :: row)

/-- Whether some row of the result so far matches this row of the joined table (a full join keeps
the others), query_generator.py 350-358. -/
def isMatched (j : JoinStep ρ) (rows : List (JRow ρ)) (t : ρ) : Bool :=
  rows.any (fun row => match dictGet row j.src with | none => false | some r => j.on r t)

/-- One `JOIN ... ON ...`, query_generator.py 346-358. -/
def stepJoin (j : JoinStep ρ) (table : List ρ) (rows : List (JRow ρ)) : List (JRow ρ) :=
  match j.kind with
  | .left => rows.flatMap (leftRows j table)
  | .inner => rows.flatMap (innerRows j table)
  | .full => rows.flatMap (leftRows j table) ++
      (table.filter (fun t => !isMatched j rows t)).map (fun t => [(j.tgt, t)])

/-- The rows of the FROM clause, `get_join_query_from`, query_generator.py 339-360. -/
def joinedRows (db : String → List ρ) (base : String) (joins : List (JoinStep ρ)) : List (JRow ρ) :=
  joins.foldl (fun rows j => stepJoin j (db j.tgt) rows) ((db base).map (fun r => [(base, r)]))

/-- `functional_pk` on these joins, query_design.py 195-251. -/
def reportedPk (base : String) (joins : List (JoinStep ρ)) : Option String :=
  functionalPk base (joins.map (fun j => (j.rel, (j.src, j.tgt))))

end
end ML
