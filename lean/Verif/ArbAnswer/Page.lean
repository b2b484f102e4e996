import Verif.ArbAnswer.Model
import Verif.Answer.Model
/-
The order of the lines of the statement of `merged_queries` and its limit: sql/query_arbitrary_merged_queries.py 43-57.
-/
set_option autoImplicit false
namespace ML
variable {α : Type} [DecidableEq α]

/-- Whether a value comes strictly before another: NULLs last where the option is written, as the lowest value where it is not.
query_arbitrary_merged_queries.py 52-55 and query_dialect.py 84-112. `lt` is the warehouse's order of values. -/
def cellBefore (lt : α → α → Bool) (desc nullsOption : Bool) : Option α → Option α → Bool
  | some a, some b => if desc then lt b a else lt a b
  | some _, none => nullsOption || desc
  | none, some _ => !(nullsOption || desc)
  | none, none => false

/-- Whether a row comes strictly before another under ORDER BY, each column with its direction.
query_arbitrary_merged_queries.py 43-55. -/
def rowBefore (lt : α → α → Bool) (nullsOption : Bool) : List ((String × String) × Bool) → MJRow α → MJRow α → Bool
  | [], _, _ => false
  | (c, d) :: rest, x, y =>
    if cellBefore lt d nullsOption (cellAt x c) (cellAt y c) then true
    else if cellBefore lt d nullsOption (cellAt y c) (cellAt x c) then false
    else rowBefore lt nullsOption rest x y

/-- `out` is an answer the warehouse may give to the whole statement: its rows in the order asked for, ties in any order, and of
these the first ones. query_arbitrary_merged_queries.py 18-57. `descs` are the directions of `order_by`. -/
def ArbPage (w : Warehouse) (lt : α → α → Bool) (cast : α → α) (tables : String → List (MLine α)) (tests : List (Option α → Bool))
    (descs : List Bool) (limit : Option Nat) (q : ArbQuery) (out : List (List (String × Option α))) : Prop :=
  ∃ rows : List (MJRow α),
    rows.Perm ((arbRows cast tables q).filter (fun r => (q.filters.zip tests).all (fun p => p.2 (cellAt r p.1)))) ∧
    rows.Pairwise (fun x y => rowBefore lt (hasNullsOption w) (q.orders.zip descs) y x = false) ∧
    out = (match limitClause w limit with | none => rows | some n => rows.take n).map (showLine q.columns)

end ML
