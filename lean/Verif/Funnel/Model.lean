import Verif.Dict
import Mathlib.Order.Defs.LinearOrder
import Mathlib.Data.Nat.Notation
import Mathlib.Data.Int.Notation
/-
Model of funnel queries: `metrics_layer/core/sql/query_funnel.py`, the funnel part of `sql/single_query_resolve.py` 209-217 and
of `sql/query_filter.py` 303-327, with the meaning of the SQL they generate.
-/
set_option autoImplicit false
namespace ML

/-! ### The generated query -/

/-- The two tables in scope in the query of a step: the table of events and the previous step. Meaning of query_funnel.py 89-222. -/
inductive FSide
  | base | prev
  deriving DecidableEq, Repr

/-- The join of step n (n > 1), query_funnel.py 114-124: the previous step's name and the condition
`base.link = prev.link and earlier.date < later.date`. -/
structure StepJoin where
  prev : String
  earlier : FSide
  later : FSide
  deriving DecidableEq, Repr

/-- The window condition of a step, query_funnel.py 213-223: `datediff(unit, startCte.step_1_time, base.date) <= value`. -/
structure StepWithin where
  startCte : String
  unit : String
  value : ℤ
  deriving DecidableEq, Repr

/-- The query of one step, query_funnel.py 45-61: its name, its join, the step's conditions, the window condition, and where
`step_1_time` is taken from (`none`: the event's own date, `some c`: `c.step_1_time`). `S` is the type of a step's conditions. -/
structure StepSql (S : Type) where
  name : String
  join : Option StepJoin
  cond : S
  within : Option StepWithin
  time : Option String
  deriving Repr

/-- One branch of the union of the steps, query_funnel.py 63-71 and 104-109. -/
structure StepSelect where
  label : String
  order : ℕ
  cte : String
  deriving DecidableEq, Repr

/-- The `within` of a funnel: its `unit` and `value`; `none` for a value `int(…)` refuses. query_funnel.py 212-221. -/
structure StepWindow where
  unit : Option String
  value : Option ℤ
  deriving DecidableEq, Repr

/-- `_cte`, query_funnel.py 181-183. -/
def stepName (n : ℕ) : String := "step_" ++ toString n

/-- `FilterInterval.plural`, filter.py 94-96. -/
def pluralUnit (unit : String) : Res String :=
  match unit.toList.getLast? with
  | none => .error .indexError
  | some 's' => .ok unit.toLower
  | some _ => .ok (unit.toLower ++ "s")

/-- `_within_where`, query_funnel.py 213-223. `known` says for which units the warehouse has a date difference
(`dimension_group_duration_sql`, field.py 912-1010, otherwise raises `QueryError`). -/
def withinSql (known : String → Bool) (w : StepWindow) (stepNumber : ℕ) : Res StepWithin :=
  match w.unit with
  | none => .error .keyError
  | some u =>
    match pluralUnit u with
    | .error e => .error e
    | .ok u =>
      match w.value with
      | none => .error .valueError
      | some v => if known u then .ok ⟨stepName (stepNumber - 1), u, v⟩ else .error .query

/-- The body of the loop over the steps, query_funnel.py 43-71, for the step with index `i`. -/
def stepSql {S : Type} (known : String → Bool) (w : StepWindow) (i : ℕ) (cond : S) : Res (StepSql S) :=
  let stepNumber := i + 1
  let within : Res (Option StepWithin) := if stepNumber > 1 then (withinSql known w stepNumber).map some else .ok none
  match within with
  | .error e => .error e
  | .ok within =>
    if i = 0 then .ok ⟨stepName stepNumber, none, cond, within, none⟩
    else .ok ⟨stepName stepNumber, some ⟨stepName i, .prev, .base⟩, cond, within, some (stepName i)⟩

/-- The steps from index `i` on, query_funnel.py 43-71. -/
def stepSqls {S : Type} (known : String → Bool) (w : StepWindow) : ℕ → List S → Res (List (StepSql S))
  | _, [] => .ok []
  | i, c :: cs =>
    match stepSql known w i c with
    | .error e => .error e
    | .ok s =>
      match stepSqls known w (i + 1) cs with
      | .error e => .error e
      | .ok ss => .ok (s :: ss)

/-- `FunnelQuery.get_query`, query_funnel.py 37-90: the queries of the steps and the branches of the union. Without steps
`union_cte` is unbound. -/
def funnelSql {S : Type} (known : String → Bool) (w : StepWindow) (steps : List S) : Res (List (StepSql S) × List StepSelect) :=
  match stepSqls known w 0 steps with
  | .error e => .error e
  | .ok [] => .error .unboundLocal
  | .ok ss => .ok (ss, (List.range ss.length).map fun i => ⟨"Step " ++ toString (i + 1), i + 1, stepName (i + 1)⟩)

/-- `parse_funnel`, single_query_resolve.py 209-217, on the keys of the `funnel` dictionary: whether this is a funnel query. -/
def parseFunnel (keys : List String) : Res Bool :=
  if keys = [] then .ok false
  else if "steps" ∈ keys ∧ "within" ∈ keys then .ok true
  else .error .query

/-- `get_event_date`, query_funnel.py 164-180: the name of the event date. `viewName` is the view and its `default_date` when
`view_name` is given; `metrics` gives for each metric its view and the view's `default_date`. -/
def eventDate (viewName : Option (String × String)) (metrics : List (String × String)) : Res String :=
  match viewName with
  | some (v, d) => .ok (v ++ "." ++ d ++ "_raw")
  | none =>
    match metrics with
    | [(v, d)] =>
      match (splitChars '.' d.toList) with
      | [_] => .ok (v ++ "." ++ d ++ "_raw")
      | parts => .ok (String.ofList (parts.headD []) ++ "." ++ String.ofList (parts.getLastD []) ++ "_raw")
    | _ => .error .query

/-! ### What the SQL computes -/

section Eval
variable {S E P T : Type} [DecidableEq P] [LinearOrder T]

/-- The data a funnel runs on: the events (rows of the base query), the link column and the date of an event (`none` is NULL),
which events satisfy a step's conditions, and the warehouse's date difference in a unit (`none` is NULL). Meaning of
query_funnel.py 89-222. -/
structure FunnelData (S E P T : Type) where
  events : List E
  person : E → Option P
  time : E → Option T
  holds : S → E → Bool
  diff : String → T → T → Option ℤ

/-- A row of a step: the event and `step_1_time`. Meaning of query_funnel.py 89-222. -/
abbrev StepRow (E T : Type) := E × Option T

/-- `a = b` in SQL is true: both are values and they agree. Meaning of query_funnel.py 89-222. -/
def personEq (a b : Option P) : Bool :=
  match a, b with
  | some x, some y => decide (x = y)
  | _, _ => false

/-- `a < b` in SQL is true. Meaning of query_funnel.py 89-222. -/
def timeLt (a b : Option T) : Bool :=
  match a, b with
  | some x, some y => decide (x < y)
  | _, _ => false

/-- The window condition is true. Meaning of query_funnel.py 89-222. -/
def sqlWithin (d : FunnelData S E P T) (w : StepWithin) (start stop : Option T) : Bool :=
  match start, stop with
  | some a, some b =>
    match d.diff w.unit a b with
    | some n => decide (n ≤ w.value)
    | none => false
  | _, _ => false

/-- The rows of one step, given those of the steps before it. A name that is not in scope is an error of the warehouse. Meaning
of query_funnel.py 89-222. -/
def evalStep (d : FunnelData S E P T) (ctes : List (String × List (StepRow E T))) (s : StepSql S) : Res (List (StepRow E T)) :=
  match s.join with
  | none =>
    match s.within, s.time with
    | none, none => .ok ((d.events.filter (d.holds s.cond)).map fun e => (e, d.time e))
    | _, _ => .error .other
  | some j =>
    match dictGet ctes j.prev with
    | none => .error .other
    | some prev =>
      if (s.within.map (·.startCte)).getD j.prev = j.prev ∧ s.time.getD j.prev = j.prev then
        .ok (d.events.flatMap fun b => (prev.filter fun p =>
          let date := fun side => match side with | FSide.base => d.time b | FSide.prev => d.time p.1
          personEq (d.person b) (d.person p.1) && timeLt (date j.earlier) (date j.later) && d.holds s.cond b &&
            (match s.within with | none => true | some w => sqlWithin d w p.2 (d.time b))).map
          fun p => (b, match s.time with | none => d.time b | some _ => p.2))
      else .error .other

/-- All steps, each added to the names in scope. Meaning of query_funnel.py 89-222. -/
def evalSteps (d : FunnelData S E P T) : List (String × List (StepRow E T)) → List (StepSql S) → Res (List (String × List (StepRow E T)))
  | ctes, [] => .ok ctes
  | ctes, s :: ss =>
    match evalStep d ctes s with
    | .error e => .error e
    | .ok rows => evalSteps d (ctes ++ [(s.name, rows)]) ss

/-- The rows of every branch of the union, with its label, query_funnel.py 63-73. The grouping and the metrics are applied to these
rows. -/
def evalFunnel (known : String → Bool) (d : FunnelData S E P T) (w : StepWindow) (steps : List S) :
    Res (List (String × ℕ × List (StepRow E T))) :=
  match funnelSql known w steps with
  | .error e => .error e
  | .ok (ss, union) =>
    match evalSteps d [] ss with
    | .error e => .error e
    | .ok ctes => union.mapM fun u =>
      match dictGet ctes u.cte with
      | none => .error .other
      | some rows => .ok (u.label, u.order, rows)

/-! ### Filters by funnel -/

/-- `x IN (…)` in SQL: `none` is unknown. query_filter.py 321-327. -/
def sqlIn (x : Option P) (l : List (Option P)) : Option Bool :=
  match x with
  | none => if l = [] then some false else none
  | some p => if some p ∈ l then some true else if none ∈ l then none else some false

/-- The persons selected by a funnel filter, `funnel_cte`, query_filter.py 303-327: those events whose person is among those of
step `from_` and (for `converted`) is, or (otherwise) is not, among those of step `to_`. -/
def funnelPersons (d : FunnelData S E P T) (fromRows toRows : List (StepRow E T)) (converted : Bool) : List (Option P) :=
  ((d.events.filter fun e =>
    (sqlIn (d.person e) (fromRows.map fun r => d.person r.1)) == some true &&
    (if converted then sqlIn (d.person e) (toRows.map fun r => d.person r.1) == some true
      else sqlIn (d.person e) (toRows.map fun r => d.person r.1) == some false)).map d.person).eraseDups

end Eval

end ML
