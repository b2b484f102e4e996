import Verif.Basic
import Verif.SymAgg.Model
import Verif.Dates.Model
/-
Durations between two moments: `/repo/metrics_layer/core/model/field.py`, `dimension_group_duration_sql`.
-/
set_option autoImplicit false
namespace ML

/-- The units named in the SQL difference functions (field.py 914-992). -/
inductive DiffUnit where
  | second | minute | hour | day | week | month | quarter | year | isoWeek | isoYear
  deriving DecidableEq, Repr

/-- The two moments, `sql_start` and `sql_end`. Meaning of the SQL of field.py, `dimension_group_duration_sql`, 912-1010. -/
inductive Side where
  | start | finish
  deriving DecidableEq, Repr

/-- The atoms of the SQL: a call of the warehouse's difference function from one moment to the other, `DATE_PART(unit, AGE(end, start))`, and
`TRUNC(DATE_PART(unit, AGE(end, start))/n)` (field.py 914-992). The casts to DATE and TIMESTAMP on BigQuery are part of the call: `dates` says
that the moments are cut to dates. -/
inductive DurAtom where
  | diff (unit : DiffUnit) (dates : Bool) (fromSide toSide : Side)
  | part (unit : DiffUnit)
  | truncPart (unit : DiffUnit) (n : ℤ)
  deriving DecidableEq, Repr

/-- The tokens of the SQL: the texts are put together without brackets (field.py 936-961). -/
inductive DurTok where
  | atom (a : DurAtom)
  | times (n : ℤ)
  | plus
  deriving DecidableEq, Repr

/-- The unit of a dimension group `seconds`, …, `years` (the keys of the inner dictionaries, field.py 914-992). -/
def diffUnitOf (group : String) : Option DiffUnit :=
  if group = "seconds" then some .second
  else if group = "minutes" then some .minute
  else if group = "hours" then some .hour
  else if group = "days" then some .day
  else if group = "weeks" then some .week
  else if group = "months" then some .month
  else if group = "quarters" then some .quarter
  else if group = "years" then some .year
  else none

/-- The text for Postgres, field.py 934-962. -/
def postgresDuration : DiffUnit → List DurTok
  | .day => [.atom (.part .day)]
  | .hour => [.atom (.part .day), .times 24, .plus, .atom (.part .hour)]
  | .minute => [.atom (.part .day), .times 24, .plus, .atom (.part .hour), .times 60, .plus, .atom (.part .minute)]
  | .second => [.atom (.part .day), .times 24, .plus, .atom (.part .hour), .times 60, .plus, .atom (.part .minute), .times 60, .plus,
      .atom (.part .second)]
  | .week => [.atom (.truncPart .day 7)]
  | .year => [.atom (.part .year)]
  | .month => [.atom (.part .year), .times 12, .plus, .atom (.part .month)]
  | .quarter => [.atom (.part .year), .times 4, .plus, .atom (.truncPart .month 3)]
  | _ => []     -- not a dimension group

/-- The text for BigQuery, field.py 983-1003: the end comes first in the call, so the difference is from the second to the first argument. -/
def bigqueryDuration : DiffUnit → List DurTok
  | .second => [.atom (.diff .second false .start .finish)]
  | .minute => [.atom (.diff .minute false .start .finish)]
  | .hour => [.atom (.diff .hour false .start .finish)]
  | .week => [.atom (.diff .isoWeek true .start .finish)]
  | .year => [.atom (.diff .isoYear true .start .finish)]
  | u => [.atom (.diff u true .start .finish)]

/-- `dimension_group_duration_sql`, field.py 912-1017. Every warehouse has a dictionary, the copies being those of field.py 1005-1011; an unknown
unit is a KeyError that becomes a QueryError. -/
def durationSql (w : Warehouse) (group : String) : Res (List DurTok) :=
  match diffUnitOf group with
  | none => .error .query
  | some u =>
    match w with
    | .postgres => .ok (postgresDuration u)
    | .bigquery => .ok (bigqueryDuration u)
    | _ => .ok [.atom (.diff u false .start .finish)]

/-! ### What the SQL means -/

/-- The value of a token list, `*` binding before `+`: `sum` is what has been added, `cur` the product being read. Meaning of the
SQL of field.py, `dimension_group_duration_sql`, 912-1010. -/
def evalDurGo (val : DurAtom → ℤ) (sum cur : ℤ) : List DurTok → ℤ
  | [] => sum + cur
  | .atom a :: ts => evalDurGo val sum (val a) ts
  | .times n :: ts => evalDurGo val sum (cur * n) ts
  | .plus :: ts => evalDurGo val (sum + cur) 0 ts

/-- The value of the SQL. Meaning of the SQL of field.py, `dimension_group_duration_sql`, 912-1010. -/
def evalDur (val : DurAtom → ℤ) (ts : List DurTok) : ℤ := evalDurGo val 0 0 ts

/-- The parts of a Postgres interval of whole seconds. Meaning of the SQL of field.py, `dimension_group_duration_sql`, 912-1010. -/
structure AgeParts where
  years : ℤ
  months : ℤ
  days : ℤ
  secs : ℤ
  deriving DecidableEq, Repr

/-- Postgres' `AGE(end, start)` for an end that is not before the start (assumed behaviour of the warehouse, `timestamp_age`): the fields are
subtracted, and a negative field borrows from the next one, a month having the length of the month of the start. Meaning of the
SQL of field.py, `dimension_group_duration_sql`, 912-1010. -/
def ageOf (s e : DateTime) : AgeParts :=
  let secs := e.sec - s.sec
  let days := e.date.day - s.date.day - (if secs < 0 then 1 else 0)
  let months := e.date.month - s.date.month - (if days < 0 then 1 else 0)
  let years := e.date.year - s.date.year - (if months < 0 then 1 else 0)
  ⟨years, if months < 0 then months + 12 else months, if days < 0 then days + daysInMonth s.date.year s.date.month else days,
   if secs < 0 then secs + 86400 else secs⟩

/-- `DATE_PART(unit, …)` of an interval: one of its fields. Meaning of the SQL of field.py, `dimension_group_duration_sql`, 912-1010. -/
def agePart (a : AgeParts) : DiffUnit → ℤ
  | .second => a.secs % 60
  | .minute => a.secs / 60 % 60
  | .hour => a.secs / 3600
  | .day => a.days
  | .month => a.months
  | .year => a.years
  | _ => 0

/-- The moment of a side. Meaning of the SQL of field.py, `dimension_group_duration_sql`, 912-1010. -/
def sideOf (s e : DateTime) : Side → DateTime
  | .start => s
  | .finish => e

/-- The value of an atom. `diff` is the warehouse's difference function, from the first to the second moment. Meaning of the SQL
of field.py, `dimension_group_duration_sql`, 912-1010. -/
def durAtomValue (diff : DiffUnit → DateTime → DateTime → ℤ) (s e : DateTime) : DurAtom → ℤ
  | .diff u dates a b =>
    let cut := fun t : DateTime => if dates then ⟨t.date, 0⟩ else t
    diff u (cut (sideOf s e a)) (cut (sideOf s e b))
  | .part u => agePart (ageOf s e) u
  | .truncPart u n => (agePart (ageOf s e) u).tdiv n

/-- The duration the warehouse computes. Meaning of the SQL of field.py, `dimension_group_duration_sql`, 912-1010. -/
def durationValue (diff : DiffUnit → DateTime → DateTime → ℤ) (w : Warehouse) (group : String) (s e : DateTime) : Res ℤ :=
  match durationSql w group with
  | .error x => .error x
  | .ok ts => .ok (evalDur (durAtomValue diff s e) ts)

end ML
