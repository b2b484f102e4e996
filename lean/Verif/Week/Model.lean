import Verif.Dates.Civil
import Verif.SymAgg.Model
/-
Truncation to the week: `/repo/metrics_layer/core/model/field.py`, `_week_dimension_group_time_sql` and
`_week_sql_date_trunc`; `/repo/metrics_layer/core/model/view.py`, `week_start_day`.
-/
set_option autoImplicit false
namespace ML

/-- `View.week_start_day` (view.py 155-161) for the model's setting: lower-cased, Monday when missing or
empty. -/
def viewWeekStart (setting : Option String) : String :=
  match setting with
  | some s => if s = "" then "monday" else lower s
  | none => "monday"

/-- `offset_lookup[week_start_day]` (field.py 1389-1397). -/
def weekOffset (day : String) : Res ℤ :=
  if day = "sunday" then .ok 1
  else if day = "saturday" then .ok 2
  else if day = "friday" then .ok 3
  else if day = "thursday" then .ok 4
  else if day = "wednesday" then .ok 5
  else if day = "tuesday" then .ok 6
  else .error .keyError

/-- SQL date expressions (field.py 1404-1427). -/
inductive DateExpr where
  | col                              -- CAST(x AS DATE)
  | addDays (n : ℤ) (e : DateExpr)   -- x + n, x + INTERVAL 'n' DAY, DATEADD(DAY, n, x)
  | truncWeek (e : DateExpr)         -- DATE_TRUNC('WEEK', x)
  | weeksSinceZero (e : DateExpr)    -- DATEADD(WEEK, DATEDIFF(WEEK, 0, x), 0)
  deriving DecidableEq, Repr

/-- `_week_sql_date_trunc` (field.py 1403-1429). The casts, which only remove the time of day, are left
out. -/
def weekTruncSql (w : Warehouse) (offset : Option ℤ) : DateExpr :=
  match w with
  | .sqlServer | .azureSynapse =>
    match offset with
    | none => .weeksSinceZero .col
    | some k => .addDays (-k) (.weeksSinceZero (.addDays k .col))
  | _ =>
    match offset with
    | none => .truncWeek .col
    | some k => .addDays (-k) (.truncWeek (.addDays k .col))

/-- `_week_dimension_group_time_sql` (field.py 1384-1401). The final cast on BigQuery is left out. -/
def weekSql (w : Warehouse) (setting : Option String) : Res DateExpr :=
  if viewWeekStart setting = "monday" then .ok (weekTruncSql w none)
  else
    match weekOffset (viewWeekStart setting) with
    | .error e => .error e
    | .ok k => .ok (weekTruncSql w (some k))

/-- The weekday of the day with this number (Monday is 0), as `Date.weekday`. Used for field.py, `_week_sql_date_trunc`, 1404-1420. -/
def dayOfWeek (n : ℤ) : ℤ := (n + 6) % 7

/-- What `DATE_TRUNC` to the week does to a day number on each warehouse (used by field.py 1408-1423).
Assumed behaviour of the warehouses: Monday everywhere, but Sunday for BigQuery's WEEK. -/
def dateTruncWeek (w : Warehouse) (n : ℤ) : ℤ :=
  match w with
  | .bigquery => n - (dayOfWeek n + 1) % 7
  | _ => n - dayOfWeek n

/-- `DATEADD(WEEK, DATEDIFF(WEEK, 0, x), 0)` on SQL Server (used by field.py 1426-1427). Day zero is
1900-01-01, a Monday; DATEDIFF counts the Sundays after it up to x, whatever the settings.
Assumed behaviour of the warehouse. -/
def dateAddWeeks (n : ℤ) : ℤ :=
  let zero : ℤ := (⟨1900, 1, 1⟩ : Date).ordinal
  zero + 7 * ((n - (zero - 1)) / 7)

/-- Value of a date expression on a day number (field.py 1403-1429). -/
def DateExpr.eval (w : Warehouse) (n : ℤ) : DateExpr → ℤ
  | .col => n
  | .addDays k e => e.eval w n + k
  | .truncWeek e => dateTruncWeek w (e.eval w n)
  | .weeksSinceZero e => dateAddWeeks (e.eval w n)

end ML
