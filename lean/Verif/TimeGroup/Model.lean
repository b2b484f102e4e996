import Verif.Week.Model
import Verif.Duration.Model
/-
The timeframes of a time dimension group: `/repo/metrics_layer/core/model/field.py`, `apply_dimension_group_time_sql`,
`_apply_timezone_to_sql`, `_fiscal_offset_to_timestamp` and `_apply_week_start_day_offset_only`.

Values of the column are moments with whole seconds. Casts to TIMESTAMP, DATETIME or TIMESTAMP_NTZ keep the moment and are left out;
casts to DATE, which lose the time of day, are kept. The meaning given to each SQL function is assumed behaviour of the warehouse.
-/
set_option autoImplicit false
namespace ML

/-- The timeframes of the dictionaries (field.py 1016-1056 and the same keys in each of the others). -/
inductive TGroup where
  | raw | time | second | minute | hour | date | week | month | quarter | year
  | fiscalMonth | fiscalQuarter | fiscalYear | weekIndex | weekOfMonth | monthIndex | fiscalMonthIndex | monthName
  | quarterOfYear | fiscalQuarterOfYear | hourOfDay | dayOfWeek | dayOfMonth | dayOfYear
  deriving DecidableEq, Repr

/-- The keys of the dictionaries, the aliases of field.py 1330-1335 included. -/
def timeGroupNames : List (String × TGroup) :=
  [("raw", .raw), ("time", .time), ("second", .second), ("minute", .minute), ("hour", .hour), ("date", .date), ("week", .week),
   ("month", .month), ("quarter", .quarter), ("year", .year), ("fiscal_month", .fiscalMonth), ("fiscal_quarter", .fiscalQuarter),
   ("fiscal_year", .fiscalYear), ("week_index", .weekIndex), ("week_of_month", .weekOfMonth), ("month_of_year_index", .monthIndex),
   ("fiscal_month_of_year_index", .fiscalMonthIndex), ("month_of_year", .monthName), ("quarter_of_year", .quarterOfYear),
   ("fiscal_quarter_of_year", .fiscalQuarterOfYear), ("hour_of_day", .hourOfDay), ("day_of_week", .dayOfWeek),
   ("day_of_month", .dayOfMonth), ("day_of_year", .dayOfYear), ("month_name", .monthName), ("month_index", .monthIndex),
   ("fiscal_month_index", .fiscalMonthIndex), ("week_of_year", .weekIndex)]

/-- `self.datatype` (field.py 382-386): the type the column has and the results are cast to. -/
inductive Datatype where
  | date | datetime | timestamp
  deriving DecidableEq, Repr

/-- SQL expressions whose value is a moment (field.py 1016-1318, 1342-1382, 1431-1466). -/
inductive TExpr where
  | col                                    -- the sql of the field
  | zoned (e : TExpr)                      -- CONVERT_TIMEZONE('tz', x), DATETIME(x, 'tz'), x at time zone 'UTC' at time zone 'tz'
  | castDate (e : TExpr)                   -- CAST(x AS DATE)
  | castTo (d : Datatype) (e : TExpr)      -- CAST(x AS <datatype>)
  | addMonths (k : ℤ) (e : TExpr)          -- DATEADD(MONTH, k, x), x + INTERVAL 'k' MONTH, DATE_ADD(x, INTERVAL k MONTH)
  | addDays (k : ℤ) (e : TExpr)            -- x + k, x + INTERVAL 'k' DAY, DATEADD(DAY, k, x)
  | trunc (u : DiffUnit) (e : TExpr)       -- DATE_TRUNC('u', x), DATETIME_TRUNC(x, u)
  | sinceZero (u : DiffUnit) (e : TExpr)   -- DATEADD(u, DATEDIFF(u, 0, x), 0)
  | weekStart (f : DateExpr) (e : TExpr)   -- the week expression of field.py 1403-1429 applied to x
  deriving DecidableEq, Repr

/-- The parts of a date the SQL asks for. Meaning of the SQL of field.py, `apply_dimension_group_time_sql`, 1013-1382. -/
inductive TPart where
  | week | month | quarter | hour | day | dayOfYear | dayOfWeek
  deriving DecidableEq, Repr

/-- SQL expressions whose value is a number (field.py 1034-1055 and the same keys of the others). -/
inductive NExpr where
  | extract (p : TPart) (e : TExpr)        -- EXTRACT(p FROM x)
  | datePart (p : TPart) (e : TExpr)       -- DATEPART(p, x)
  | hour24 (e : TExpr)                     -- CAST(CAST(x AS STRING FORMAT 'HH24') AS INT64)
  | sub (a b : NExpr)                      -- x - y
  | plus (a : NExpr) (n : ℤ)               -- x + n
  deriving DecidableEq, Repr

/-- SQL expressions whose value is a name (field.py 1045, 1051, 1208-1231, 1263, 1268, 1312, 1316). -/
inductive SExpr where
  | shortMonth (e : TExpr)                 -- TO_CHAR(x, 'Mon'), DATE_FORMAT(x, 'MMM'), FORMAT_DATETIME(x, 'MMM')
  | shortDay (e : TExpr)                   -- TO_CHAR(x, 'Dy'), DATE_FORMAT(x, 'E'), FORMAT_DATETIME(x, 'EEE')
  | leftMonth (n : ℕ) (e : TExpr)          -- LEFT(DATENAME(MONTH, x), n)
  | leftDay (n : ℕ) (e : TExpr)            -- LEFT(DATENAME(WEEKDAY, x), n)
  | caseOf (x : NExpr) (l : List (ℤ × String)) (other : String)  -- CASE x WHEN 1 THEN 'a' ... ELSE other END
  | fullMonth (e : TExpr)                  -- FORMAT_DATETIME('%B', x)
  | upperDay (e : TExpr)                   -- CAST(x AS STRING FORMAT 'DAY')
  deriving DecidableEq, Repr

/-- The SQL of a timeframe. Meaning of the SQL of field.py, `apply_dimension_group_time_sql`, 1013-1382. -/
inductive TSql where
  | moment (e : TExpr)
  | number (n : NExpr)
  | name (s : SExpr)
  deriving DecidableEq, Repr

/-- `convert_timezone` (field.py 370-380). The two settings of the model count only when they are `False`; the key `convert_timezone` of the field
comes before `convert_tz`; a value that is not true does not convert. -/
def convertTimezone (modelTz modelTimezone : Option Bool) (fieldTimezone fieldTz : Option (Option Bool)) : Bool :=
  let dflt := !(modelTz = some false || modelTimezone = some false)
  match fieldTimezone with
  | some v => v.getD false
  | none =>
    match fieldTz with
    | some v => v.getD false
    | none => dflt

/-- `_apply_timezone_to_sql` (field.py 1342-1363). -/
def applyTimezone (w : Warehouse) (d : Datatype) (e : TExpr) : TExpr :=
  match w with
  | .druid | .sqlServer | .azureSynapse => e
  | _ => .castTo d (.zoned e)

/-- `_fiscal_offset_to_timestamp` (field.py 1365-1382). -/
def fiscalOffset (k : ℤ) (e : TExpr) : TExpr :=
  if k = 0 then e else .addMonths k e

/-- `offset_lookup.get(week_start_day, None)` (field.py 1431-1443): an unknown weekday gives no offset. -/
def weekOffsetGet (setting : Option String) : Option ℤ :=
  match weekOffset (viewWeekStart setting) with
  | .ok k => some k
  | .error _ => none

/-- `_apply_week_start_day_offset_only` (field.py 1431-1468). -/
def offsetOnly (w : Warehouse) (setting : Option String) (e : TExpr) : TExpr :=
  match w with
  | .snowflake | .redshift | .bigquery =>
    match weekOffsetGet setting with
    | none => .trunc .day (.castDate e)
    | some k => .trunc .day (.addDays k (.castDate e))
  | .sqlServer | .azureSynapse =>
    match weekOffsetGet setting with
    | none => .castDate e
    | some k => .addDays k (.castDate e)
  | _ =>
    match weekOffsetGet setting with
    | none => .trunc .day e
    | some k => .trunc .day (.addDays k e)

/-- The names in the CASE of Druid's months (field.py 1208-1213). -/
def druidMonths : List (ℤ × String) :=
  [(1, "Jan"), (2, "Feb"), (3, "Mar"), (4, "Apr"), (5, "May"), (6, "Jun"), (7, "Jul"), (8, "Aug"), (9, "Sep"), (10, "Oct"), (11, "Nov"),
   (12, "Dec")]

/-- The names in the CASE of Druid's weekdays (field.py 1219-1223). -/
def druidDays : List (ℤ × String) :=
  [(1, "Mon"), (2, "Tue"), (3, "Wed"), (4, "Thu"), (5, "Fri"), (6, "Sat"), (7, "Sun")]

/-- The dictionary of SQL Server and Azure Synapse (field.py 1228-1271, 1327). -/
def sqlServerSql (w : Warehouse) (k : ℤ) (setting : Option String) (s : TExpr) : TGroup → Res TSql
  | .raw => .ok (.moment s)
  | .time => .ok (.moment s)
  | .second => .ok (.moment (.sinceZero .second s))
  | .minute => .ok (.moment (.sinceZero .minute s))
  | .hour => .ok (.moment (.sinceZero .hour s))
  | .date => .ok (.moment (.castDate s))
  | .week =>
    match weekSql w setting with
    | .error e => .error e
    | .ok f => .ok (.moment (.weekStart f s))
  | .month => .ok (.moment (.sinceZero .month (.castDate s)))
  | .quarter => .ok (.moment (.sinceZero .quarter (.castDate s)))
  | .year => .ok (.moment (.sinceZero .year (.castDate s)))
  | .fiscalMonth => .ok (.moment (.sinceZero .month (.castDate (fiscalOffset k s))))
  | .fiscalQuarter => .ok (.moment (.sinceZero .quarter (.castDate (fiscalOffset k s))))
  | .fiscalYear => .ok (.moment (.sinceZero .year (.castDate (fiscalOffset k s))))
  | .weekIndex => .ok (.number (.extract .week (.castDate (offsetOnly w setting s))))
  | .weekOfMonth =>
    .ok (.number (.plus (.sub (.extract .week (.castDate s)) (.extract .week (.sinceZero .month (.castDate s)))) 1))
  | .monthIndex => .ok (.number (.extract .month (.castDate s)))
  | .fiscalMonthIndex => .ok (.number (.extract .month (.castDate (fiscalOffset k s))))
  | .monthName => .ok (.name (.leftMonth 3 (.castDate s)))
  | .quarterOfYear => .ok (.number (.datePart .quarter (.castDate s)))
  | .fiscalQuarterOfYear => .ok (.number (.datePart .quarter (.castDate (fiscalOffset k s))))
  | .hourOfDay => .ok (.number (.datePart .hour s))
  | .dayOfWeek => .ok (.name (.leftDay 3 (.castDate s)))
  | .dayOfMonth => .ok (.number (.datePart .day (.castDate s)))
  | .dayOfYear => .ok (.number (.datePart .dayOfYear (.castDate s)))

/-- The dictionary of BigQuery (field.py 1272-1318). -/
def bigQuerySql (d : Datatype) (k : ℤ) (setting : Option String) (s : TExpr) : TGroup → Res TSql
  | .raw => .ok (.moment s)
  | .time => .ok (.moment s)
  | .second => .ok (.moment (.castTo d (.trunc .second s)))
  | .minute => .ok (.moment (.castTo d (.trunc .minute s)))
  | .hour => .ok (.moment (.castTo d (.trunc .hour s)))
  | .date => .ok (.moment (.castTo d (.trunc .day (.castDate s))))
  | .week =>
    match weekSql .bigquery setting with
    | .error e => .error e
    | .ok f => .ok (.moment (.castTo d (.weekStart f s)))
  | .month => .ok (.moment (.castTo d (.trunc .month (.castDate s))))
  | .quarter => .ok (.moment (.castTo d (.trunc .quarter (.castDate s))))
  | .year => .ok (.moment (.castTo d (.trunc .year (.castDate s))))
  | .fiscalMonth => .ok (.moment (.castTo d (.trunc .month (.castDate (fiscalOffset k s)))))
  | .fiscalQuarter => .ok (.moment (.castTo d (.trunc .quarter (.castDate (fiscalOffset k s)))))
  | .fiscalYear => .ok (.moment (.castTo d (.trunc .year (.castDate (fiscalOffset k s)))))
  | .weekIndex => .ok (.number (.extract .week (offsetOnly .bigquery setting s)))
  | .weekOfMonth => .ok (.number (.plus (.sub (.extract .week s) (.extract .week (.trunc .month (.castDate s)))) 1))
  | .monthIndex => .ok (.number (.extract .month s))
  | .fiscalMonthIndex => .ok (.number (.extract .month (fiscalOffset k s)))
  | .monthName => .ok (.name (.fullMonth s))
  | .quarterOfYear => .ok (.number (.extract .quarter s))
  | .fiscalQuarterOfYear => .ok (.number (.extract .quarter (fiscalOffset k s)))
  | .hourOfDay => .ok (.number (.hour24 s))
  | .dayOfWeek => .ok (.name (.upperDay s))
  | .dayOfMonth => .ok (.number (.extract .day s))
  | .dayOfYear => .ok (.number (.extract .dayOfYear s))

/-- The dictionaries of the other warehouses (field.py 1016-1227, 1322-1325). They differ in casts to TIMESTAMP and in the names of months and
weekdays. -/
def otherSql (w : Warehouse) (k : ℤ) (setting : Option String) (s : TExpr) : TGroup → Res TSql
  | .raw => .ok (.moment s)
  | .time => .ok (.moment s)
  | .second => .ok (.moment (.trunc .second s))
  | .minute => .ok (.moment (.trunc .minute s))
  | .hour => .ok (.moment (.trunc .hour s))
  | .date => .ok (.moment (.trunc .day s))
  | .week =>
    match weekSql w setting with
    | .error e => .error e
    | .ok f => .ok (.moment (.weekStart f s))
  | .month => .ok (.moment (.trunc .month s))
  | .quarter => .ok (.moment (.trunc .quarter s))
  | .year => .ok (.moment (.trunc .year s))
  | .fiscalMonth => .ok (.moment (.trunc .month (fiscalOffset k s)))
  | .fiscalQuarter => .ok (.moment (.trunc .quarter (fiscalOffset k s)))
  | .fiscalYear => .ok (.moment (.trunc .year (fiscalOffset k s)))
  | .weekIndex => .ok (.number (.extract .week (offsetOnly w setting s)))
  | .weekOfMonth => .ok (.number (.plus (.sub (.extract .week s) (.extract .week (.trunc .month s))) 1))
  | .monthIndex => .ok (.number (.extract .month s))
  | .fiscalMonthIndex => .ok (.number (.extract .month (fiscalOffset k s)))
  | .monthName =>
    match w with
    | .druid => .ok (.name (.caseOf (.extract .month s) druidMonths "Invalid Month"))
    | _ => .ok (.name (.shortMonth s))
  | .quarterOfYear => .ok (.number (.extract .quarter s))
  | .fiscalQuarterOfYear => .ok (.number (.extract .quarter (fiscalOffset k s)))
  | .hourOfDay => .ok (.number (.extract .hour s))
  | .dayOfWeek =>
    match w with
    | .druid => .ok (.name (.caseOf (.extract .dayOfWeek s) druidDays "Invalid Day"))
    | _ => .ok (.name (.shortDay s))
  | .dayOfMonth => .ok (.number (.extract .day s))
  | .dayOfYear => .ok (.number (.extract .dayOfYear s))

/-- What `apply_dimension_group_time_sql` reads of the field, its view, model and project (field.py 1014-1340). -/
structure TimeField where
  group : String
  datatype : Datatype
  /-- `model.fiscal_month_offset` -/
  fiscal : ℤ
  /-- the model's `week_start_day` -/
  weekStart : Option String
  /-- `project.timezone` is set -/
  timezone : Bool
  /-- `convert_timezone` -/
  convert : Bool

/-- `apply_dimension_group_time_sql` (field.py 1014-1340). An unknown timeframe is a KeyError. -/
def timeSql (w : Warehouse) (f : TimeField) : Res TSql :=
  let s : TExpr := if f.timezone && f.convert then applyTimezone w f.datatype .col else .col
  match timeGroupNames.lookup f.group with
  | none => .error .keyError
  | some g =>
    match w with
    | .sqlServer | .azureSynapse => sqlServerSql w f.fiscal f.weekStart s g
    | .bigquery => bigQuerySql f.datatype f.fiscal f.weekStart s g
    | _ => otherSql w f.fiscal f.weekStart s g

/-! ### What the warehouses do with the SQL -/

/-- The same moment without its time of day (CAST(x AS DATE)). Meaning of the SQL of field.py, `apply_dimension_group_time_sql`,
1013-1382. -/
def DateTime.midnight (t : DateTime) : DateTime := ⟨t.date, 0⟩

/-- CAST(x AS <datatype>) (field.py 1274 and others). -/
def castType (d : Datatype) (t : DateTime) : DateTime :=
  match d with
  | .date => t.midnight
  | _ => t

/-- DATE_TRUNC (used by field.py 1019-1026). Assumed behaviour of the warehouses: the smaller fields are set to their first values. -/
def truncTo (u : DiffUnit) (t : DateTime) : DateTime :=
  match u with
  | .second => t
  | .minute => ⟨t.date, t.sec / 60 * 60⟩
  | .hour => ⟨t.date, t.sec / 3600 * 3600⟩
  | .day => ⟨t.date, 0⟩
  | .month => ⟨⟨t.date.year, t.date.month, 1⟩, 0⟩
  | .quarter => ⟨⟨t.date.year, (t.date.month - 1) / 3 * 3 + 1, 1⟩, 0⟩
  | .year => ⟨⟨t.date.year, 1, 1⟩, 0⟩
  | .week | .isoWeek => ⟨t.date.addDays (- t.date.weekday), 0⟩
  | .isoYear => t

/-- Seconds of a moment since day 0 (for DATEDIFF). Meaning of the SQL of field.py, `apply_dimension_group_time_sql`, 1013-1382. -/
def absSeconds (t : DateTime) : ℤ := 86400 * t.date.ordinal + t.sec

/-- DATEDIFF of SQL Server (used by field.py 1231-1249): the boundaries between the moments. Assumed behaviour of the warehouse. -/
def serverDiff (u : DiffUnit) (a b : DateTime) : ℤ :=
  match u with
  | .second => absSeconds b - absSeconds a
  | .minute => absSeconds b / 60 - absSeconds a / 60
  | .hour => absSeconds b / 3600 - absSeconds a / 3600
  | .day => b.date.ordinal - a.date.ordinal
  | .month => 12 * b.date.year + b.date.month - (12 * a.date.year + a.date.month)
  | .quarter => (12 * b.date.year + b.date.month - 1) / 3 - (12 * a.date.year + a.date.month - 1) / 3
  | .year => b.date.year - a.date.year
  | .week | .isoWeek | .isoYear => 0

/-- A number of seconds later. Meaning of the SQL of field.py, `apply_dimension_group_time_sql`, 1013-1382. -/
def DateTime.addSeconds (t : DateTime) (n : ℤ) : DateTime :=
  ⟨t.date.addDays ((t.sec + n) / 86400), (t.sec + n) % 86400⟩

/-- DATEADD of SQL Server (used by field.py 1231-1249). Assumed behaviour of the warehouse. -/
def serverAdd (u : DiffUnit) (n : ℤ) (t : DateTime) : DateTime :=
  match u with
  | .second => t.addSeconds n
  | .minute => t.addSeconds (60 * n)
  | .hour => t.addSeconds (3600 * n)
  | .day => ⟨t.date.addDays n, t.sec⟩
  | .month => ⟨t.date.addMonths n, t.sec⟩
  | .quarter => ⟨t.date.addMonths (3 * n), t.sec⟩
  | .year => ⟨t.date.addMonths (12 * n), t.sec⟩
  | .week | .isoWeek | .isoYear => t

/-- The moment `0` of SQL Server. Meaning of the SQL of field.py, `apply_dimension_group_time_sql`, 1013-1382. -/
def serverZero : DateTime := ⟨⟨1900, 1, 1⟩, 0⟩

/-- The result of DATEDIFF has 32 bits; a larger difference is an error. Assumed behaviour of the warehouse. -/
def fitsInt (n : ℤ) : Bool := -2147483648 ≤ n && n ≤ 2147483647

/-- Value of a moment expression, for a column with value `t`; `zone` gives the local time of a moment in the time zone of the project.
`none` is an error of the warehouse. Meaning of the SQL of field.py, `apply_dimension_group_time_sql`, 1013-1382. -/
def TExpr.eval (w : Warehouse) (zone : DateTime → DateTime) (t : DateTime) : TExpr → Option DateTime
  | .col => some t
  | .zoned e => (e.eval w zone t).map zone
  | .castDate e => (e.eval w zone t).map DateTime.midnight
  | .castTo d e => (e.eval w zone t).map (castType d)
  | .addMonths k e => (e.eval w zone t).map fun x => ⟨x.date.addMonths k, x.sec⟩
  | .addDays k e => (e.eval w zone t).map fun x => ⟨x.date.addDays k, x.sec⟩
  | .trunc u e => (e.eval w zone t).map (truncTo u)
  | .sinceZero u e =>
    match e.eval w zone t with
    | none => none
    | some x =>
      if fitsInt (serverDiff u serverZero x) then some (serverAdd u (serverDiff u serverZero x) serverZero) else none
  | .weekStart f e => (e.eval w zone t).map fun x => ⟨x.date.addDays (f.eval w x.date.ordinal - x.date.ordinal), 0⟩

/-- The number of the ISO week: the weeks start on Monday and belong to the year their Thursday is in. Meaning of the SQL of
field.py, `apply_dimension_group_time_sql`, 1013-1382. -/
def isoWeekNumber (d : Date) : ℤ :=
  let thursday := d.addDays (3 - d.weekday)
  (thursday.ordinal - daysBeforeYear thursday.year - 1) / 7 + 1

/-- The number of the week counted from Sundays: the days before the first Sunday of the year are in week 0. Meaning of the SQL
of field.py, `apply_dimension_group_time_sql`, 1013-1382. -/
def sundayWeekNumber (d : Date) : ℤ :=
  (d.ordinal - daysBeforeYear d.year - 1 + 7 - (d.weekday + 1) % 7) / 7

/-- The parts of a moment. Assumed behaviour of the warehouses: WEEK is the ISO week, on BigQuery the week counted from Sundays; DOW (used on
Druid) is 1 on Monday. Meaning of the SQL of field.py, `apply_dimension_group_time_sql`, 1013-1382. -/
def partOf (w : Warehouse) (p : TPart) (t : DateTime) : ℤ :=
  match p with
  | .week => if w = .bigquery then sundayWeekNumber t.date else isoWeekNumber t.date
  | .month => t.date.month
  | .quarter => (t.date.month - 1) / 3 + 1
  | .hour => t.sec / 3600
  | .day => t.date.day
  | .dayOfYear => t.date.ordinal - daysBeforeYear t.date.year
  | .dayOfWeek => t.date.weekday + 1

/-- Value of a number expression. SQL Server and Azure Synapse have no EXTRACT. Meaning of the SQL of field.py,
`apply_dimension_group_time_sql`, 1013-1382. -/
def NExpr.eval (w : Warehouse) (zone : DateTime → DateTime) (t : DateTime) : NExpr → Option ℤ
  | .extract p e =>
    match w with
    | .sqlServer | .azureSynapse => none
    | _ => (e.eval w zone t).map (partOf w p)
  | .datePart p e => (e.eval w zone t).map (partOf w p)
  | .hour24 e => (e.eval w zone t).map (partOf w .hour)
  | .sub a b =>
    match a.eval w zone t, b.eval w zone t with
    | some x, some y => some (x - y)
    | _, _ => none
  | .plus a n => (a.eval w zone t).map (· + n)

/-- English names of the months, as DATENAME and '%B' give them. Meaning of the SQL of field.py,
`apply_dimension_group_time_sql`, 1013-1382. -/
def fullMonthName (m : ℤ) : String :=
  if m = 1 then "January" else if m = 2 then "February" else if m = 3 then "March" else if m = 4 then "April" else if m = 5 then "May"
  else if m = 6 then "June" else if m = 7 then "July" else if m = 8 then "August" else if m = 9 then "September"
  else if m = 10 then "October" else if m = 11 then "November" else "December"

/-- English names of the weekdays (Monday is 0), as DATENAME gives them. Meaning of the SQL of field.py,
`apply_dimension_group_time_sql`, 1013-1382. -/
def fullDayName (n : ℤ) : String :=
  if n = 0 then "Monday" else if n = 1 then "Tuesday" else if n = 2 then "Wednesday" else if n = 3 then "Thursday"
  else if n = 4 then "Friday" else if n = 5 then "Saturday" else "Sunday"

/-- The names 'Mon', 'MMM' stand for in formats. Meaning of the SQL of field.py, `apply_dimension_group_time_sql`, 1013-1382. -/
def shortMonthName (m : ℤ) : String :=
  if m = 1 then "Jan" else if m = 2 then "Feb" else if m = 3 then "Mar" else if m = 4 then "Apr" else if m = 5 then "May"
  else if m = 6 then "Jun" else if m = 7 then "Jul" else if m = 8 then "Aug" else if m = 9 then "Sep" else if m = 10 then "Oct"
  else if m = 11 then "Nov" else "Dec"

/-- The names 'Dy', 'E', 'EEE' stand for in formats. Meaning of the SQL of field.py, `apply_dimension_group_time_sql`, 1013-1382. -/
def shortDayName (n : ℤ) : String :=
  if n = 0 then "Mon" else if n = 1 then "Tue" else if n = 2 then "Wed" else if n = 3 then "Thu" else if n = 4 then "Fri"
  else if n = 5 then "Sat" else "Sun"

/-- The names 'DAY' stands for in BigQuery: upper case, with blanks up to nine characters. Meaning of the SQL of field.py,
`apply_dimension_group_time_sql`, 1013-1382. -/
def upperDayName (n : ℤ) : String :=
  if n = 0 then "MONDAY   " else if n = 1 then "TUESDAY  " else if n = 2 then "WEDNESDAY" else if n = 3 then "THURSDAY "
  else if n = 4 then "FRIDAY   " else if n = 5 then "SATURDAY " else "SUNDAY   "

/-- Value of a name expression. Meaning of the SQL of field.py, `apply_dimension_group_time_sql`, 1013-1382. -/
def SExpr.eval (w : Warehouse) (zone : DateTime → DateTime) (t : DateTime) : SExpr → Option String
  | .shortMonth e => (e.eval w zone t).map fun x => shortMonthName x.date.month
  | .shortDay e => (e.eval w zone t).map fun x => shortDayName x.date.weekday
  | .leftMonth n e => (e.eval w zone t).map fun x => String.ofList ((fullMonthName x.date.month).toList.take n)
  | .leftDay n e => (e.eval w zone t).map fun x => String.ofList ((fullDayName x.date.weekday).toList.take n)
  | .caseOf x l other => (x.eval w zone t).map fun n => (l.lookup n).getD other
  | .fullMonth e => (e.eval w zone t).map fun x => fullMonthName x.date.month
  | .upperDay e => (e.eval w zone t).map fun x => upperDayName x.date.weekday

/-- The value of a timeframe. Meaning of the SQL of field.py, `apply_dimension_group_time_sql`, 1013-1382. -/
inductive TVal where
  | moment (t : DateTime)
  | number (n : ℤ)
  | name (s : String)
  deriving DecidableEq, Repr

/-- Value of the SQL of a timeframe on a warehouse. Meaning of the SQL of field.py, `apply_dimension_group_time_sql`, 1013-1382. -/
def TSql.eval (w : Warehouse) (zone : DateTime → DateTime) (t : DateTime) : TSql → Option TVal
  | .moment e => (e.eval w zone t).map .moment
  | .number n => (n.eval w zone t).map .number
  | .name s => (s.eval w zone t).map .name

end ML
