import Verif.TimeGroup.Model
import Verif.Duration.Spec
/-
Specification vocabulary for C53.
-/
set_option autoImplicit false
namespace ML.Spec

/-- The timeframes that cut a moment to the start of a calendar unit. -/
def cuttingTimeframes : List (String × DiffUnit) :=
  [("second", .second), ("minute", .minute), ("hour", .hour), ("date", .day), ("month", .month), ("quarter", .quarter), ("year", .year)]

/-- The timeframes that cut a moment to the start of a fiscal period. -/
def fiscalTimeframes : List (String × DiffUnit) :=
  [("fiscal_month", .month), ("fiscal_quarter", .quarter), ("fiscal_year", .year)]

/-- `r` is the first moment of the calendar unit `t` is in. -/
structure FirstMoment (u : DiffUnit) (t r : DateTime) : Prop where
  valid : r.Valid
  same : unitNumber 1 u r = unitNumber 1 u t
  first : ∀ m : DateTime, m.Valid → unitNumber 1 u m = unitNumber 1 u t → secondsOf r ≤ secondsOf m

/-- The warehouses on which the time zone of the project is ignored. -/
def zonelessWarehouses : List Warehouse := [.druid, .sqlServer, .azureSynapse]

/-- SQL Server and Azure Synapse. -/
def serverWarehouses : List Warehouse := [.sqlServer, .azureSynapse]

/-- The moment the timeframes of the field are taken of, when the column has value `t`: the local time when the field converts to the time zone of
the project and the warehouse can; a column of type DATE stays a date. -/
def shownMoment (w : Warehouse) (zone : DateTime → DateTime) (f : TimeField) (t : DateTime) : DateTime :=
  if f.timezone = true ∧ f.convert = true ∧ w ∉ zonelessWarehouses then
    (if f.datatype = .date then ⟨(zone t).date, 0⟩ else zone t)
  else t

/-- The field is translated and the column value `t` gives the value `v`. -/
def Gives (w : Warehouse) (zone : DateTime → DateTime) (f : TimeField) (t : DateTime) (v : TVal) : Prop :=
  ∃ sql, timeSql w f = .ok sql ∧ sql.eval w zone t = some v

/-- The field is translated, but the warehouse answers the column value `t` with an error. -/
def FailsOn (w : Warehouse) (zone : DateTime → DateTime) (f : TimeField) (t : DateTime) : Prop :=
  ∃ sql, timeSql w f = .ok sql ∧ sql.eval w zone t = none

/-- A column value of the declared type and a time zone that maps moments to moments. -/
structure ColumnValue (zone : DateTime → DateTime) (f : TimeField) (t : DateTime) : Prop where
  valid : t.Valid
  typed : f.datatype = .date → t.sec = 0
  zone : (zone t).Valid

/-- The number of units since 1900-01-01 00:00 has 32 bits. -/
def NearServerZero (u : DiffUnit) (t : DateTime) : Prop :=
  -2147483648 ≤ unitNumber 1 u t - unitNumber 1 u ⟨⟨1900, 1, 1⟩, 0⟩ ∧
  unitNumber 1 u t - unitNumber 1 u ⟨⟨1900, 1, 1⟩, 0⟩ ≤ 2147483647

/-- The Monday (or Sunday, for `weekZero` 0) weeks that began after day `a` up to day `b`. -/
def weeksBegun (weekZero : ℤ) (a b : Date) : ℤ := (b.ordinal - weekZero) / 7 - (a.ordinal - weekZero) / 7

/-- The first day of the month. -/
def firstOfMonth (d : Date) : Date := ⟨d.year, d.month, 1⟩

/-- The day number of the Monday on or before the day. -/
def mondayOf (d : Date) : ℤ := d.ordinal - (d.ordinal + 6) % 7

/-- `n` is the ISO number of the week the day is in: the weeks start on Monday, week 1 of a year is the one with the 4th of January, and the year
is the one the Thursday of the week is in. -/
def IsoWeek (d : Date) (n : ℤ) : Prop :=
  ∃ y, mondayOf d = mondayOf ⟨y, 1, 4⟩ + 7 * (n - 1) ∧ daysBeforeYear y < mondayOf d + 3 ∧ mondayOf d + 3 ≤ daysBeforeYear (y + 1)

/-- The first three letters of an English name. -/
def firstThree (s : String) : String := String.ofList (s.toList.take 3)

/-- The English names of the months. -/
def monthNames : List String :=
  ["January", "February", "March", "April", "May", "June", "July", "August", "September", "October", "November", "December"]

/-- The English names of the weekdays. -/
def dayNames : List String := ["Monday", "Tuesday", "Wednesday", "Thursday", "Friday", "Saturday", "Sunday"]

end ML.Spec
