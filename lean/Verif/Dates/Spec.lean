import Verif.Dates.Model
/-
Specification vocabulary for C24: chronological order and the number of the calendar period a date
falls in.
-/
set_option autoImplicit false
namespace ML.Spec

/-- Not later than, to the second. -/
def NotAfter (a b : DateTime) : Prop := a.date.lt b.date ∨ (a.date = b.date ∧ a.sec ≤ b.sec)

/-- Within the window: every bound is met. -/
def InWindow (w : Window) (t : DateTime) : Prop :=
  ∀ b ∈ w, match b.1 with
    | .ge => NotAfter b.2 t
    | .le => NotAfter t b.2

/-- The number of the calendar period of this kind a date falls in, for weeks that begin on the
weekday `first` (Monday is 0). Consecutive periods have consecutive numbers. -/
def period (first : ℤ) (u : Interval) (d : Date) : ℤ :=
  match u with
  | .unknown => 0
  | .day => d.ordinal
  | .week => (d.ordinal + 6 - first) / 7
  | .month => 12 * d.year + (d.month - 1)
  | .quarter => 4 * d.year + (d.month - 1) / 3
  | .year => d.year

/-- The week settings agree: a week ends on the day before it begins. -/
structure WeekOk (ws : WeekState) : Prop where
  s0 : 0 ≤ ws.starts
  s6 : ws.starts ≤ 6
  e : ws.ends = (ws.starts + 6) % 7

/-- The words for an interval. -/
def unitWord : Interval → List Char
  | .unknown => "unknown".toList
  | .day => "day".toList
  | .week => "week".toList
  | .month => "month".toList
  | .quarter => "quarter".toList
  | .year => "year".toList

/-- A number as written: at least one character, all of them digits. -/
def IsNumber (ds : List Char) : Prop := ds ≠ [] ∧ ∀ c ∈ ds, isDigitChar c = true

/-- The words, with or without a plural "s". -/
def unitText (u : Interval) (plural : Bool) : List Char := unitWord u ++ (if plural then ['s'] else [])

end ML.Spec
