import Verif.Duration.Model
/-
Specification vocabulary for C52.
-/
set_option autoImplicit false
namespace ML.Spec

/-- The seconds since a fixed moment. -/
def secondsOf (t : DateTime) : ℤ := t.date.ordinal * 86400 + t.sec

/-- The number of the month since a fixed month. -/
def monthNumber (t : DateTime) : ℤ := 12 * t.date.year + t.date.month

/-- The number of the calendar unit a moment is in: seconds, minutes, hours and days since a fixed moment, weeks from Monday (or from the
weekday that day `weekZero` was), months, quarters and years. -/
def unitNumber (weekZero : ℤ) : DiffUnit → DateTime → ℤ
  | .second, t => secondsOf t
  | .minute, t => secondsOf t / 60
  | .hour, t => secondsOf t / 3600
  | .day, t => t.date.ordinal
  | .week, t => (t.date.ordinal - weekZero) / 7
  | .isoWeek, t => (t.date.ordinal - 1) / 7
  | .month, t => monthNumber t
  | .quarter, t => (monthNumber t - 1) / 3
  | .year, t => t.date.year
  | .isoYear, t => (t.date.addDays (3 - t.date.weekday)).year

/-- The difference function of the warehouse counts the boundaries of the unit between the two moments. -/
def CountsBoundaries (weekZero : ℤ) (diff : DiffUnit → DateTime → DateTime → ℤ) : Prop :=
  ∀ u s e, diff u s e = unitNumber weekZero u e - unitNumber weekZero u s

/-- `s` is not after `e`. -/
def EndsNoEarlier (s e : DateTime) : Prop := s.date.lt e.date ∨ s.date = e.date ∧ s.sec ≤ e.sec

/-- At least `n` months have passed: the day and time of the start, `n` months later, is not after the end. (A day the month does not have counts
as reached only in the next month, as in Postgres.) -/
def MonthsPassed (s e : DateTime) (n : ℤ) : Prop :=
  monthNumber s + n < monthNumber e ∨
  monthNumber s + n = monthNumber e ∧ (s.date.day < e.date.day ∨ s.date.day = e.date.day ∧ s.sec ≤ e.sec)

/-- `n` is the number of complete periods of `k` months. -/
def CompleteMonths (k : ℤ) (s e : DateTime) (n : ℤ) : Prop := MonthsPassed s e (k * n) ∧ ¬ MonthsPassed s e (k * (n + 1))

/-- `n` is the number of complete periods of `k` seconds. -/
def CompleteSeconds (k : ℤ) (s e : DateTime) (n : ℤ) : Prop :=
  secondsOf s + k * n ≤ secondsOf e ∧ secondsOf e < secondsOf s + k * (n + 1)

/-- The units and their names. -/
def groupOf : DiffUnit → String
  | .second => "seconds" | .minute => "minutes" | .hour => "hours" | .day => "days" | .week => "weeks" | .month => "months"
  | .quarter => "quarters" | .year => "years" | .isoWeek => "" | .isoYear => ""

end ML.Spec
