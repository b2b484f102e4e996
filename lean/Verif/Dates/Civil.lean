import Mathlib.Tactic.Ring
import Mathlib.Tactic.Linarith
/-
The Gregorian calendar as pendulum and Python's `datetime` implement it: civil dates, the day before
and after, days since 0001-01-01, weekdays, and moving by days and months.
-/
set_option autoImplicit false
namespace ML

/-- `calendar.isleap`. The calendar pendulum computes with, filter.py 164-198. -/
def isLeap (y : ℤ) : Bool := y % 4 = 0 && (y % 100 ≠ 0 || y % 400 = 0)

/-- Days in a month (`pendulum.DateTime.days_in_month`). The calendar pendulum computes with, filter.py 164-198. -/
def daysInMonth (y m : ℤ) : ℤ :=
  if m = 2 then (if isLeap y then 29 else 28)
  else if m = 4 ∨ m = 6 ∨ m = 9 ∨ m = 11 then 30 else 31

/-- A civil date. Simplification: years are not limited to 1 to 9999. -/
structure Date where
  year : ℤ
  month : ℤ
  day : ℤ
  deriving DecidableEq, Repr

/-- The date exists. The calendar pendulum computes with, filter.py 164-198. -/
structure Date.Valid (d : Date) : Prop where
  m1 : 1 ≤ d.month
  m12 : d.month ≤ 12
  d1 : 1 ≤ d.day
  dn : d.day ≤ daysInMonth d.year d.month

/-- The following day. The calendar pendulum computes with, filter.py 164-198. -/
def Date.next (d : Date) : Date :=
  if d.day < daysInMonth d.year d.month then { d with day := d.day + 1 }
  else if d.month < 12 then ⟨d.year, d.month + 1, 1⟩
  else ⟨d.year + 1, 1, 1⟩

/-- The day before. The calendar pendulum computes with, filter.py 164-198. -/
def Date.prev (d : Date) : Date :=
  if 1 < d.day then { d with day := d.day - 1 }
  else if 1 < d.month then ⟨d.year, d.month - 1, daysInMonth d.year (d.month - 1)⟩
  else ⟨d.year - 1, 12, 31⟩

/-- Days before the first of January of the year, counted from the year 1. The calendar pendulum computes with, filter.py 164-198. -/
def daysBeforeYear (y : ℤ) : ℤ := 365 * (y - 1) + (y - 1) / 4 - (y - 1) / 100 + (y - 1) / 400

/-- Days of the year before the first of the month. The calendar pendulum computes with, filter.py 164-198. -/
def daysBeforeMonth (y m : ℤ) : ℤ :=
  (if m ≤ 1 then 0 else if m = 2 then 31 else if m = 3 then 59 else if m = 4 then 90
   else if m = 5 then 120 else if m = 6 then 151 else if m = 7 then 181 else if m = 8 then 212
   else if m = 9 then 243 else if m = 10 then 273 else if m = 11 then 304 else 334)
  + (if 2 < m && isLeap y then 1 else 0)

/-- `date.toordinal()`: 0001-01-01 is day 1. -/
def Date.ordinal (d : Date) : ℤ := daysBeforeYear d.year + daysBeforeMonth d.year d.month + d.day

/-- `day_of_week` of pendulum 3: Monday is 0. The calendar pendulum computes with, filter.py 164-198. -/
def Date.weekday (d : Date) : ℤ := (d.ordinal + 6) % 7

/-- The date `n` days later (earlier when negative). The calendar pendulum computes with, filter.py 164-198. -/
def Date.addDays (d : Date) (n : ℤ) : Date :=
  match n with
  | .ofNat k => Nat.iterate Date.next k d
  | .negSucc k => Nat.iterate Date.prev (k + 1) d

/-- Pendulum's `add_duration` for months: the day is cut to the length of the month reached. The calendar pendulum computes with,
filter.py 164-198. -/
def Date.addMonths (d : Date) (n : ℤ) : Date :=
  let k := 12 * d.year + (d.month - 1) + n
  let y := k / 12
  let m := k % 12 + 1
  ⟨y, m, min d.day (daysInMonth y m)⟩

theorem dim_bounds (y m : ℤ) : 28 ≤ daysInMonth y m ∧ daysInMonth y m ≤ 31 := by
  unfold daysInMonth
  split
  · split <;> omega
  · split <;> omega

theorem leap_iff (y : ℤ) : isLeap y = true ↔ y % 4 = 0 ∧ (y % 100 ≠ 0 ∨ y % 400 = 0) := by
  simp [isLeap]

theorem dby_succ (y : ℤ) : daysBeforeYear (y + 1) = daysBeforeYear y + 365 + (if isLeap y then 1 else 0) := by
  unfold daysBeforeYear
  by_cases h : isLeap y = true
  · rw [if_pos h]
    rw [leap_iff] at h
    omega
  · rw [if_neg h]
    rw [leap_iff] at h
    omega

theorem dby_lt (y : ℤ) : ∀ n : ℕ, daysBeforeYear y + 365 * n ≤ daysBeforeYear (y + n)
  | 0 => by simp
  | n + 1 => by
    have ih := dby_lt y n
    have e := dby_succ (y + n)
    push_cast
    rw [← add_assoc]
    rw [e]
    split <;> linarith

/-- A year later starts after the whole year. -/
theorem dby_mono {y y' : ℤ} (h : y < y') : daysBeforeYear (y + 1) ≤ daysBeforeYear y' := by
  obtain ⟨n, hn⟩ := Int.le.dest (show y + 1 ≤ y' by omega)
  rw [← hn]
  have := dby_lt (y + 1) n
  have : (0 : ℤ) ≤ 365 * n := by positivity
  linarith

theorem dbm_succ (y m : ℤ) (h1 : 1 ≤ m) (h2 : m < 12) :
    daysBeforeMonth y (m + 1) = daysBeforeMonth y m + daysInMonth y m := by
  unfold daysBeforeMonth daysInMonth
  cases hl : isLeap y <;>
  · have : m = 1 ∨ m = 2 ∨ m = 3 ∨ m = 4 ∨ m = 5 ∨ m = 6 ∨ m = 7 ∨ m = 8 ∨ m = 9 ∨ m = 10 ∨ m = 11 := by omega
    rcases this with rfl | rfl | rfl | rfl | rfl | rfl | rfl | rfl | rfl | rfl | rfl <;> simp

theorem dbm_nonneg (y m : ℤ) (h1 : 1 ≤ m) (h2 : m ≤ 12) : 0 ≤ daysBeforeMonth y m := by
  unfold daysBeforeMonth
  have : m = 1 ∨ m = 2 ∨ m = 3 ∨ m = 4 ∨ m = 5 ∨ m = 6 ∨ m = 7 ∨ m = 8 ∨ m = 9 ∨ m = 10 ∨ m = 11 ∨ m = 12 := by
    omega
  rcases this with rfl | rfl | rfl | rfl | rfl | rfl | rfl | rfl | rfl | rfl | rfl | rfl <;>
    cases isLeap y <;> decide

theorem dbm_one (y : ℤ) : daysBeforeMonth y 1 = 0 := by simp [daysBeforeMonth]

theorem dbm_end (y : ℤ) : daysBeforeMonth y 12 + daysInMonth y 12 = 365 + (if isLeap y then 1 else 0) := by
  cases hl : isLeap y <;> simp [daysBeforeMonth, daysInMonth, hl]

theorem dbm_mono (y m : ℤ) (h1 : 1 ≤ m) : ∀ n : ℕ, m + 1 + n ≤ 12 →
    daysBeforeMonth y m + daysInMonth y m ≤ daysBeforeMonth y (m + 1 + n)
  | 0, h => by
    have e := dbm_succ y m h1 (by omega)
    simp only [Nat.cast_zero, add_zero]
    omega
  | n + 1, h => by
    have ih := dbm_mono y m h1 n (by omega)
    have e := dbm_succ y (m + 1 + n) (by omega) (by omega)
    have b := dim_bounds y (m + 1 + n)
    have e2 : m + 1 + ((n + 1 : ℕ) : ℤ) = m + 1 + n + 1 := by omega
    rw [e2, e]
    omega

/-- Chronological order of dates: year, then month, then day. The calendar pendulum computes with, filter.py 164-198. -/
def Date.lt (a b : Date) : Prop :=
  a.year < b.year ∨ (a.year = b.year ∧ (a.month < b.month ∨ (a.month = b.month ∧ a.day < b.day)))

theorem ordinal_lt {a b : Date} (ha : a.Valid) (hb : b.Valid) (h : a.lt b) : a.ordinal < b.ordinal := by
  obtain ⟨h1, h2, h3, h4⟩ := ha
  obtain ⟨k1, k2, k3, k4⟩ := hb
  unfold Date.ordinal
  have yearEnd : daysBeforeMonth a.year a.month + a.day ≤ 365 + (if isLeap a.year then 1 else 0) := by
    rcases (show a.month = 12 ∨ a.month < 12 by omega) with e | e
    · have := dbm_end a.year
      rw [e] at h4 ⊢
      omega
    · obtain ⟨n, hn⟩ := Int.le.dest (show a.month + 1 ≤ 12 by omega)
      have := dbm_mono a.year a.month h1 n (by omega)
      rw [hn] at this
      have e := dbm_end a.year
      have := dim_bounds a.year 12
      omega
  have nonneg := dbm_nonneg b.year b.month k1 k2
  rcases h with h | ⟨e, h | ⟨e2, h⟩⟩
  · have := dby_mono h
    have := dby_succ a.year
    omega
  · rw [← e]
    obtain ⟨n, hn⟩ := Int.le.dest (show a.month + 1 ≤ b.month by omega)
    have := dbm_mono a.year a.month h1 n (by omega)
    rw [hn] at this
    omega
  · rw [← e, ← e2]; omega

theorem Date.lt_trichotomy (a b : Date) : a.lt b ∨ a = b ∨ b.lt a := by
  unfold Date.lt
  rcases _root_.lt_trichotomy a.year b.year with h | h | h
  · exact .inl (.inl h)
  · rcases _root_.lt_trichotomy a.month b.month with k | k | k
    · exact .inl (.inr ⟨h, .inl k⟩)
    · rcases _root_.lt_trichotomy a.day b.day with l | l | l
      · exact .inl (.inr ⟨h, .inr ⟨k, l⟩⟩)
      · refine .inr (.inl ?_)
        cases a; cases b; simp_all
      · exact .inr (.inr (.inr ⟨h.symm, .inr ⟨k.symm, l⟩⟩))
    · exact .inr (.inr (.inr ⟨h.symm, .inl k⟩))
  · exact .inr (.inr (.inl h))

/-- The ordinal orders dates chronologically. -/
theorem ordinal_lt_iff {a b : Date} (ha : a.Valid) (hb : b.Valid) : a.ordinal < b.ordinal ↔ a.lt b := by
  constructor
  · intro h
    rcases Date.lt_trichotomy a b with k | k | k
    · exact k
    · subst k; omega
    · have := ordinal_lt hb ha k; omega
  · exact ordinal_lt ha hb

theorem ordinal_inj {a b : Date} (ha : a.Valid) (hb : b.Valid) (h : a.ordinal = b.ordinal) : a = b := by
  rcases Date.lt_trichotomy a b with k | k | k
  · have := ordinal_lt ha hb k; omega
  · exact k
  · have := ordinal_lt hb ha k; omega

theorem next_spec {d : Date} (h : d.Valid) : d.next.Valid ∧ d.next.ordinal = d.ordinal + 1 := by
  obtain ⟨h1, h2, h3, h4⟩ := h
  unfold Date.next
  split
  · exact ⟨⟨h1, h2, by simp only; omega, by simp only; omega⟩, by unfold Date.ordinal; ring⟩
  · split
    · rename_i hd hm
      have e := dbm_succ d.year d.month h1 hm
      have := dim_bounds d.year (d.month + 1)
      exact ⟨⟨by simp only; omega, by simp only; omega, by simp, by simp only; omega⟩,
        by unfold Date.ordinal; simp only; omega⟩
    · rename_i hd hm
      have hm : d.month = 12 := by omega
      have e := dby_succ d.year
      have e2 := dbm_end d.year
      have := dim_bounds (d.year + 1) 1
      rw [hm] at hd h4
      exact ⟨⟨by simp, by simp, by simp, by simp only; omega⟩,
        by unfold Date.ordinal; simp only [dbm_one, hm]; omega⟩

theorem prev_spec {d : Date} (h : d.Valid) : d.prev.Valid ∧ d.prev.ordinal = d.ordinal - 1 := by
  obtain ⟨h1, h2, h3, h4⟩ := h
  unfold Date.prev
  split
  · exact ⟨⟨h1, h2, by simp only; omega, by simp only; omega⟩, by unfold Date.ordinal; ring⟩
  · split
    · rename_i hd hm
      have e := dbm_succ d.year (d.month - 1) (by omega) (by omega)
      rw [sub_add_cancel] at e
      have := dim_bounds d.year (d.month - 1)
      exact ⟨⟨by simp only; omega, by simp only; omega, by simp only; omega, by simp⟩,
        by unfold Date.ordinal; simp only; omega⟩
    · rename_i hd hm
      have hm : d.month = 1 := by omega
      have e := dby_succ (d.year - 1)
      have e2 := dbm_end (d.year - 1)
      rw [sub_add_cancel] at e
      have e3 : daysInMonth (d.year - 1) 12 = 31 := by simp [daysInMonth]
      exact ⟨⟨by simp, by simp, by simp, by simp [e3]⟩,
        by unfold Date.ordinal; simp only [dbm_one, hm]; omega⟩

theorem iterate_spec (f : Date → Date) (k : ℤ)
    (hf : ∀ d : Date, d.Valid → (f d).Valid ∧ (f d).ordinal = d.ordinal + k) :
    ∀ (n : ℕ) (d : Date), d.Valid → (Nat.iterate f n d).Valid ∧ (Nat.iterate f n d).ordinal = d.ordinal + n * k
  | 0, d, h => ⟨h, by simp [Nat.iterate]⟩
  | n + 1, d, h => by
    obtain ⟨a, b⟩ := hf d h
    obtain ⟨a', b'⟩ := iterate_spec f k hf n (f d) a
    refine ⟨a', ?_⟩
    show (Nat.iterate f n (f d)).ordinal = _
    rw [b', b]; push_cast; ring

theorem addDays_spec {d : Date} (h : d.Valid) (n : ℤ) :
    (d.addDays n).Valid ∧ (d.addDays n).ordinal = d.ordinal + n := by
  cases n with
  | ofNat k =>
    obtain ⟨a, b⟩ := iterate_spec Date.next 1 (fun d hd => next_spec hd) k d h
    exact ⟨a, by unfold Date.addDays; simp only; rw [b]; simp⟩
  | negSucc k =>
    obtain ⟨a, b⟩ := iterate_spec Date.prev (-1) (fun d hd => by
      obtain ⟨a, b⟩ := prev_spec hd; exact ⟨a, by omega⟩) (k + 1) d h
    exact ⟨a, by unfold Date.addDays; simp only; rw [b]; rw [Int.negSucc_eq]; push_cast; ring⟩

theorem addMonths_spec {d : Date} (h : d.Valid) (n : ℤ) : (d.addMonths n).Valid ∧
    12 * (d.addMonths n).year + ((d.addMonths n).month - 1) = 12 * d.year + (d.month - 1) + n := by
  obtain ⟨h1, h2, h3, h4⟩ := h
  unfold Date.addMonths
  have := dim_bounds ((12 * d.year + (d.month - 1) + n) / 12) ((12 * d.year + (d.month - 1) + n) % 12 + 1)
  exact ⟨⟨by simp only; omega, by simp only; omega, by simp only; omega, by simp only; omega⟩,
    by simp only; omega⟩

end ML
