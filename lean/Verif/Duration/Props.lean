import Verif.Duration.Spec
import Mathlib.Data.Int.Order.Basic
/-
C52: durations between two moments.
-/
set_option autoImplicit false
namespace ML
open Spec

theorem diffUnitOf_iff (g : String) (u : DiffUnit) (h : diffUnitOf g = some u) : u ≠ .isoWeek ∧ u ≠ .isoYear ∧ g = groupOf u := by
  unfold diffUnitOf at h
  repeat' split at h
  all_goals first | (cases h; done) | (cases h; exact ⟨by decide, by decide, by assumption⟩)

/-- **C52**, which durations there are: the eight units on every warehouse; any other unit is a QueryError. -/
theorem C52_units (diff : DiffUnit → DateTime → DateTime → ℤ) (w : Warehouse) (g : String) (s e : DateTime) :
    (g ∈ ["seconds", "minutes", "hours", "days", "weeks", "months", "quarters", "years"] → ∃ n, durationValue diff w g s e = .ok n) ∧
    (g ∉ ["seconds", "minutes", "hours", "days", "weeks", "months", "quarters", "years"] → durationValue diff w g s e = .error .query) := by
  constructor
  · intro h
    have : ∃ u, diffUnitOf g = some u := by
      simp only [List.mem_cons, List.not_mem_nil, or_false] at h
      rcases h with rfl | rfl | rfl | rfl | rfl | rfl | rfl | rfl <;>
        first | exact ⟨.second, by decide +kernel⟩ | exact ⟨.minute, by decide +kernel⟩ | exact ⟨.hour, by decide +kernel⟩ | exact ⟨.day, by decide +kernel⟩ | exact ⟨.week, by decide +kernel⟩ | exact ⟨.month, by decide +kernel⟩ | exact ⟨.quarter, by decide +kernel⟩ | exact ⟨.year, by decide +kernel⟩
    obtain ⟨u, hu⟩ := this
    unfold durationValue durationSql
    rw [hu]
    cases w <;> exact ⟨_, rfl⟩
  · intro h
    have : diffUnitOf g = none := by
      cases hd : diffUnitOf g with
      | none => rfl
      | some u =>
        obtain ⟨h1, h2, rfl⟩ := diffUnitOf_iff g u hd
        exfalso
        apply h
        cases u <;> first | exact absurd rfl h1 | exact absurd rfl h2 | decide +kernel
    unfold durationValue durationSql
    rw [this]

/-- **C52**, the warehouses with a difference function of their own: the duration is that function's count of the unit, from the start to the
end. -/
theorem C52_native (diff : DiffUnit → DateTime → DateTime → ℤ) (w : Warehouse) (u : DiffUnit) (hu : u ≠ .isoWeek) (hu' : u ≠ .isoYear) (s e : DateTime)
    (hw : w ≠ .postgres) (hw' : w ≠ .bigquery) : durationValue diff w (groupOf u) s e = .ok (diff u s e) := by
  have : diffUnitOf (groupOf u) = some u := by cases u <;> first | exact absurd rfl hu | exact absurd rfl hu' | decide +kernel
  unfold durationValue durationSql
  rw [this]
  cases w <;> first | exact absurd rfl hw | exact absurd rfl hw' | simp [evalDur, evalDurGo, durAtomValue, sideOf]

/-- **C52** on BigQuery: the same for seconds, minutes and hours; days, months and quarters are counted between the dates, weeks between the ISO
weeks and years between the ISO years. -/
theorem C52_bigquery (diff : DiffUnit → DateTime → DateTime → ℤ) (s e : DateTime) :
    durationValue diff .bigquery "seconds" s e = .ok (diff .second s e) ∧
    durationValue diff .bigquery "minutes" s e = .ok (diff .minute s e) ∧
    durationValue diff .bigquery "hours" s e = .ok (diff .hour s e) ∧
    durationValue diff .bigquery "days" s e = .ok (diff .day ⟨s.date, 0⟩ ⟨e.date, 0⟩) ∧
    durationValue diff .bigquery "weeks" s e = .ok (diff .isoWeek ⟨s.date, 0⟩ ⟨e.date, 0⟩) ∧
    durationValue diff .bigquery "months" s e = .ok (diff .month ⟨s.date, 0⟩ ⟨e.date, 0⟩) ∧
    durationValue diff .bigquery "quarters" s e = .ok (diff .quarter ⟨s.date, 0⟩ ⟨e.date, 0⟩) ∧
    durationValue diff .bigquery "years" s e = .ok (diff .isoYear ⟨s.date, 0⟩ ⟨e.date, 0⟩) := by
  refine ⟨?_, ?_, ?_, ?_, ?_, ?_, ?_, ?_⟩ <;>
    simp [durationValue, durationSql, diffUnitOf, bigqueryDuration, evalDur, evalDurGo, durAtomValue, sideOf]

theorem unitNumber_date (z : ℤ) (u : DiffUnit) (hu : u ≠ .second) (hu' : u ≠ .minute) (hu'' : u ≠ .hour) (t : DateTime) :
    unitNumber z u ⟨t.date, 0⟩ = unitNumber z u t := by
  cases u <;> first | exact absurd rfl hu | exact absurd rfl hu' | exact absurd rfl hu'' | rfl

/-- **C52**, where the difference function counts boundaries, durations fit together: they are zero for one moment, opposite in the other
direction, and add up over a moment in between. -/
theorem C52_consistent (z : ℤ) (diff : DiffUnit → DateTime → DateTime → ℤ) (hd : CountsBoundaries z diff) (w : Warehouse) (hw : w ≠ .postgres)
    (g : String) (a b c : DateTime) (m n k : ℤ) (h1 : durationValue diff w g a b = .ok m) (h2 : durationValue diff w g b c = .ok n)
    (h3 : durationValue diff w g a c = .ok k) :
    m + n = k ∧ durationValue diff w g a a = .ok 0 ∧ durationValue diff w g b a = .ok (-m) := by
  have key : ∃ f : DateTime → ℤ, ∀ s e, durationValue diff w g s e = .ok (f e - f s) := by
    have hok : ∃ u, diffUnitOf g = some u := by
      cases hh : diffUnitOf g with
      | some u => exact ⟨u, rfl⟩
      | none => simp [durationValue, durationSql, hh] at h1
    obtain ⟨u, hu⟩ := hok
    obtain ⟨n1, n2, rfl⟩ := diffUnitOf_iff g u hu
    by_cases hb : w = .bigquery
    · subst hb
      obtain ⟨b1, b2, b3, b4, b5, b6, b7, b8⟩ : _ := (⟨fun s e => (C52_bigquery diff s e).1, fun s e => (C52_bigquery diff s e).2.1,
        fun s e => (C52_bigquery diff s e).2.2.1, fun s e => (C52_bigquery diff s e).2.2.2.1, fun s e => (C52_bigquery diff s e).2.2.2.2.1,
        fun s e => (C52_bigquery diff s e).2.2.2.2.2.1, fun s e => (C52_bigquery diff s e).2.2.2.2.2.2.1,
        fun s e => (C52_bigquery diff s e).2.2.2.2.2.2.2⟩ :
        (∀ s e, durationValue diff .bigquery "seconds" s e = .ok (diff .second s e)) ∧
        (∀ s e, durationValue diff .bigquery "minutes" s e = .ok (diff .minute s e)) ∧
        (∀ s e, durationValue diff .bigquery "hours" s e = .ok (diff .hour s e)) ∧
        (∀ s e, durationValue diff .bigquery "days" s e = .ok (diff .day ⟨s.date, 0⟩ ⟨e.date, 0⟩)) ∧
        (∀ s e, durationValue diff .bigquery "weeks" s e = .ok (diff .isoWeek ⟨s.date, 0⟩ ⟨e.date, 0⟩)) ∧
        (∀ s e, durationValue diff .bigquery "months" s e = .ok (diff .month ⟨s.date, 0⟩ ⟨e.date, 0⟩)) ∧
        (∀ s e, durationValue diff .bigquery "quarters" s e = .ok (diff .quarter ⟨s.date, 0⟩ ⟨e.date, 0⟩)) ∧
        (∀ s e, durationValue diff .bigquery "years" s e = .ok (diff .isoYear ⟨s.date, 0⟩ ⟨e.date, 0⟩)))
      cases u with
      | second => exact ⟨unitNumber z .second, fun s e => by rw [← hd]; exact b1 s e⟩
      | minute => exact ⟨unitNumber z .minute, fun s e => by rw [← hd]; exact b2 s e⟩
      | hour => exact ⟨unitNumber z .hour, fun s e => by rw [← hd]; exact b3 s e⟩
      | day => exact ⟨fun t => unitNumber z .day ⟨t.date, 0⟩, fun s e => by rw [← hd]; exact b4 s e⟩
      | week => exact ⟨fun t => unitNumber z .isoWeek ⟨t.date, 0⟩, fun s e => by rw [← hd]; exact b5 s e⟩
      | month => exact ⟨fun t => unitNumber z .month ⟨t.date, 0⟩, fun s e => by rw [← hd]; exact b6 s e⟩
      | quarter => exact ⟨fun t => unitNumber z .quarter ⟨t.date, 0⟩, fun s e => by rw [← hd]; exact b7 s e⟩
      | year => exact ⟨fun t => unitNumber z .isoYear ⟨t.date, 0⟩, fun s e => by rw [← hd]; exact b8 s e⟩
      | isoWeek => exact absurd rfl n1
      | isoYear => exact absurd rfl n2
    · exact ⟨unitNumber z u, fun s e => by rw [← hd]; exact C52_native diff w u n1 n2 s e hw hb⟩
  obtain ⟨f, hf⟩ := key
  rw [hf] at h1 h2 h3 ⊢
  cases h1; cases h2; cases h3
  refine ⟨by omega, by rw [Int.sub_self], ?_⟩
  rw [hf]
  congr 1
  omega

/-! ### Order -/

theorem month_le {a b : Date} (ha : a.Valid) (hb : b.Valid) (h : a.lt b) : 12 * a.year + a.month ≤ 12 * b.year + b.month := by
  have := ha.m1; have := ha.m12; have := hb.m1; have := hb.m12
  unfold Date.lt at h
  omega

/-- **C52**, where the difference function counts boundaries, the unit number never goes down over time, so a later end never has a shorter
duration: the duration from `s` to `e` is not negative when `e` is not before `s`. -/
theorem C52_monotone (z : ℤ) (diff : DiffUnit → DateTime → DateTime → ℤ) (hd : CountsBoundaries z diff) (w : Warehouse) (hw : w ≠ .postgres)
    (hw' : w ≠ .bigquery) (g : String) (s e : DateTime) (hs : s.Valid) (he : e.Valid) (h : EndsNoEarlier s e) (n : ℤ)
    (hn : durationValue diff w g s e = .ok n) : 0 ≤ n := by
  have hok : ∃ u, diffUnitOf g = some u := by
    cases hh : diffUnitOf g with
    | some u => exact ⟨u, rfl⟩
    | none => simp [durationValue, durationSql, hh] at hn
  obtain ⟨u, hu⟩ := hok
  obtain ⟨n1, n2, rfl⟩ := diffUnitOf_iff g u hu
  rw [C52_native diff w u n1 n2 s e hw hw', hd] at hn
  cases hn
  have ho : s.date.ordinal ≤ e.date.ordinal := by
    rcases h with h | ⟨h, -⟩
    · exact Int.le_of_lt (ordinal_lt hs.date he.date h)
    · rw [h]
  have hsec : secondsOf s ≤ secondsOf e := by
    have := hs.s1; have := he.s0; have := hs.s0
    unfold secondsOf
    rcases h with h | ⟨h, h'⟩
    · have := ordinal_lt hs.date he.date h; omega
    · rw [h]; omega
  have hm : monthNumber s ≤ monthNumber e := by
    unfold monthNumber
    rcases h with h | ⟨h, -⟩
    · exact month_le hs.date he.date h
    · rw [h]
  have hy : s.date.year ≤ e.date.year := by
    rcases h with h | ⟨h, -⟩
    · unfold Date.lt at h; omega
    · rw [h]
  cases u <;> simp only [unitNumber] <;> first | exact absurd rfl n1 | exact absurd rfl n2 | omega

/-! ### Postgres -/

theorem postgres_value (diff : DiffUnit → DateTime → DateTime → ℤ) (u : DiffUnit) (hu : u ≠ .isoWeek) (hu' : u ≠ .isoYear) (s e : DateTime) :
    durationValue diff .postgres (groupOf u) s e = .ok (evalDur (durAtomValue diff s e) (postgresDuration u)) := by
  have : diffUnitOf (groupOf u) = some u := by cases u <;> first | exact absurd rfl hu | exact absurd rfl hu' | decide +kernel
  unfold durationValue durationSql
  rw [this]

theorem age_facts {s e : DateTime} (hs : s.Valid) (he : e.Valid) (h : EndsNoEarlier s e) :
    0 ≤ (ageOf s e).secs ∧ (ageOf s e).secs < 86400 ∧ 0 ≤ (ageOf s e).days ∧ (ageOf s e).days ≤ 30 ∧ 0 ≤ (ageOf s e).months ∧ (ageOf s e).months < 12 ∧
    0 ≤ (ageOf s e).years ∧ CompleteMonths 1 s e (12 * (ageOf s e).years + (ageOf s e).months) := by
  obtain ⟨⟨sm0, sm1, sd0, sd1⟩, ss0, ss1⟩ := hs
  obtain ⟨⟨em0, em1, ed0, ed1⟩, es0, es1⟩ := he
  obtain ⟨b1, b2⟩ := dim_bounds s.date.year s.date.month
  obtain ⟨b3, b4⟩ := dim_bounds e.date.year e.date.month
  have h' : s.date.year < e.date.year ∨ s.date.year = e.date.year ∧ (s.date.month < e.date.month ∨ s.date.month = e.date.month ∧
      (s.date.day < e.date.day ∨ s.date.day = e.date.day ∧ s.sec ≤ e.sec)) := by
    rcases h with h | ⟨h, h2⟩
    · unfold Date.lt at h; omega
    · rw [h]; omega
  simp only [ageOf, CompleteMonths, MonthsPassed, monthNumber]
  by_cases c1 : e.sec - s.sec < 0
  · simp only [c1, if_true]
    by_cases c2 : e.date.day - s.date.day - 1 < 0
    · simp only [c2, if_true]
      by_cases c3 : e.date.month - s.date.month - 1 < 0
      · simp only [c3, if_true]; omega
      · simp only [c3, if_false]; omega
    · simp only [c2, if_false]
      by_cases c3 : e.date.month - s.date.month - 0 < 0
      · simp only [c3, if_true]; omega
      · simp only [c3, if_false]; omega
  · simp only [c1, if_false]
    by_cases c2 : e.date.day - s.date.day - 0 < 0
    · simp only [c2, if_true]
      by_cases c3 : e.date.month - s.date.month - 1 < 0
      · simp only [c3, if_true]; omega
      · simp only [c3, if_false]; omega
    · simp only [c2, if_false]
      by_cases c3 : e.date.month - s.date.month - 0 < 0
      · simp only [c3, if_true]; omega
      · simp only [c3, if_false]; omega

/-- Fewer months have not passed more. -/
theorem MonthsPassed_mono {s e : DateTime} {n m : ℤ} (h : MonthsPassed s e n) (hm : m ≤ n) : MonthsPassed s e m := by
  unfold MonthsPassed at h ⊢
  omega

theorem CompleteMonths_div {s e : DateTime} {n k : ℤ} (hk : 0 < k) (h : CompleteMonths 1 s e n) : CompleteMonths k s e (n / k) := by
  obtain ⟨h1, h2⟩ := h
  constructor
  · refine MonthsPassed_mono h1 ?_
    have := Int.mul_ediv_self_le (x := n) (k := k) (by omega)
    omega
  · intro h3
    refine h2 (MonthsPassed_mono h3 ?_)
    have := Int.lt_mul_ediv_self_add (x := n) (k := k) hk
    have e : k * (n / k + 1) = k * (n / k) + k := by rw [Int.mul_add, Int.mul_one]
    omega

/-- **C52** on Postgres, months, quarters and years: they are the complete months, quarters and years from the start to the end. -/
theorem C52_postgres_months (diff : DiffUnit → DateTime → DateTime → ℤ) (s e : DateTime) (hs : s.Valid) (he : e.Valid) (h : EndsNoEarlier s e) :
    (∃ n, durationValue diff .postgres "months" s e = .ok n ∧ CompleteMonths 1 s e n) ∧
    (∃ n, durationValue diff .postgres "quarters" s e = .ok n ∧ CompleteMonths 3 s e n) ∧
    (∃ n, durationValue diff .postgres "years" s e = .ok n ∧ CompleteMonths 12 s e n) := by
  obtain ⟨-, -, -, -, m0, m1, y0, hc⟩ := age_facts hs he h
  refine ⟨⟨_, postgres_value diff .month (by decide) (by decide) s e, ?_⟩, ⟨_, postgres_value diff .quarter (by decide) (by decide) s e, ?_⟩,
    ⟨_, postgres_value diff .year (by decide) (by decide) s e, ?_⟩⟩
  · simp only [postgresDuration, evalDur, evalDurGo, durAtomValue, agePart]
    have : 0 + (ageOf s e).years * 12 + (ageOf s e).months = 12 * (ageOf s e).years + (ageOf s e).months := by omega
    rw [this]; exact hc
  · simp only [postgresDuration, evalDur, evalDurGo, durAtomValue, agePart]
    have : 0 + (ageOf s e).years * 4 + (ageOf s e).months.tdiv 3 = (12 * (ageOf s e).years + (ageOf s e).months) / 3 := by
      rw [Int.tdiv_eq_ediv_of_nonneg m0]; omega
    rw [this]; exact CompleteMonths_div (by omega) hc
  · simp only [postgresDuration, evalDur, evalDurGo, durAtomValue, agePart]
    have : 0 + (ageOf s e).years = (12 * (ageOf s e).years + (ageOf s e).months) / 12 := by omega
    rw [this]; exact CompleteMonths_div (by omega) hc

theorem age_seconds {s e : DateTime} (hs : s.Valid) (he : e.Valid) (h : EndsNoEarlier s e) (hm : ¬ MonthsPassed s e 1) :
    secondsOf e - secondsOf s = (ageOf s e).days * 86400 + (ageOf s e).secs := by
  obtain ⟨⟨sm0, sm1, sd0, sd1⟩, ss0, ss1⟩ := hs
  obtain ⟨⟨em0, em1, ed0, ed1⟩, es0, es1⟩ := he
  have h' : s.date.year < e.date.year ∨ s.date.year = e.date.year ∧ (s.date.month < e.date.month ∨ s.date.month = e.date.month ∧
      (s.date.day < e.date.day ∨ s.date.day = e.date.day ∧ s.sec ≤ e.sec)) := by
    rcases h with h | ⟨h, h2⟩
    · unfold Date.lt at h; omega
    · rw [h]; omega
  unfold MonthsPassed monthNumber at hm
  -- the end is in the month of the start or in the next one
  have hcase : (s.date.year = e.date.year ∧ s.date.month = e.date.month) ∨
      (s.date.year = e.date.year ∧ e.date.month = s.date.month + 1) ∨
      (e.date.year = s.date.year + 1 ∧ s.date.month = 12 ∧ e.date.month = 1) := by omega
  have ho : e.date.ordinal - s.date.ordinal = e.date.day - s.date.day +
      (if s.date.year = e.date.year ∧ s.date.month = e.date.month then 0 else daysInMonth s.date.year s.date.month) := by
    unfold Date.ordinal
    rcases hcase with ⟨hy, hmm⟩ | ⟨hy, hmm⟩ | ⟨hy, hm1, hm2⟩
    · rw [if_pos ⟨hy, hmm⟩, hy, hmm]; omega
    · rw [if_neg (by omega), ← hy, hmm, dbm_succ _ _ (by omega) (by omega)]; omega
    · rw [if_neg (by omega), hy, hm1, hm2, dbm_one, dby_succ]
      have := dbm_end s.date.year
      omega
  unfold secondsOf
  simp only [ageOf]
  rcases hcase with ⟨hy, hmm⟩ | hc
  · rw [if_pos ⟨hy, hmm⟩] at ho
    by_cases c1 : e.sec - s.sec < 0
    · simp only [c1, if_true]; rw [if_neg (by omega)]; omega
    · simp only [c1, if_false]; rw [if_neg (by omega)]; omega
  · rw [if_neg (by omega)] at ho
    by_cases c1 : e.sec - s.sec < 0
    · simp only [c1, if_true]; rw [if_pos (by omega)]; omega
    · simp only [c1, if_false]; rw [if_pos (by omega)]; omega

/-- **C52** on Postgres, days, weeks and hours, for moments less than a month apart: they are the complete days, weeks and hours. Missing for the
full statement: everything longer (`C52_postgres_days_bounded`). -/
theorem C52_postgres_days_partial (diff : DiffUnit → DateTime → DateTime → ℤ) (s e : DateTime) (hs : s.Valid) (he : e.Valid) (h : EndsNoEarlier s e)
    (hm : ¬ MonthsPassed s e 1) :
    (∃ n, durationValue diff .postgres "days" s e = .ok n ∧ CompleteSeconds 86400 s e n) ∧
    (∃ n, durationValue diff .postgres "weeks" s e = .ok n ∧ CompleteSeconds (7 * 86400) s e n) ∧
    (∃ n, durationValue diff .postgres "hours" s e = .ok n ∧ CompleteSeconds 3600 s e n) := by
  obtain ⟨s0, s1, d0, -, -, -, -, -⟩ := age_facts hs he h
  have hsec := age_seconds hs he h hm
  refine ⟨⟨_, postgres_value diff .day (by decide) (by decide) s e, ?_⟩, ⟨_, postgres_value diff .week (by decide) (by decide) s e, ?_⟩,
    ⟨_, postgres_value diff .hour (by decide) (by decide) s e, ?_⟩⟩
  · simp only [postgresDuration, evalDur, evalDurGo, durAtomValue, agePart, CompleteSeconds]
    omega
  · simp only [postgresDuration, evalDur, evalDurGo, durAtomValue, agePart, CompleteSeconds]
    rw [Int.tdiv_eq_ediv_of_nonneg d0]
    omega
  · simp only [postgresDuration, evalDur, evalDurGo, durAtomValue, agePart, CompleteSeconds]
    omega

/-- **C52 fails** on Postgres for days, weeks and hours over a month or more: whatever the two moments, there are never more than 30 days, 4 weeks
or 743 hours between them. -/
theorem C52_postgres_days_bounded (diff : DiffUnit → DateTime → DateTime → ℤ) (s e : DateTime) (hs : s.Valid) (he : e.Valid) (h : EndsNoEarlier s e) :
    (∃ n, durationValue diff .postgres "days" s e = .ok n ∧ n ≤ 30) ∧ (∃ n, durationValue diff .postgres "weeks" s e = .ok n ∧ n ≤ 4) ∧
    (∃ n, durationValue diff .postgres "hours" s e = .ok n ∧ n ≤ 743) := by
  obtain ⟨s0, s1, d0, d1, -, -, -, -⟩ := age_facts hs he h
  refine ⟨⟨_, postgres_value diff .day (by decide) (by decide) s e, ?_⟩, ⟨_, postgres_value diff .week (by decide) (by decide) s e, ?_⟩,
    ⟨_, postgres_value diff .hour (by decide) (by decide) s e, ?_⟩⟩
  · simp only [postgresDuration, evalDur, evalDurGo, durAtomValue, agePart]; omega
  · simp only [postgresDuration, evalDur, evalDurGo, durAtomValue, agePart]
    rw [Int.tdiv_eq_ediv_of_nonneg d0]; omega
  · simp only [postgresDuration, evalDur, evalDurGo, durAtomValue, agePart]; omega

/-- **C52** on Postgres, minutes and seconds: for moments less than a month apart, the minutes are the complete minutes exactly when less than a
day has passed, and the seconds exactly when less than an hour has passed: the texts are multiplied without brackets. -/
theorem C52_postgres_minutes_partial (diff : DiffUnit → DateTime → DateTime → ℤ) (s e : DateTime) (hs : s.Valid) (he : e.Valid) (h : EndsNoEarlier s e)
    (hm : ¬ MonthsPassed s e 1) :
    (∃ n, durationValue diff .postgres "minutes" s e = .ok n ∧ (CompleteSeconds 60 s e n ↔ secondsOf e < secondsOf s + 86400)) ∧
    (∃ n, durationValue diff .postgres "seconds" s e = .ok n ∧ (CompleteSeconds 1 s e n ↔ secondsOf e < secondsOf s + 3600)) := by
  obtain ⟨s0, s1, d0, -, -, -, -, -⟩ := age_facts hs he h
  have hsec := age_seconds hs he h hm
  refine ⟨⟨_, postgres_value diff .minute (by decide) (by decide) s e, ?_⟩, ⟨_, postgres_value diff .second (by decide) (by decide) s e, ?_⟩⟩
  · simp only [postgresDuration, evalDur, evalDurGo, durAtomValue, agePart, CompleteSeconds]
    constructor
    · rintro ⟨a, b⟩; omega
    · intro a; omega
  · simp only [postgresDuration, evalDur, evalDurGo, durAtomValue, agePart, CompleteSeconds]
    constructor
    · rintro ⟨a, b⟩; omega
    · intro a; omega

/-! ### Concrete cases -/

/-- A day later, on Postgres: 24 minutes and 24 seconds; two hours later: 120 seconds. -/
theorem C52_postgres_brackets (diff : DiffUnit → DateTime → DateTime → ℤ) :
    durationValue diff .postgres "minutes" ⟨⟨2024, 3, 1⟩, 0⟩ ⟨⟨2024, 3, 2⟩, 0⟩ = .ok 24 ∧
    durationValue diff .postgres "seconds" ⟨⟨2024, 3, 1⟩, 0⟩ ⟨⟨2024, 3, 2⟩, 0⟩ = .ok 24 ∧
    durationValue diff .postgres "seconds" ⟨⟨2024, 3, 1⟩, 0⟩ ⟨⟨2024, 3, 1⟩, 7200⟩ = .ok 120 := by
  refine ⟨?_, ?_, ?_⟩ <;>
    simp [durationValue, durationSql, diffUnitOf, postgresDuration, evalDur, evalDurGo, durAtomValue, ageOf, agePart]

/-- Two months and two days, on Postgres: 2 days. -/
theorem C52_postgres_two_months (diff : DiffUnit → DateTime → DateTime → ℤ) :
    durationValue diff .postgres "days" ⟨⟨2024, 3, 1⟩, 0⟩ ⟨⟨2024, 5, 3⟩, 0⟩ = .ok 2 := by
  simp [durationValue, durationSql, diffUnitOf, postgresDuration, evalDur, evalDurGo, durAtomValue, ageOf, agePart]

/-- **C52 fails** on BigQuery for years: from the last day of 2018 to the first of 2019 it is a month and a quarter later, but no year later;
everywhere else where boundaries are counted it is a year. -/
theorem C52_bigquery_years (diff : DiffUnit → DateTime → DateTime → ℤ) (hd : CountsBoundaries 1 diff) :
    durationValue diff .bigquery "years" ⟨⟨2018, 12, 31⟩, 0⟩ ⟨⟨2019, 1, 1⟩, 0⟩ = .ok 0 ∧
    durationValue diff .bigquery "quarters" ⟨⟨2018, 12, 31⟩, 0⟩ ⟨⟨2019, 1, 1⟩, 0⟩ = .ok 1 ∧
    durationValue diff .bigquery "months" ⟨⟨2018, 12, 31⟩, 0⟩ ⟨⟨2019, 1, 1⟩, 0⟩ = .ok 1 ∧
    durationValue diff .snowflake "years" ⟨⟨2018, 12, 31⟩, 0⟩ ⟨⟨2019, 1, 1⟩, 0⟩ = .ok 1 := by
  obtain ⟨-, -, -, -, -, h6, h7, h8⟩ := C52_bigquery diff ⟨⟨2018, 12, 31⟩, 0⟩ ⟨⟨2019, 1, 1⟩, 0⟩
  refine ⟨?_, ?_, ?_, ?_⟩
  · rw [h8, hd]; decide +kernel
  · rw [h7, hd]; decide +kernel
  · rw [h6, hd]; decide +kernel
  · have := C52_native diff .snowflake .year (by decide) (by decide) ⟨⟨2018, 12, 31⟩, 0⟩ ⟨⟨2019, 1, 1⟩, 0⟩ (by decide) (by decide)
    rw [show groupOf .year = "years" from rfl] at this
    rw [this, hd]; decide +kernel

example : CountsBoundaries 1 fun u s e => unitNumber 1 u e - unitNumber 1 u s := fun _ _ _ => rfl

/-- Three weeks and a bit, from one month into the next. -/
example : (⟨⟨2024, 2, 20⟩, 3600⟩ : DateTime).Valid ∧ (⟨⟨2024, 3, 12⟩, 0⟩ : DateTime).Valid ∧ EndsNoEarlier ⟨⟨2024, 2, 20⟩, 3600⟩ ⟨⟨2024, 3, 12⟩, 0⟩ ∧
    ¬ MonthsPassed ⟨⟨2024, 2, 20⟩, 3600⟩ ⟨⟨2024, 3, 12⟩, 0⟩ 1 ∧ ageOf ⟨⟨2024, 2, 20⟩, 3600⟩ ⟨⟨2024, 3, 12⟩, 0⟩ = ⟨0, 0, 20, 82800⟩ := by
  refine ⟨⟨⟨by decide, by decide, by decide, by decide⟩, by decide, by decide⟩, ⟨⟨by decide, by decide, by decide, by decide⟩, by decide, by decide⟩, ?_, ?_, by decide⟩
  · left; unfold Date.lt; decide
  · unfold MonthsPassed monthNumber; decide

end ML
