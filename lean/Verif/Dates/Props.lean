import Verif.Dates.Phrases
/-
C24: relative date windows are the calendar windows they name.
-/
set_option autoImplicit false
namespace ML
open Spec

theorem inWindow_pair (a b t : DateTime) : InWindow [(.ge, a), (.le, b)] t ↔ NotAfter a t ∧ NotAfter t b := by
  constructor
  · intro h; exact ⟨h (.ge, a) (by simp), h (.le, b) (by simp)⟩
  · rintro ⟨h1, h2⟩ x hx
    simp only [List.mem_cons, List.not_mem_nil, or_false] at hx
    rcases hx with rfl | rfl
    · exact h1
    · exact h2

/-- A window from the start of one period to the end of another. -/
theorem window_between {ws : WeekState} (hw : WeekOk ws) {u : Interval} (hu : u ≠ .unknown) {now : DateTime}
    (hn : now.Valid) (lo hi : ℤ) : ∃ a b, startDate ws now lo u = .ok a ∧ endDate ws now hi u = .ok b ∧
      (∀ t : DateTime, t.Valid → (u = .quarter → t.sec = 0) →
        (InWindow [(.ge, a), (.le, b)] t ↔
          period ws.starts u now.date - lo ≤ period ws.starts u t.date ∧
            period ws.starts u t.date ≤ period ws.starts u now.date - hi)) ∧
      (hi ≤ lo → NotAfter a b) ∧ (lo < hi → ¬ NotAfter a b) := by
  obtain ⟨a, a1, a2, a3⟩ := startDate_spec hw hu hn lo
  obtain ⟨b, b1, b2, b3⟩ := endDate_spec hw hu hn hi
  refine ⟨_, _, a1, b1, fun t ht hq => ?_, fun h => ?_, fun h => ?_⟩
  · rw [← a3 t.date ht.date, ← b3 t.date ht.date]
    rw [inWindow_pair]
    rw [notAfter_start a2 ht]
    by_cases e : u = .quarter
    · have hs := hq e
      subst e
      rw [show endSec .quarter = 0 from rfl, notAfter_midnight b2 ht]
      constructor
      · rintro ⟨h1, h2 | ⟨h2, _⟩⟩
        · exact ⟨h1, by omega⟩
        · exact ⟨h1, by rw [h2]⟩
      · rintro ⟨h1, h2⟩
        refine ⟨h1, ?_⟩
        rcases (show t.date.ordinal < b.ordinal ∨ t.date.ordinal = b.ordinal by omega) with k | k
        · exact .inl k
        · exact .inr ⟨ordinal_inj ht.date b2 k, hs⟩
    · rw [show endSec u = 86399 by simp [endSec, e], notAfter_end b2 ht]
  · have hs : (⟨b, endSec u⟩ : DateTime).Valid :=
      ⟨b2, by unfold endSec; simp only; split <;> omega, by unfold endSec; simp only; split <;> omega⟩
    rw [notAfter_start a2 hs, a3 b b2]
    have := (b3 b b2).mp (le_refl _)
    -- the last day of a period belongs to it
    obtain ⟨d, d1, d2, d3⟩ := shift_spec ws.starts hu hn.date (-hi)
    have hle : d.ordinal ≤ b.ordinal := (b3 d d2).mpr (by omega)
    have hb' : period ws.starts u d ≤ period ws.starts u b := by
      by_contra hc
      obtain ⟨c, c1, c2, c3⟩ := startOf_spec hw hu d2
      have h1 := (c3 b b2).not.mpr hc
      have h2 := (c3 d d2).mpr (le_refl _)
      omega
    omega
  · have hs : (⟨b, endSec u⟩ : DateTime).Valid :=
      ⟨b2, by unfold endSec; simp only; split <;> omega, by unfold endSec; simp only; split <;> omega⟩
    rw [notAfter_start a2 hs, a3 b b2]
    have := (b3 b b2).mp (le_refl _)
    omega

/-- C24 (a): "today" is today and "yesterday" the day before. -/
theorem C24_today_yesterday (ws : WeekState) (hw : WeekOk ws) (now : DateTime) (hn : now.Valid) :
    (∃ w, parseDateCondition ws now "today".toList = .ok (some w) ∧
      ∀ t : DateTime, t.Valid → (InWindow w t ↔ t.date = now.date)) ∧
    (∃ w, parseDateCondition ws now "yesterday".toList = .ok (some w) ∧
      ∀ t : DateTime, t.Valid → (InWindow w t ↔ t.date.ordinal = now.date.ordinal - 1)) := by
  constructor
  · obtain ⟨a, b, h1, h2, h3, _⟩ := window_between hw (u := .day) (by decide) hn 0 0
    refine ⟨[(.ge, a), (.le, b)], ?_, fun t ht => ?_⟩
    · show parseSimple ws now "today".toList = _
      unfold parseSimple
      rw [if_pos rfl, h1, h2]
    · rw [h3 t ht (by intro h; cases h)]
      simp only [period]
      constructor
      · intro h; exact ordinal_inj ht.date hn.date (by omega)
      · intro h; rw [h]; omega
  · obtain ⟨a, b, h1, h2, h3, _⟩ := window_between hw (u := .day) (by decide) hn 1 1
    refine ⟨[(.ge, a), (.le, b)], ?_, fun t ht => ?_⟩
    · show parseSimple ws now "yesterday".toList = _
      unfold parseSimple
      rw [if_neg (by decide), if_pos rfl, h1, h2]
    · rw [h3 t ht (by intro h; cases h)]
      simp only [period]
      omega

/-- C24 (b): "this X" is exactly the current period and "last X" exactly the previous one, on every
date, for every unit and every first day of the week. (A quarter ends at the midnight that begins its
last day, so for quarters this is about dates without a time; see `C24_quarter_last_day`.) -/
theorem C24_this_last_partial (ws : WeekState) (hw : WeekOk ws) (now : DateTime) (hn : now.Valid) (u : Interval)
    (hu : u ≠ .unknown) :
    (∃ w, parseDateCondition ws now ("this ".toList ++ unitWord u) = .ok (some w) ∧
      ∀ t : DateTime, t.Valid → (u = .quarter → t.sec = 0) →
        (InWindow w t ↔ period ws.starts u t.date = period ws.starts u now.date)) ∧
    (∃ w, parseDateCondition ws now ("last ".toList ++ unitWord u) = .ok (some w) ∧
      ∀ t : DateTime, t.Valid → (u = .quarter → t.sec = 0) →
        (InWindow w t ↔ period ws.starts u t.date = period ws.starts u now.date - 1)) := by
  constructor
  · obtain ⟨a, b, h1, h2, h3, _⟩ := window_between hw hu hn 0 0
    refine ⟨[(.ge, a), (.le, b)], ?_, fun t ht hq => ?_⟩
    · have e1 : splitFirst " until ".toList ("this ".toList ++ unitWord u) = none := by cases u <;> decide
      have e2 : reSearch reAgoFor ("this ".toList ++ unitWord u) = none := by cases u <;> decide
      have e3 : reSearch reNIntervalModifier ("this ".toList ++ unitWord u) = none := by cases u <;> decide
      have e4 : reSearch reNInterval ("this ".toList ++ unitWord u) = some ("this".toList, u) := by
        cases u <;> decide
      unfold parseDateCondition
      rw [e1]
      simp only
      unfold parseSimple
      rw [if_neg (by cases u <;> decide), if_neg (by cases u <;> decide)]
      unfold parseAgoFor parseNIntervalModifier parseNInterval
      rw [e2, e3, e4]
      simp only [if_true, show ¬ "this".toList = "last".toList by decide, if_false, h1, h2]
    · rw [h3 t ht hq]; omega
  · obtain ⟨a, b, h1, h2, h3, _⟩ := window_between hw hu hn 1 1
    refine ⟨[(.ge, a), (.le, b)], ?_, fun t ht hq => ?_⟩
    · have e1 : splitFirst " until ".toList ("last ".toList ++ unitWord u) = none := by cases u <;> decide
      have e2 : reSearch reAgoFor ("last ".toList ++ unitWord u) = none := by cases u <;> decide
      have e3 : reSearch reNIntervalModifier ("last ".toList ++ unitWord u) = none := by cases u <;> decide
      have e4 : reSearch reNInterval ("last ".toList ++ unitWord u) = some ("last".toList, u) := by
        cases u <;> decide
      unfold parseDateCondition
      rw [e1]
      simp only
      unfold parseSimple
      rw [if_neg (by cases u <;> decide), if_neg (by cases u <;> decide)]
      unfold parseAgoFor parseNIntervalModifier parseNInterval
      rw [e2, e3, e4]
      simp only [if_true, show ¬ "last".toList = "this".toList by decide, if_false, h1, h2]
    · rw [h3 t ht hq]; omega

/-- C24 (c): "N Xs" is exactly the N periods that end with the current one; its start is not after its
end for N ≥ 1, and it is empty for N = 0. -/
theorem C24_n_periods_partial (ws : WeekState) (hw : WeekOk ws) (now : DateTime) (hn : now.Valid) (u : Interval)
    (hu : u ≠ .unknown) (plural : Bool) (n : ℕ) :
    ∃ a b, parseDateCondition ws now ((Nat.repr n).toList ++ ' ' :: unitText u plural) =
        .ok (some [(.ge, a), (.le, b)]) ∧
      (∀ t : DateTime, t.Valid → (u = .quarter → t.sec = 0) →
        (InWindow [(.ge, a), (.le, b)] t ↔
          period ws.starts u now.date - n < period ws.starts u t.date ∧
            period ws.starts u t.date ≤ period ws.starts u now.date)) ∧
      (NotAfter a b ↔ 1 ≤ n) := by
  obtain ⟨a, b, h1, h2, h3, h4, h5⟩ := window_between hw hu hn (n - 1) 0
  refine ⟨a, b, ?_, fun t ht hq => ?_, ?_⟩
  · rw [parse_n ws now _ (isNumber_repr n) u plural, digitsToInt_repr, h1, h2]
  · rw [h3 t ht hq]; omega
  · constructor
    · intro h
      by_contra c
      exact h5 (by omega) h
    · intro h; exact h4 (by omega)

/-- C24 (d): "N Xs ago" is exactly the N-th period before the current one. -/
theorem C24_ago_partial (ws : WeekState) (hw : WeekOk ws) (now : DateTime) (hn : now.Valid) (u : Interval)
    (hu : u ≠ .unknown) (plural : Bool) (n : ℕ) :
    ∃ a b, parseDateCondition ws now ((Nat.repr n).toList ++ (' ' :: (unitText u plural ++ " ago".toList))) =
        .ok (some [(.ge, a), (.le, b)]) ∧
      (∀ t : DateTime, t.Valid → (u = .quarter → t.sec = 0) →
        (InWindow [(.ge, a), (.le, b)] t ↔
          period ws.starts u t.date = period ws.starts u now.date - n)) ∧
      NotAfter a b := by
  obtain ⟨a, b, h1, h2, h3, h4, h5⟩ := window_between hw hu hn n n
  refine ⟨a, b, ?_, fun t ht hq => ?_, h4 (le_refl _)⟩
  · have := parse_ago ws now _ (isNumber_repr n) u plural
    rw [digitsToInt_repr, h1, h2] at this
    exact this
  · rw [h3 t ht hq]; omega

/-- C24 (e): the windows "0 Xs ago", "1 Xs ago", "2 Xs ago", … abut: every moment up to the end of the
current period is in exactly one of them. -/
theorem C24_abut_partial (ws : WeekState) (hw : WeekOk ws) (now : DateTime) (hn : now.Valid) (u : Interval)
    (hu : u ≠ .unknown) (plural : Bool) (t : DateTime) (ht : t.Valid) (hq : u = .quarter → t.sec = 0)
    (hpast : period ws.starts u t.date ≤ period ws.starts u now.date) :
    ∃! n : ℕ, ∃ w, parseDateCondition ws now
        ((Nat.repr n).toList ++ (' ' :: (unitText u plural ++ " ago".toList))) = .ok (some w) ∧ InWindow w t := by
  refine ⟨(period ws.starts u now.date - period ws.starts u t.date).toNat, ?_, ?_⟩
  · obtain ⟨a, b, h1, h2, _⟩ := C24_ago_partial ws hw now hn u hu plural
      (period ws.starts u now.date - period ws.starts u t.date).toNat
    exact ⟨_, h1, (h2 t ht hq).mpr (by omega)⟩
  · rintro n ⟨w, hp, hin⟩
    obtain ⟨a, b, h1, h2, _⟩ := C24_ago_partial ws hw now hn u hu plural n
    rw [h1] at hp
    injection hp with hp
    injection hp with hp
    subst hp
    have := (h2 t ht hq).mp hin
    omega

/-- C24 (f): "N Xs ago for M Ys" begins with the N-th previous X and lasts to the end of the M-th Y,
counting the one it begins in. -/
theorem C24_ago_for_partial (ws : WeekState) (hw : WeekOk ws) (now : DateTime) (hn : now.Valid) (u v : Interval)
    (hu : u ≠ .unknown) (hv : v ≠ .unknown) (plural plural' : Bool) (n k : ℕ) :
    ∃ a b, parseDateCondition ws now ((Nat.repr n).toList ++ (' ' :: (unitText u plural ++ " ago".toList) ++
          (" for ".toList ++ ((Nat.repr k).toList ++ ' ' :: unitText v plural')))) =
        .ok (some [(.ge, a), (.le, b)]) ∧ a.Valid ∧ period ws.starts u a.date = period ws.starts u now.date - n ∧
      ∀ t : DateTime, t.Valid → (v = .quarter → t.sec = 0) →
        (InWindow [(.ge, a), (.le, b)] t ↔
          period ws.starts u now.date - n ≤ period ws.starts u t.date ∧
            period ws.starts v t.date < period ws.starts v a.date + k) := by
  obtain ⟨a, a1, a2, a3⟩ := startDate_spec hw hu hn n
  obtain ⟨b, b1, b2, b3⟩ := addToEndDate_spec hw hv (t := ⟨a, 0⟩) a2 (k - 1)
  refine ⟨⟨a, 0⟩, ⟨b, endSec v⟩, ?_, ⟨a2, by simp, by simp⟩, ?_, fun t ht hq => ?_⟩
  · have := parse_agoFor ws now _ _ (isNumber_repr n) (isNumber_repr k) u v plural plural'
    rw [digitsToInt_repr, digitsToInt_repr, a1] at this
    simp only [b1] at this
    exact this
  · have h1 := (a3 a a2).mp (le_refl _)
    obtain ⟨d, d1, d2, d3⟩ := shift_spec ws.starts hu hn.date (-n)
    have h2 := (a3 d d2).mpr (by omega)
    obtain ⟨c, c1, c2, c3⟩ := endOf_spec hw hu d2
    have h3 := (c3 a a2).mp (le_trans h2 ((c3 d d2).mpr (le_refl _)))
    simp only
    omega
  · rw [← a3 t.date ht.date]
    have e : period ws.starts v t.date < period ws.starts v a + k ↔ t.date.ordinal ≤ b.ordinal := by
      rw [b3 t.date ht.date]; simp only; omega
    simp only
    rw [e]
    rw [inWindow_pair]
    rw [notAfter_start a2 ht]
    by_cases hqq : v = .quarter
    · have hs := hq hqq
      subst hqq
      rw [show endSec .quarter = 0 from rfl, notAfter_midnight b2 ht]
      constructor
      · rintro ⟨h1, h2 | ⟨h2, _⟩⟩
        · exact ⟨h1, by omega⟩
        · exact ⟨h1, by rw [h2]⟩
      · rintro ⟨h1, h2⟩
        refine ⟨h1, ?_⟩
        rcases (show t.date.ordinal < b.ordinal ∨ t.date.ordinal = b.ordinal by omega) with k | k
        · exact .inl k
        · exact .inr ⟨ordinal_inj ht.date b2 k, hs⟩
    · rw [show endSec v = 86399 by simp [endSec, hqq], notAfter_end b2 ht]

/-- C24 (g): "N Xs to date" and "N Xs ago to date" begin with a period and last as many whole days as
the current period has been through before today, but at least one: today, or the day that corresponds
to it, is left out except on the first day of a period. -/
theorem C24_to_date (ws : WeekState) (hw : WeekOk ws) (now : DateTime) (hn : now.Valid) (u : Interval)
    (hu : u ≠ .unknown) (plural ago : Bool) (n : ℕ) (p : Date) (hp : p.Valid)
    (hfirst : ∀ d : Date, d.Valid → (p.ordinal ≤ d.ordinal ↔ period ws.starts u now.date ≤ period ws.starts u d)) :
    ∃ a b, parseDateCondition ws now ((Nat.repr n).toList ++
          ' ' :: (unitText u plural ++ (if ago then " ago to date".toList else " to date".toList))) =
        .ok (some [(.ge, a), (.le, b)]) ∧ a.Valid ∧
      (∀ d : Date, d.Valid → (a.date.ordinal ≤ d.ordinal ↔
        period ws.starts u now.date - (if ago then (n : ℤ) else n - 1) ≤ period ws.starts u d)) ∧
      ∀ t : DateTime, t.Valid →
        (InWindow [(.ge, a), (.le, b)] t ↔ a.date.ordinal ≤ t.date.ordinal ∧
          t.date.ordinal < a.date.ordinal + max 1 (now.date.ordinal - p.ordinal)) := by
  obtain ⟨a, a1, a2, a3⟩ := startDate_spec hw hu hn (if ago then (n : ℤ) else n - 1)
  obtain ⟨q, q1, q2, q3⟩ := startDate_spec hw hu hn 0
  have hqp : q.ordinal = p.ordinal := by
    have h1 := (q3 p hp).mpr (by have := (hfirst p hp).mp (le_refl _); omega)
    have h2 := (hfirst q q2).mpr (by have := (q3 q q2).mp (le_refl _); omega)
    omega
  have hdays : daysBetween ⟨q, 0⟩ now = now.date.ordinal - p.ordinal := by
    have := hn.s0
    have := hn.s1
    unfold daysBetween
    simp only
    rw [hqp]
    omega
  obtain ⟨b, b1, b2, b3⟩ := addToEndDate_spec hw (u := .day) (by decide) (t := ⟨a, 0⟩) a2
    (if daysBetween ⟨q, 0⟩ now > 0 then daysBetween ⟨q, 0⟩ now - 1 else 0)
  refine ⟨⟨a, 0⟩, ⟨b, endSec .day⟩, ?_, ⟨a2, by simp, by simp⟩, a3, fun t ht => ?_⟩
  · rw [parse_toDate ws now _ (isNumber_repr n) u plural ago, digitsToInt_repr, a1, q1]
    unfold toDateWindow
    simp only [b1]
  · rw [inWindow_pair]
    rw [notAfter_start a2 ht, show endSec .day = 86399 from rfl, notAfter_end b2 ht, b3 t.date ht.date]
    simp only [period, hdays]
    by_cases h : now.date.ordinal - p.ordinal > 0
    · rw [if_pos h]; omega
    · rw [if_neg h]; omega

/-- C24, against the full statement: a quarter's window ends at the midnight that begins its last day,
so on every date, in every window of quarters, whatever happens later on the last day is left out. -/
theorem C24_quarter_last_day (ws : WeekState) (hw : WeekOk ws) (now : DateTime) (hn : now.Valid)
    (t : DateTime) (ht : t.Valid) (hsame : period ws.starts .quarter t.date = period ws.starts .quarter now.date)
    (hlast : period ws.starts .quarter t.date.next ≠ period ws.starts .quarter now.date) (hs : 0 < t.sec) :
    ∃ w, parseDateCondition ws now "this quarter".toList = .ok (some w) ∧ ¬ InWindow w t := by
  obtain ⟨a, a1, a2, a3⟩ := startDate_spec hw (u := .quarter) (by decide) hn 0
  obtain ⟨b, b1, b2, b3⟩ := endDate_spec hw (u := .quarter) (by decide) hn 0
  refine ⟨[(.ge, ⟨a, 0⟩), (.le, ⟨b, 0⟩)], ?_, ?_⟩
  · have e1 : splitFirst " until ".toList "this quarter".toList = none := by decide
    have e2 : reSearch reAgoFor "this quarter".toList = none := by decide
    have e3 : reSearch reNIntervalModifier "this quarter".toList = none := by decide
    have e4 : reSearch reNInterval "this quarter".toList = some ("this".toList, .quarter) := by decide
    unfold parseDateCondition
    rw [e1]
    simp only
    unfold parseSimple
    rw [if_neg (by decide), if_neg (by decide)]
    unfold parseAgoFor parseNIntervalModifier parseNInterval
    rw [e2, e3, e4]
    simp only [if_true, show ¬ "this".toList = "last".toList by decide, if_false, a1, b1]
    rfl
  · intro h
    have h2 : NotAfter t ⟨b, 0⟩ := h (.le, ⟨b, 0⟩) (by simp)
    rw [notAfter_midnight b2 ht] at h2
    obtain ⟨nv, no⟩ := next_spec ht.date
    have hnext := (b3 t.date.next nv).not.mpr (by
      intro hc
      -- the next day is in a later period
      obtain ⟨c, c1, c2, c3⟩ := startOf_spec hw (u := .quarter) (by decide) ht.date
      have := (c3 t.date.next nv).mp (by
        have := (c3 t.date ht.date).mpr (le_refl _); omega)
      omega)
    rcases h2 with h2 | ⟨_, h2⟩
    · omega
    · omega

/-! ### Concrete cases -/

/-- Wednesday, 28 February 2024, noon. -/
def feb28 : DateTime := ⟨⟨2024, 2, 28⟩, 43200⟩

theorem feb28_valid : feb28.Valid := ⟨⟨by decide, by decide, by decide, by decide⟩, by decide, by decide⟩

/-- Weeks that begin on Sunday, as the library sets them. -/
example : weekStateFor (some "sunday") = ⟨6, 5⟩ ∧ WeekOk ⟨6, 5⟩ := ⟨rfl, weekOk_for (some "sunday")⟩

example : feb28.date.weekday = 2 := by decide +kernel

example : parseDateCondition (weekStateFor (some "sunday")) feb28 "2 weeks".toList =
    .ok (some [(.ge, ⟨⟨2024, 2, 18⟩, 0⟩), (.le, ⟨⟨2024, 3, 2⟩, 86399⟩)]) := by decide +kernel

example : parseDateCondition (weekStateFor none) feb28 "last quarter".toList =
    .ok (some [(.ge, ⟨⟨2023, 10, 1⟩, 0⟩), (.le, ⟨⟨2023, 12, 31⟩, 0⟩)]) := by decide +kernel

example : parseDateCondition (weekStateFor none) feb28 "12 months ago for 2 months".toList =
    .ok (some [(.ge, ⟨⟨2023, 2, 1⟩, 0⟩), (.le, ⟨⟨2023, 3, 31⟩, 86399⟩)]) := by decide +kernel

example : parseDateCondition (weekStateFor none) feb28 "month to date".toList =
    .ok (some [(.ge, ⟨⟨2024, 2, 1⟩, 0⟩), (.le, ⟨⟨2024, 2, 27⟩, 86399⟩)]) := by decide +kernel

example : parseDateCondition (weekStateFor none) feb28 "2024-1-5 until yesterday".toList =
    .ok (some [(.ge, ⟨⟨2024, 1, 5⟩, 0⟩), (.le, ⟨⟨2024, 2, 27⟩, 86399⟩)]) := by decide +kernel

/-- The hypotheses of (g) hold on that date for months: the period began on the first. -/
example : ∀ d : Date, d.Valid → ((⟨2024, 2, 1⟩ : Date).ordinal ≤ d.ordinal ↔
    period 0 .month feb28.date ≤ period 0 .month d) := by
  intro d hd
  have hv : (⟨2024, 2, 1⟩ : Date).Valid := ⟨by decide, by decide, by decide, by decide⟩
  rw [ordinal_le_iff hv hd]
  obtain ⟨k1, k2, k3, k4⟩ := hd
  unfold Date.lt period feb28; simp only; omega

/-- The hypotheses of `C24_quarter_last_day` hold for an evening of 31 March 2024. -/
example : period 0 .quarter (⟨2024, 3, 31⟩ : Date) = period 0 .quarter feb28.date ∧
    period 0 .quarter (⟨2024, 3, 31⟩ : Date).next ≠ period 0 .quarter feb28.date := by decide

end ML
