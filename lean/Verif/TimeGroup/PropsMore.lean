import Verif.TimeGroup.Lemmas
import Verif.Week.Props
import Verif.SymAgg.Model
/-
C53, continued: weeks, week numbers, names and time zones.
-/
set_option autoImplicit false
namespace ML
open Spec

/-- A field for the examples of this file. -/
def exampleField (group : String) (week : Option String) : TimeField := ⟨group, .timestamp, 0, week, false, true⟩

/-- Five hours behind. -/
def newYorkWinter (t : DateTime) : DateTime := t.addSeconds (-18000)

theorem addDays_zero (d : Date) : d.addDays 0 = d := rfl

theorem offsetGet_eq (day : String × ℤ) (h : day ∈ weekdayNames) (setting : Option String) (hs : viewWeekStart setting = day.1) :
    weekOffsetGet setting = if day.2 = 0 then none else some (7 - day.2) := by
  unfold weekOffsetGet
  rw [hs]
  exact (by decide +kernel : ∀ day ∈ weekdayNames, (match weekOffset day.1 with | .ok k => some k | .error _ => none) =
    if day.2 = 0 then none else some (7 - day.2)) day h

theorem offsetGet_unknown (setting : Option String) (h : ∀ day ∈ weekdayNames, viewWeekStart setting ≠ day.1) :
    weekOffsetGet setting = none := by
  simp only [weekdayNames, List.forall_mem_cons] at h
  obtain ⟨h0, h1, h2, h3, h4, h5, h6, _⟩ := h
  unfold weekOffsetGet weekOffset
  rw [if_neg h6, if_neg h5, if_neg h4, if_neg h3, if_neg h2, if_neg h1]

/-- The date the week number is taken of. -/
theorem offsetOnly_eval {w : Warehouse} {zone : DateTime → DateTime} {t x : DateTime} {e : TExpr} (he : e.eval w zone t = some x)
    (setting : Option String) :
    ((offsetOnly w setting e).eval w zone t).map DateTime.date = some (x.date.addDays ((weekOffsetGet setting).getD 0)) := by
  unfold offsetOnly
  cases weekOffsetGet setting <;> cases w <;>
    simp [TExpr.eval, he, truncTo, DateTime.midnight, addDays_zero]

/-- C53 (g): `week` gives midnight of the day C32 speaks of, for the date of the moment the field shows. -/
theorem C53_week (w : Warehouse) (zone : DateTime → DateTime) (f : TimeField) (hg : f.group = "week") (t : DateTime) (ht : ColumnValue zone f t)
    (day : String × ℤ) (hday : day ∈ weekdayNames) (hs : viewWeekStart f.weekStart = day.1) :
    ∃ d e, Gives w zone f t (.moment ⟨d, 0⟩) ∧ d.Valid ∧ weekSql w f.weekStart = .ok e ∧
      d.ordinal = e.eval w (shownMoment w zone f t).date.ordinal := by
  have hb := base_eval w zone f t
  have hv := shown_valid (w := w) ht
  have hl : timeGroupNames.lookup "week" = some .week := by decide +kernel
  have hw := weekSql_eq w day hday f.weekStart hs
  unfold Gives
  simp only [timeSql, hg, hl]
  generalize (if (f.timezone && f.convert) = true then applyTimezone w f.datatype TExpr.col else TExpr.col) = s at hb ⊢
  generalize shownMoment w zone f t = x at hb hv ⊢
  generalize weekTruncSql w _ = e at hw
  have hd := addDays_spec hv.date (e.eval w x.date.ordinal - x.date.ordinal)
  refine ⟨_, e, ?_, hd.1, hw, by rw [hd.2]; omega⟩
  have hval : (TExpr.weekStart e s).eval w zone t = some ⟨x.date.addDays (e.eval w x.date.ordinal - x.date.ordinal), 0⟩ := by
    simp [TExpr.eval, hb]
  have hcast : ∀ d : Date, castType f.datatype ⟨d, 0⟩ = ⟨d, 0⟩ := by intro d; cases f.datatype <;> rfl
  cases w
  case bigquery =>
    refine ⟨.moment (.castTo f.datatype (.weekStart e s)), by simp only [bigQuerySql, hw], ?_⟩
    simp only [TSql.eval]
    rw [TExpr.eval, hval]
    simp [hcast]
  case sqlServer => exact ⟨.moment (.weekStart e s), by simp only [sqlServerSql, hw], by simp only [TSql.eval, hval, Option.map_some]⟩
  case azureSynapse => exact ⟨.moment (.weekStart e s), by simp only [sqlServerSql, hw], by simp only [TSql.eval, hval, Option.map_some]⟩
  all_goals exact ⟨.moment (.weekStart e s), by simp only [otherSql, hw], by simp only [TSql.eval, hval, Option.map_some]⟩

/-- C53 (h): on the warehouses that truncate to Monday, `week` is midnight of the latest day that is not after the date and is the configured weekday. -/
theorem C53_week_partial (w : Warehouse) (hm : w ∈ mondayWarehouses) (zone : DateTime → DateTime) (f : TimeField) (hg : f.group = "week")
    (t : DateTime) (ht : ColumnValue zone f t) (day : String × ℤ) (hday : day ∈ weekdayNames) (hs : viewWeekStart f.weekStart = day.1) :
    ∃ d : Date, Gives w zone f t (.moment ⟨d, 0⟩) ∧ d.Valid ∧ LatestOn day.2 (shownMoment w zone f t).date.ordinal d.ordinal := by
  obtain ⟨d, e, h1, h2, h3, h4⟩ := C53_week w zone f hg t ht day hday hs
  obtain ⟨e', h5, h6⟩ := C32_monday_warehouses_partial w hm day hday f.weekStart hs
  rw [h3] at h5; cases h5
  exact ⟨d, h1, h2, h4 ▸ h6 _⟩

/-- Wednesday 28 February 2024, 10:00, with weeks from Sunday. -/
example : Gives .snowflake id (exampleField "week" (some "Sunday")) ⟨⟨2024, 2, 28⟩, 36000⟩ (.moment ⟨⟨2024, 2, 25⟩, 0⟩) :=
  ⟨_, rfl, by decide +kernel⟩

theorem weekIndex_gives (w : Warehouse) (hw : w ∉ serverWarehouses) (zone : DateTime → DateTime) (f : TimeField)
    (hg : f.group ∈ ["week_index", "week_of_year"]) (t : DateTime) :
    Gives w zone f t (.number (if w = .bigquery then
      sundayWeekNumber ((shownMoment w zone f t).date.addDays ((weekOffsetGet f.weekStart).getD 0))
      else isoWeekNumber ((shownMoment w zone f t).date.addDays ((weekOffsetGet f.weekStart).getD 0)))) := by
  have hb := base_eval w zone f t
  have hl : timeGroupNames.lookup f.group = some .weekIndex := by
    simp only [List.mem_cons, List.not_mem_nil, or_false] at hg
    rcases hg with h | h <;> rw [h] <;> decide +kernel
  unfold Gives
  simp only [timeSql, hl]
  generalize (if (f.timezone && f.convert) = true then applyTimezone w f.datatype TExpr.col else TExpr.col) = s at hb ⊢
  have ho := offsetOnly_eval hb f.weekStart
  generalize shownMoment w zone f t = x at hb ho ⊢
  obtain ⟨y, hy, hyd⟩ := Option.map_eq_some_iff.1 ho
  rw [← hyd]
  cases w <;> first
    | (exfalso; simp [serverWarehouses] at hw; done)
    | exact ⟨_, rfl, by simp [TSql.eval, NExpr.eval, hy, partOf]⟩

theorem monday_not_server {w : Warehouse} (hm : w ∈ mondayWarehouses) : w ∉ serverWarehouses ∧ w ≠ .bigquery := by
  simp only [mondayWarehouses, List.mem_cons, List.not_mem_nil, or_false] at hm
  rcases hm with rfl | rfl | rfl | rfl | rfl | rfl | rfl <;> simp [serverWarehouses]

/-- C53 (i): `week_index` is the ISO number of the week, after moving the date forward by the days between the configured week start and the next
Monday; so a week that starts on the configured day becomes a week that starts on Monday. Partial: not on BigQuery and SQL Server. -/
theorem C53_week_index_partial (w : Warehouse) (hm : w ∈ mondayWarehouses) (zone : DateTime → DateTime) (f : TimeField)
    (hg : f.group ∈ ["week_index", "week_of_year"]) (t : DateTime) (ht : ColumnValue zone f t) (day : String × ℤ) (hday : day ∈ weekdayNames)
    (hs : viewWeekStart f.weekStart = day.1) :
    ∃ n d, Gives w zone f t (.number n) ∧ d.Valid ∧ d.ordinal = (shownMoment w zone f t).date.ordinal + (7 - day.2) % 7 ∧ IsoWeek d n := by
  obtain ⟨h1, h2⟩ := monday_not_server hm
  have h := weekIndex_gives w h1 zone f hg t
  rw [if_neg h2, offsetGet_eq day hday f.weekStart hs] at h
  have hd := addDays_spec (shown_valid (w := w) ht).date ((if day.2 = 0 then none else some (7 - day.2) : Option ℤ).getD 0)
  refine ⟨_, _, h, hd.1, ?_, isoWeek_spec hd.1⟩
  rw [hd.2]
  have := day_range day hday
  split
  · simp only [Option.getD_none]; omega
  · simp only [Option.getD_some]; omega

/-- C53 (j): rows of the same week (the same latest week start) have the same `week_index`. -/
theorem C53_week_index_same_partial (w : Warehouse) (hm : w ∈ mondayWarehouses) (zone : DateTime → DateTime) (f : TimeField)
    (hg : f.group ∈ ["week_index", "week_of_year"]) (t t' : DateTime) (ht : ColumnValue zone f t) (ht' : ColumnValue zone f t')
    (day : String × ℤ) (hday : day ∈ weekdayNames) (hs : viewWeekStart f.weekStart = day.1) (r : ℤ)
    (h1 : LatestOn day.2 (shownMoment w zone f t).date.ordinal r) (h2 : LatestOn day.2 (shownMoment w zone f t').date.ordinal r) :
    ∃ n, Gives w zone f t (.number n) ∧ Gives w zone f t' (.number n) := by
  obtain ⟨hw, hbq⟩ := monday_not_server hm
  have g1 := weekIndex_gives w hw zone f hg t
  have g2 := weekIndex_gives w hw zone f hg t'
  rw [if_neg hbq] at g1 g2
  have hoff := offsetGet_eq day hday f.weekStart hs
  have hr := day_range day hday
  have d1 := addDays_spec (shown_valid (w := w) ht).date ((weekOffsetGet f.weekStart).getD 0)
  have d2 := addDays_spec (shown_valid (w := w) ht').date ((weekOffsetGet f.weekStart).getD 0)
  refine ⟨_, g1, ?_⟩
  have : isoWeekNumber ((shownMoment w zone f t).date.addDays ((weekOffsetGet f.weekStart).getD 0)) =
      isoWeekNumber ((shownMoment w zone f t').date.addDays ((weekOffsetGet f.weekStart).getD 0)) := by
    refine isoWeek_same d1.1 d2.1 ?_
    rw [latestOn_iff] at h1 h2
    simp only [Date.weekday]
    rw [d1.2, d2.2]
    simp only [dayOfWeek] at h1 h2
    have hk : ((weekOffsetGet f.weekStart).getD 0) = (7 - day.2) % 7 := by
      rw [hoff]; split
      · simp only [Option.getD_none]; omega
      · simp only [Option.getD_some]; omega
    rw [hk]
    omega
  rw [this]; exact g2

/-- Sunday 31 December 2023 to Saturday 6 January 2024 are week 1 when weeks start on Sunday. -/
example : Gives .redshift id (exampleField "week_index" (some "sunday")) ⟨⟨2023, 12, 31⟩, 0⟩ (.number 1) ∧
    Gives .redshift id (exampleField "week_index" (some "sunday")) ⟨⟨2024, 1, 6⟩, 0⟩ (.number 1) ∧
    Gives .redshift id (exampleField "week_index" (some "sunday")) ⟨⟨2024, 1, 7⟩, 0⟩ (.number 2) :=
  ⟨⟨_, rfl, by decide +kernel⟩, ⟨_, rfl, by decide +kernel⟩, _, rfl, by decide +kernel⟩

/-- C53 (k): a week start that is no weekday, which makes `week` a KeyError, makes `week_index` count from Monday. -/
theorem C53_week_index_unknown (w : Warehouse) (hm : w ∈ mondayWarehouses) (zone : DateTime → DateTime) (f : TimeField)
    (hg : f.group ∈ ["week_index", "week_of_year"]) (t : DateTime) (ht : ColumnValue zone f t)
    (h : ∀ day ∈ weekdayNames, viewWeekStart f.weekStart ≠ day.1) :
    ∃ n, Gives w zone f t (.number n) ∧ IsoWeek (shownMoment w zone f t).date n := by
  obtain ⟨h1, h2⟩ := monday_not_server hm
  have g := weekIndex_gives w h1 zone f hg t
  rw [if_neg h2, offsetGet_unknown f.weekStart h] at g
  exact ⟨_, g, isoWeek_spec (shown_valid (w := w) ht).date⟩

/-- Against the full statement: on BigQuery, with weeks from Monday, Sunday 7 January 2024 already has the number of the week that starts the next day, and
30 December 2024 and 1 January 2025, days of one week, have different numbers. -/
theorem C53_bigquery_week_index :
    Gives .bigquery id (exampleField "week_index" none) ⟨⟨2024, 1, 6⟩, 0⟩ (.number 0) ∧
    Gives .bigquery id (exampleField "week_index" none) ⟨⟨2024, 1, 7⟩, 0⟩ (.number 1) ∧
    Gives .bigquery id (exampleField "week_index" none) ⟨⟨2024, 1, 8⟩, 0⟩ (.number 1) ∧
    Gives .bigquery id (exampleField "week_index" none) ⟨⟨2024, 12, 30⟩, 0⟩ (.number 52) ∧
    Gives .bigquery id (exampleField "week_index" none) ⟨⟨2025, 1, 1⟩, 0⟩ (.number 0) :=
  ⟨⟨_, rfl, by decide +kernel⟩, ⟨_, rfl, by decide +kernel⟩, ⟨_, rfl, by decide +kernel⟩, ⟨_, rfl, by decide +kernel⟩, _, rfl, by decide +kernel⟩

theorem weekOfMonth_gives (w : Warehouse) (hw : w ∉ serverWarehouses) (zone : DateTime → DateTime) (f : TimeField)
    (hg : f.group = "week_of_month") (t : DateTime) :
    Gives w zone f t (.number (if w = .bigquery then
      sundayWeekNumber (shownMoment w zone f t).date - sundayWeekNumber (firstOfMonth (shownMoment w zone f t).date) + 1
      else isoWeekNumber (shownMoment w zone f t).date - isoWeekNumber (firstOfMonth (shownMoment w zone f t).date) + 1)) := by
  have hb := base_eval w zone f t
  have hl : timeGroupNames.lookup "week_of_month" = some .weekOfMonth := by decide +kernel
  unfold Gives
  simp only [timeSql, hg, hl]
  generalize (if (f.timezone && f.convert) = true then applyTimezone w f.datatype TExpr.col else TExpr.col) = s at hb ⊢
  generalize shownMoment w zone f t = x at hb ⊢
  cases w <;> first
    | (exfalso; simp [serverWarehouses] at hw; done)
    | exact ⟨_, rfl, by simp [TSql.eval, NExpr.eval, TExpr.eval, hb, partOf, truncTo, firstOfMonth, DateTime.midnight]⟩

/-- C53 (l): `week_of_month` is one more than the Mondays since the first of the month exactly when the week of the date and the week of the first of the
month belong to the same ISO year; otherwise it is too small. -/
theorem C53_week_of_month_partial (w : Warehouse) (hm : w ∈ mondayWarehouses) (zone : DateTime → DateTime) (f : TimeField)
    (hg : f.group = "week_of_month") (t : DateTime) (ht : ColumnValue zone f t) :
    ∃ n, Gives w zone f t (.number n) ∧
      (unitNumber 1 .isoYear (shownMoment w zone f t) = unitNumber 1 .isoYear ⟨firstOfMonth (shownMoment w zone f t).date, 0⟩ →
        n = weeksBegun 1 (firstOfMonth (shownMoment w zone f t).date) (shownMoment w zone f t).date + 1) ∧
      (unitNumber 1 .isoYear (shownMoment w zone f t) ≠ unitNumber 1 .isoYear ⟨firstOfMonth (shownMoment w zone f t).date, 0⟩ →
        n < weeksBegun 1 (firstOfMonth (shownMoment w zone f t).date) (shownMoment w zone f t).date + 1) := by
  obtain ⟨h1, h2⟩ := monday_not_server hm
  have g := weekOfMonth_gives w h1 zone f hg t
  have hv := (shown_valid (w := w) ht).date
  rw [if_neg h2] at g
  simp only [unitNumber]
  generalize (shownMoment w zone f t).date = d at g hv ⊢
  have hf := firstOfMonth_valid hv
  refine ⟨_, g, fun h => ?_, fun h => ?_⟩
  · have := isoWeek_diff hf hv h.symm
    omega
  · have hle : (firstOfMonth d).ordinal ≤ d.ordinal := by
      have := hv.d1
      simp only [Date.ordinal, firstOfMonth]; omega
    have a1 := addDays_spec hv (3 - d.weekday)
    have a2 := addDays_spec hf (3 - (firstOfMonth d).weekday)
    have b1 := year_bounds a1.1
    have b2 := year_bounds a2.1
    have hlt : ((firstOfMonth d).addDays (3 - (firstOfMonth d).weekday)).year < (d.addDays (3 - d.weekday)).year := by
      rcases lt_trichotomy ((firstOfMonth d).addDays (3 - (firstOfMonth d).weekday)).year (d.addDays (3 - d.weekday)).year with h3 | h3 | h3
      · exact h3
      · exact absurd h3.symm h
      · have := dby_mono h3
        rw [a1.2] at b1; rw [a2.2] at b2
        simp only [Date.weekday] at b1 b2
        simp only [Date.weekday] at this
        omega
    have := isoWeek_diff_less hf hv hlt
    omega

theorem dbm_ge31 (y m : ℤ) (h : 2 ≤ m) : 31 ≤ daysBeforeMonth y m := by
  unfold daysBeforeMonth
  have : (if (decide (2 < m) && isLeap y) = true then (1 : ℤ) else 0) ≥ 0 := by split <;> simp
  repeat' split
  all_goals omega

theorem isoYear_inside {d : Date} (hd : d.Valid) (l : 2 ≤ d.month) (u : d.month ≤ 11) : (d.addDays (3 - d.weekday)).year = d.year := by
  have a := addDays_spec hd (3 - d.weekday)
  have b1 : daysBeforeYear d.year + 31 < d.ordinal := by
    have := dbm_ge31 d.year d.month l
    have := hd.d1
    simp only [Date.ordinal]; omega
  have b2 : d.ordinal + 31 ≤ daysBeforeYear (d.year + 1) := by
    have e1 := dbm_mono d.year d.month hd.m1 (11 - d.month).toNat (by omega)
    have e2 := dbm_end d.year
    have e3 := dby_succ d.year
    have e4 : daysInMonth d.year 12 = 31 := by simp [daysInMonth]
    have e5 := hd.dn
    have e6 : d.month + 1 + ((11 - d.month).toNat : ℤ) = 12 := by omega
    rw [e6] at e1
    simp only [Date.ordinal]
    omega
  have hw : 0 ≤ d.weekday ∧ d.weekday ≤ 6 := by simp only [Date.weekday]; omega
  exact year_of_ordinal a.1 d.year (by omega) (by omega)

/-- C53 (m): from February to November `week_of_month` is right. -/
theorem C53_week_of_month_inside (w : Warehouse) (hm : w ∈ mondayWarehouses) (zone : DateTime → DateTime) (f : TimeField)
    (hg : f.group = "week_of_month") (t : DateTime) (ht : ColumnValue zone f t)
    (h2 : 2 ≤ (shownMoment w zone f t).date.month) (h11 : (shownMoment w zone f t).date.month ≤ 11) :
    Gives w zone f t (.number (weeksBegun 1 (firstOfMonth (shownMoment w zone f t).date) (shownMoment w zone f t).date + 1)) := by
  obtain ⟨n, hn, heq, -⟩ := C53_week_of_month_partial w hm zone f hg t ht
  have hv := (shown_valid (w := w) ht).date
  rw [heq ?_] at hn
  · exact hn
  · have k1 := isoYear_inside hv h2 h11
    have k2 := isoYear_inside (firstOfMonth_valid hv) h2 h11
    simp only [unitNumber]
    rw [k1, k2]
    rfl

/-- 15 May 2024 is in the third week of the month. -/
example : Gives .postgres id (exampleField "week_of_month" none) ⟨⟨2024, 5, 15⟩, 0⟩ (.number 3) ∧
    weeksBegun 1 ⟨2024, 5, 1⟩ ⟨2024, 5, 15⟩ = 2 := ⟨⟨_, rfl, by decide +kernel⟩, by decide +kernel⟩

/-- Against the full statement: on Snowflake, Postgres and the others, 4 January 2021 is in week -51 of its month and 30 December 2024 in week -46. -/
theorem C53_week_of_month_negative :
    Gives .snowflake id (exampleField "week_of_month" none) ⟨⟨2021, 1, 4⟩, 0⟩ (.number (-51)) ∧
    Gives .postgres id (exampleField "week_of_month" none) ⟨⟨2024, 12, 30⟩, 0⟩ (.number (-46)) :=
  ⟨⟨_, rfl, by decide +kernel⟩, _, rfl, by decide +kernel⟩

/-- C53 (n): on BigQuery `week_of_month` is always one more than the Sundays since the first of the month. -/
theorem C53_week_of_month_bigquery (zone : DateTime → DateTime) (f : TimeField) (hg : f.group = "week_of_month") (t : DateTime) :
    Gives .bigquery zone f t (.number (weeksBegun 0 (firstOfMonth (shownMoment .bigquery zone f t).date) (shownMoment .bigquery zone f t).date + 1)) := by
  have g := weekOfMonth_gives .bigquery (by simp [serverWarehouses]) zone f hg t
  rw [if_pos rfl] at g
  have := sundayWeek_diff (a := firstOfMonth (shownMoment .bigquery zone f t).date) (b := (shownMoment .bigquery zone f t).date) rfl
  rw [this] at g
  exact g

/-- C53 (o): except on BigQuery, months and weekdays are shown by the first three letters of their English names. -/
theorem C53_names_partial (w : Warehouse) (hw : w ≠ .bigquery) (zone : DateTime → DateTime) (f : TimeField) (t : DateTime) (ht : ColumnValue zone f t) :
    (f.group ∈ ["month_of_year", "month_name"] →
      Gives w zone f t (.name (firstThree (monthNames.getD ((shownMoment w zone f t).date.month - 1).toNat "")))) ∧
    (f.group = "day_of_week" →
      Gives w zone f t (.name (firstThree (dayNames.getD (shownMoment w zone f t).date.weekday.toNat "")))) := by
  have hb := base_eval w zone f t
  have hv := (shown_valid (w := w) ht).date
  have l1 : timeGroupNames.lookup "month_of_year" = some .monthName := by decide +kernel
  have l2 : timeGroupNames.lookup "month_name" = some .monthName := by decide +kernel
  have l3 : timeGroupNames.lookup "day_of_week" = some .dayOfWeek := by decide +kernel
  simp only [Gives, timeSql]
  generalize (if (f.timezone && f.convert) = true then applyTimezone w f.datatype TExpr.col else TExpr.col) = s at hb ⊢
  generalize shownMoment w zone f t = x at hb hv ⊢
  have hmonth : shortMonthName x.date.month = firstThree (monthNames.getD (x.date.month - 1).toNat "") ∧
      String.ofList ((fullMonthName x.date.month).toList.take 3) = firstThree (monthNames.getD (x.date.month - 1).toNat "") ∧
      (druidMonths.lookup x.date.month).getD "Invalid Month" = firstThree (monthNames.getD (x.date.month - 1).toNat "") := by
    have h1 := hv.m1; have h2 := hv.m12
    generalize x.date.month = m at h1 h2 ⊢
    have : m = 1 ∨ m = 2 ∨ m = 3 ∨ m = 4 ∨ m = 5 ∨ m = 6 ∨ m = 7 ∨ m = 8 ∨ m = 9 ∨ m = 10 ∨ m = 11 ∨ m = 12 := by omega
    rcases this with rfl | rfl | rfl | rfl | rfl | rfl | rfl | rfl | rfl | rfl | rfl | rfl <;> decide +kernel
  have hday : shortDayName x.date.weekday = firstThree (dayNames.getD x.date.weekday.toNat "") ∧
      String.ofList ((fullDayName x.date.weekday).toList.take 3) = firstThree (dayNames.getD x.date.weekday.toNat "") ∧
      (druidDays.lookup (x.date.weekday + 1)).getD "Invalid Day" = firstThree (dayNames.getD x.date.weekday.toNat "") := by
    have h1 : 0 ≤ x.date.weekday ∧ x.date.weekday ≤ 6 := by simp only [Date.weekday]; omega
    generalize x.date.weekday = m at h1 ⊢
    have : m = 0 ∨ m = 1 ∨ m = 2 ∨ m = 3 ∨ m = 4 ∨ m = 5 ∨ m = 6 := by omega
    rcases this with rfl | rfl | rfl | rfl | rfl | rfl | rfl <;> decide +kernel
  obtain ⟨m1, m2, m3⟩ := hmonth
  obtain ⟨d1, d2, d3⟩ := hday
  constructor
  · intro hg
    simp only [List.mem_cons, List.not_mem_nil, or_false] at hg
    have hl : timeGroupNames.lookup f.group = some .monthName := by rcases hg with h | h <;> rw [h] <;> assumption
    simp only [hl]
    cases w
    case bigquery => exact absurd rfl hw
    case druid => exact ⟨_, rfl, by simp only [TSql.eval, SExpr.eval, NExpr.eval, hb, Option.map_some, partOf, m3]⟩
    case sqlServer => exact ⟨_, rfl, by simp only [TSql.eval, SExpr.eval, TExpr.eval, hb, Option.map_some, DateTime.midnight, m2]⟩
    case azureSynapse => exact ⟨_, rfl, by simp only [TSql.eval, SExpr.eval, TExpr.eval, hb, Option.map_some, DateTime.midnight, m2]⟩
    all_goals exact ⟨_, rfl, by simp only [TSql.eval, SExpr.eval, hb, Option.map_some, m1]⟩
  · intro hg
    rw [hg]
    simp only [l3]
    cases w
    case bigquery => exact absurd rfl hw
    case druid => exact ⟨_, rfl, by simp only [TSql.eval, SExpr.eval, NExpr.eval, hb, Option.map_some, partOf, d3]⟩
    case sqlServer => exact ⟨_, rfl, by simp only [TSql.eval, SExpr.eval, TExpr.eval, hb, Option.map_some, DateTime.midnight, d2]⟩
    case azureSynapse => exact ⟨_, rfl, by simp only [TSql.eval, SExpr.eval, TExpr.eval, hb, Option.map_some, DateTime.midnight, d2]⟩
    all_goals exact ⟨_, rfl, by simp only [TSql.eval, SExpr.eval, hb, Option.map_some, d1]⟩

/-- Thursday 29 February 2024 on Druid and SQL Server. -/
example : Gives .druid id (exampleField "day_of_week" none) ⟨⟨2024, 2, 29⟩, 0⟩ (.name "Thu") ∧
    Gives .sqlServer id (exampleField "month_name" none) ⟨⟨2024, 2, 29⟩, 0⟩ (.name "Feb") :=
  ⟨⟨_, rfl, by decide +kernel⟩, _, rfl, by decide +kernel⟩

/-- Against the full statement: on BigQuery the same timeframes give the whole name of the month and the padded upper-case name of the weekday. -/
theorem C53_bigquery_names :
    Gives .bigquery id (exampleField "month_of_year" none) ⟨⟨2024, 2, 29⟩, 0⟩ (.name "February") ∧
    Gives .bigquery id (exampleField "day_of_week" none) ⟨⟨2024, 2, 29⟩, 0⟩ (.name "THURSDAY ") :=
  ⟨⟨_, rfl, by decide +kernel⟩, _, rfl, by decide +kernel⟩

/-- C53 (p): `raw` and `time` give the moment the field shows, in the time zone of the project. -/
theorem C53_raw (w : Warehouse) (zone : DateTime → DateTime) (f : TimeField) (hg : f.group ∈ ["raw", "time"]) (t : DateTime) :
    Gives w zone f t (.moment (shownMoment w zone f t)) := by
  have hb := base_eval w zone f t
  have hl : timeGroupNames.lookup f.group = some .raw ∨ timeGroupNames.lookup f.group = some .time := by
    simp only [List.mem_cons, List.not_mem_nil, or_false] at hg
    rcases hg with h | h <;> rw [h] <;> decide +kernel
  unfold Gives
  simp only [timeSql]
  generalize (if (f.timezone && f.convert) = true then applyTimezone w f.datatype TExpr.col else TExpr.col) = s at hb ⊢
  rcases hl with hl | hl <;> simp only [hl] <;> cases w <;> exact ⟨_, rfl, by simp only [TSql.eval, hb, Option.map_some]⟩

/-- C53 (q): on Druid, SQL Server and Azure Synapse the time zone of the project has no effect on any timeframe; neither has it when the field does not
convert. -/
theorem C53_zone_ignored (w : Warehouse) (f : TimeField) (h : w ∈ zonelessWarehouses ∨ f.convert = false) (b : Bool) :
    timeSql w { f with timezone := b } = timeSql w { f with timezone := false } := by
  have : (if (b && f.convert) = true then applyTimezone w f.datatype TExpr.col else TExpr.col) = TExpr.col := by
    rcases h with h | h
    · simp only [zonelessWarehouses, List.mem_cons, List.not_mem_nil, or_false] at h
      rcases h with rfl | rfl | rfl <;> simp [applyTimezone]
    · simp [h]
  simp only [timeSql, this, Bool.false_and, if_neg Bool.false_ne_true]

/-- Against the full statement: a column of type DATE is moved to the day before by a time zone west of Greenwich. -/
theorem C53_date_column_moves :
    Gives .snowflake newYorkWinter ⟨"date", .date, 0, none, true, true⟩ ⟨⟨2024, 3, 1⟩, 0⟩ (.moment ⟨⟨2024, 2, 29⟩, 0⟩) ∧
    Gives .bigquery newYorkWinter ⟨"raw", .date, 0, none, true, true⟩ ⟨⟨2024, 3, 1⟩, 0⟩ (.moment ⟨⟨2024, 2, 29⟩, 0⟩) :=
  ⟨⟨_, rfl, by decide +kernel⟩, _, rfl, by decide +kernel⟩

/-- C53 (r): a field converts when its `convert_timezone` says so, or, without it, its `convert_tz`, or, without both, when neither default of the model is
`False`. -/
theorem C53_converts (modelTz modelTimezone : Option Bool) (fieldTimezone fieldTz : Option (Option Bool)) :
    convertTimezone modelTz modelTimezone fieldTimezone fieldTz = true ↔
      fieldTimezone = some (some true) ∨ fieldTimezone = none ∧ fieldTz = some (some true) ∨
      fieldTimezone = none ∧ fieldTz = none ∧ modelTz ≠ some false ∧ modelTimezone ≠ some false := by
  unfold convertTimezone
  rcases fieldTimezone with _ | _ | _ | _ <;> rcases fieldTz with _ | _ | _ | _ <;> simp

end ML
