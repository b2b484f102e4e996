import Verif.Week.Model
/-
C32: week truncation respects the configured week start.
-/
set_option autoImplicit false
namespace ML

namespace Spec
/-- The weekdays by name; Monday is 0. -/
def weekdayNames : List (String × ℤ) :=
  [("monday", 0), ("tuesday", 1), ("wednesday", 2), ("thursday", 3), ("friday", 4), ("saturday", 5), ("sunday", 6)]

/-- `r` is the latest day on weekday `first` that is not after `n`. -/
def LatestOn (first n r : ℤ) : Prop :=
  dayOfWeek r = first ∧ r ≤ n ∧ ∀ s, dayOfWeek s = first → s ≤ n → s ≤ r

/-- Warehouses whose truncation to the week starts on Monday. -/
def mondayWarehouses : List Warehouse :=
  [.snowflake, .redshift, .postgres, .druid, .duckDb, .databricks, .trino]
end Spec
open Spec

theorem latestOn_iff (first n r : ℤ) : LatestOn first n r ↔ dayOfWeek r = first ∧ r ≤ n ∧ n < r + 7 := by
  unfold LatestOn dayOfWeek
  constructor
  · rintro ⟨h1, h2, h3⟩
    refine ⟨h1, h2, ?_⟩
    by_contra hc
    have := h3 (r + 7) (by omega) (by omega)
    omega
  · rintro ⟨h1, h2, h3⟩
    exact ⟨h1, h2, fun s hs1 hs2 => by omega⟩

/-- `dayOfWeek` is the weekday of the calendar. -/
theorem dayOfWeek_ordinal (d : Date) : dayOfWeek d.ordinal = d.weekday := rfl

theorem weekSql_eq (w : Warehouse) (day : String × ℤ) (h : day ∈ weekdayNames) (setting : Option String)
    (hs : viewWeekStart setting = day.1) :
    weekSql w setting = .ok (weekTruncSql w (if day.2 = 0 then none else some (7 - day.2))) := by
  unfold weekSql
  rw [hs]
  simp only [weekdayNames, List.mem_cons, List.not_mem_nil, or_false] at h
  rcases h with rfl | rfl | rfl | rfl | rfl | rfl | rfl <;> rfl

theorem day_range (day : String × ℤ) (h : day ∈ weekdayNames) : 0 ≤ day.2 ∧ day.2 ≤ 6 := by
  simp only [weekdayNames, List.mem_cons, List.not_mem_nil, or_false] at h
  rcases h with rfl | rfl | rfl | rfl | rfl | rfl | rfl <;> simp

/-- C32 (a): on the warehouses that truncate to Monday, for every day of the calendar and every week start,
truncation gives the latest week-start day not after it. -/
theorem C32_monday_warehouses_partial (w : Warehouse) (hw : w ∈ mondayWarehouses) (day : String × ℤ)
    (h : day ∈ weekdayNames) (setting : Option String) (hs : viewWeekStart setting = day.1) :
    ∃ e, weekSql w setting = .ok e ∧ ∀ d : Date, LatestOn day.2 d.ordinal (e.eval w d.ordinal) := by
  refine ⟨_, weekSql_eq w day h setting hs, fun d => ?_⟩
  generalize d.ordinal = n
  obtain ⟨h0, h6⟩ := day_range day h
  rw [latestOn_iff]
  have ht : ∀ m, dateTruncWeek w m = m - dayOfWeek m := by
    intro m
    simp only [mondayWarehouses, List.mem_cons, List.not_mem_nil, or_false] at hw
    rcases hw with rfl | rfl | rfl | rfl | rfl | rfl | rfl <;> rfl
  have he : ∀ o, weekTruncSql w o = match o with
      | none => .truncWeek .col
      | some k => .addDays (-k) (.truncWeek (.addDays k .col)) := by
    intro o
    simp only [mondayWarehouses, List.mem_cons, List.not_mem_nil, or_false] at hw
    rcases hw with rfl | rfl | rfl | rfl | rfl | rfl | rfl <;> rfl
  rw [he]
  by_cases hz : day.2 = 0
  · rw [if_pos hz]
    simp only [DateExpr.eval, ht, dayOfWeek]
    omega
  · rw [if_neg hz]
    simp only [DateExpr.eval, ht, dayOfWeek]
    omega

/-- C32 (b), against the full statement: on BigQuery the weeks start one day before the configured day, on
every date. -/
theorem C32_bigquery (day : String × ℤ) (h : day ∈ weekdayNames) (setting : Option String)
    (hs : viewWeekStart setting = day.1) :
    ∃ e, weekSql .bigquery setting = .ok e ∧
      ∀ d : Date, LatestOn ((day.2 + 6) % 7) d.ordinal (e.eval .bigquery d.ordinal) ∧
        ¬ LatestOn day.2 d.ordinal (e.eval .bigquery d.ordinal) := by
  refine ⟨_, weekSql_eq .bigquery day h setting hs, fun d => ?_⟩
  generalize d.ordinal = n
  obtain ⟨h0, h6⟩ := day_range day h
  rw [latestOn_iff, latestOn_iff]
  by_cases hz : day.2 = 0
  · rw [if_pos hz]
    simp only [weekTruncSql, DateExpr.eval, dateTruncWeek, dayOfWeek]
    omega
  · rw [if_neg hz]
    simp only [weekTruncSql, DateExpr.eval, dateTruncWeek, dayOfWeek]
    omega

theorem zero_ordinal : (⟨1900, 1, 1⟩ : Date).ordinal = 693596 := by decide +kernel

/-- C32 (c): on SQL Server and Synapse truncation is right on every day but the last of the week, which it
moves to the start of the next week. -/
theorem C32_sql_server_partial (w : Warehouse) (hw : w ∈ [Warehouse.sqlServer, .azureSynapse]) (day : String × ℤ)
    (h : day ∈ weekdayNames) (setting : Option String) (hs : viewWeekStart setting = day.1) :
    ∃ e, weekSql w setting = .ok e ∧ ∀ d : Date,
      if dayOfWeek (d.ordinal + 1) = day.2 then e.eval w d.ordinal = d.ordinal + 1
      else LatestOn day.2 d.ordinal (e.eval w d.ordinal) := by
  refine ⟨_, weekSql_eq w day h setting hs, fun d => ?_⟩
  generalize d.ordinal = n
  obtain ⟨h0, h6⟩ := day_range day h
  rw [latestOn_iff]
  have he : ∀ o, weekTruncSql w o = match o with
      | none => .weeksSinceZero .col
      | some k => .addDays (-k) (.weeksSinceZero (.addDays k .col)) := by
    intro o
    simp only [List.mem_cons, List.not_mem_nil, or_false] at hw
    rcases hw with rfl | rfl <;> rfl
  rw [he]
  by_cases hz : day.2 = 0
  · rw [if_pos hz]
    simp only [DateExpr.eval, dateAddWeeks, zero_ordinal, dayOfWeek]
    split <;> omega
  · rw [if_neg hz]
    simp only [DateExpr.eval, dateAddWeeks, zero_ordinal, dayOfWeek]
    split <;> omega

/-- C32 (d): a setting that names no weekday is a KeyError when the SQL is made. -/
theorem C32_unknown_day (w : Warehouse) (setting : Option String)
    (h : ∀ day ∈ weekdayNames, viewWeekStart setting ≠ day.1) : weekSql w setting = .error .keyError := by
  simp only [weekdayNames, List.forall_mem_cons] at h
  obtain ⟨h0, h1, h2, h3, h4, h5, h6, _⟩ := h
  unfold weekSql weekOffset
  rw [if_neg h0, if_neg h6, if_neg h5, if_neg h4, if_neg h3, if_neg h2, if_neg h1]

/-- The setting may be written in any case. -/
example : viewWeekStart (some "Sunday") = "sunday" ∧ ("sunday", 6) ∈ weekdayNames := by decide

/-- Wednesday 28 February 2024 with weeks from Sunday on Snowflake: Sunday 25 February. -/
example : (weekSql .snowflake (some "Sunday")).map (fun e => e.eval .snowflake (⟨2024, 2, 28⟩ : Date).ordinal) =
    .ok (⟨2024, 2, 25⟩ : Date).ordinal := by decide +kernel

/-- Sunday 3 March 2024 with weeks from Monday: BigQuery stays on the Sunday, SQL Server goes to Monday 4 March. -/
example : (weekSql .bigquery none).map (fun e => e.eval .bigquery (⟨2024, 3, 3⟩ : Date).ordinal) =
      .ok (⟨2024, 3, 3⟩ : Date).ordinal ∧
    (weekSql .sqlServer none).map (fun e => e.eval .sqlServer (⟨2024, 3, 3⟩ : Date).ordinal) =
      .ok (⟨2024, 3, 4⟩ : Date).ordinal := by decide +kernel

end ML
