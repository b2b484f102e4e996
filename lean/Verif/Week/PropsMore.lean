import Verif.Week.Props
/-
C32: what the setting may be.
-/
set_option autoImplicit false
namespace ML
open Spec

/-- C32: a model without a week start, or with an empty one, has weeks that start on Monday. -/
theorem C32_default (w : Warehouse) : weekSql w none = weekSql w (some "monday") ∧ weekSql w (some "") = weekSql w (some "monday") := by
  have h : viewWeekStart (some "monday") = "monday" := by decide
  unfold weekSql
  rw [h]
  exact ⟨rfl, rfl⟩

/-- C32: capital letters make no difference. -/
theorem C32_case (w : Warehouse) (a b : String) (h : lower a = lower b) (ha : a ≠ "") (hb : b ≠ "") : weekSql w (some a) = weekSql w (some b) := by
  unfold weekSql viewWeekStart
  simp only [if_neg ha, if_neg hb, h]

example : lower "Sunday" = lower "SUNDAY" ∧ weekSql .snowflake (some "Sunday") = .ok (.addDays (-1) (.truncWeek (.addDays 1 .col))) := by decide +kernel

end ML
