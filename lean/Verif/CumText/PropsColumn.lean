import Verif.CumText.PropsMore
import Verif.Column.Model
/-
C39: the columns that a cumulative metric's condition names are those under which a query selects these fields.
-/
set_option autoImplicit false
namespace ML
open Spec

theorem label_plain (v n g : List Char) :
    (WhereField.mk v n .dimension g).label = (NField.column ⟨String.ofList v, String.ofList n, .plain, none, none⟩).toList := by
  have hu : "_".toList = ['_'] := rfl
  simp [WhereField.label, NField.column, NField.alias, hu]

theorem label_time (v n g : List Char) :
    (WhereField.mk v n .time g).label = (NField.column ⟨String.ofList v, String.ofList n, .time (String.ofList g), none, none⟩).toList := by
  have hu : "_".toList = ['_'] := rfl
  simp [WhereField.label, NField.column, NField.alias, hu]

theorem label_duration (v n g : List Char) :
    (WhereField.mk v n .duration g).label = (NField.column ⟨String.ofList v, String.ofList n, .duration (String.ofList g), none, none⟩).toList := by
  have hu : "_".toList = ['_'] := rfl
  simp [WhereField.label, NField.column, NField.alias, hu]

/-- C39. The column which the condition of a cumulative metric has for a dimension, for a time and for a duration is the column under which any
query selects it: the group is behind the name of a time and before that of a duration. -/
theorem C39_condition_names (m : CumTexts) (group v n g : List Char) :
    whereColumn m group ⟨v, n, .dimension, g⟩ =
      "subquery_".toList ++ m.label ++ ".".toList ++ (NField.column ⟨String.ofList v, String.ofList n, .plain, none, none⟩).toList ∧
    (m.updateTimeframe ≠ some false →
      whereColumn m group ⟨v, n, .time, g⟩ =
        "subquery_".toList ++ m.label ++ ".".toList ++ (NField.column ⟨String.ofList v, String.ofList n, .time (String.ofList group), none, none⟩).toList ∧
      whereColumn m group ⟨v, n, .duration, g⟩ =
        "subquery_".toList ++ m.label ++ ".".toList ++ (NField.column ⟨String.ofList v, String.ofList n, .duration (String.ofList group), none, none⟩).toList) ∧
    (m.updateTimeframe = some false →
      whereColumn m group ⟨v, n, .time, g⟩ =
        "subquery_".toList ++ m.label ++ ".".toList ++ (NField.column ⟨String.ofList v, String.ofList n, .time (String.ofList g), none, none⟩).toList ∧
      whereColumn m group ⟨v, n, .duration, g⟩ =
        "subquery_".toList ++ m.label ++ ".".toList ++ (NField.column ⟨String.ofList v, String.ofList n, .duration (String.ofList g), none, none⟩).toList) := by
  have h1 := label_plain v n g
  have h2 := label_time v n
  have h3 := label_duration v n
  unfold whereColumn
  generalize "subquery_".toList ++ m.label ++ ".".toList = pre
  refine ⟨?_, fun h => ⟨?_, ?_⟩, fun h => ⟨?_, ?_⟩⟩
  · rw [if_neg (fun hc => hc.1 rfl), h1]
  · rw [if_pos ⟨fun hc => WhereKind.noConfusion hc, h⟩, ← h2]
  · rw [if_pos ⟨fun hc => WhereKind.noConfusion hc, h⟩, ← h3]
  · rw [if_neg (fun hc => hc.2 h), h2]
  · rw [if_neg (fun hc => hc.2 h), h3]

/-- The hypotheses are met: the days since a customer's first order in a condition of a metric by weeks. -/
example : whereColumn ⟨"orders_active".toList, none, none⟩ "weeks".toList ⟨"customers".toList, "since_first_order".toList, .duration, "days".toList⟩ =
    "subquery_orders_active.customers_weeks_since_first_order".toList := by decide +kernel

end ML
