import Verif.Cumulative.Props
/-
C39: queries that are rejected.
-/
set_option autoImplicit false
namespace ML
open Spec
variable {F : Type}

theorem rowFilters_group (ms : List CumMetric) (ws : List (CumWhere F)) (h : CumWhere.group ∈ ws) : rowFilters ms ws = .error .keyError := by
  induction ws with
  | nil => cases h
  | cons w ws ih =>
    cases w with
    | group => rfl
    | cond c f =>
      rcases List.mem_cons.mp h with h | h
      · cases h
      · rw [rowFilters, ih h]

theorem dateFilters_group (ms : List CumMetric) (ws : List (CumWhere F)) (h : CumWhere.group ∈ ws) : dateFilters ms ws = .error .keyError := by
  induction ws with
  | nil => cases h
  | cons w ws ih =>
    cases w with
    | group => rfl
    | cond c f =>
      rcases List.mem_cons.mp h with h | h
      · cases h
      · rw [dateFilters, ih h]

theorem C39_groups_rows (known : CumCol → Bool) (ms : List CumMetric) (dims : List CumCol) (ws : List (CumWhere F)) (m : CumMetric) (h : CumWhere.group ∈ ws)
    (hd : '.' ∉ m.defaultDate.toList) (hk : known ⟨m.view, m.defaultDate, defaultGroup ms dims⟩ = true) :
    cumRows known ms dims ws m = .error .keyError ∧ cumAgg known ms dims ws m = .error .keyError := by
  have hdate : getDefaultDate known (defaultGroup ms dims) m = .ok ⟨m.view, m.defaultDate, defaultGroup ms dims⟩ := by
    unfold getDefaultDate
    rw [if_neg hd, if_pos hk]
  constructor
  · unfold cumRows
    simp only [hdate, rowFilters_group ms ws h]
  · unfold cumAgg
    simp only [hdate, dateFilters_group ms ws h]

/-- C39: a query with a cumulative metric and a group of conditions (AND/OR) is refused with a KeyError, or because the metric has no
usable date; it never answers with the group left out. -/
theorem C39_groups (known : CumCol → Bool) (warehouse : String) (fields : List CumField) (dims : List CumCol) (ws : List (CumWhere F))
    (hw : warehouse ∈ ["SNOWFLAKE", "REDSHIFT", "BIGQUERY", "POSTGRES"]) (h : CumWhere.group ∈ ws) (hm : ∃ m, CumField.cumulative m ∈ fields) :
    cumPlan known warehouse fields dims ws = .error .keyError ∨ cumPlan known warehouse fields dims ws = .error .accessDenied := by
  have hms : (separateMetrics fields).1 ≠ [] := by
    obtain ⟨m, hm⟩ := hm
    intro e
    obtain ⟨m', hm', _⟩ := (C39_metrics fields).2.2.1 m hm
    rw [e] at hm'
    cases hm'
  unfold cumPlan
  rw [if_neg (fun hh => hh hw)]
  cases hs : (separateMetrics fields).1 with
  | nil => exact absurd hs hms
  | cons m ms =>
    simp only [hs]
    rw [cumCtes]
    by_cases hd : '.' ∈ m.defaultDate.toList
    · right
      simp [cumRows, getDefaultDate, hd]
    · by_cases hk : known ⟨m.view, m.defaultDate, defaultGroup (m :: ms) dims⟩ = true
      · left
        rw [(C39_groups_rows known (m :: ms) dims ws m h hd hk).1]
      · right
        simp [cumRows, getDefaultDate, hd, hk]

/-- C39: a query without metrics fails with an IndexError. -/
theorem C39_nothing (known : CumCol → Bool) (warehouse : String) (dims : List CumCol) (ws : List (CumWhere F))
    (hw : warehouse ∈ ["SNOWFLAKE", "REDSHIFT", "BIGQUERY", "POSTGRES"]) : cumPlan known warehouse [] dims ws = .error .indexError := by
  unfold cumPlan
  rw [if_neg (fun hh => hh hw)]
  simp [separateMetrics, dedupMetrics, dedupIds, cumCtes]

example : cumPlan (F := String) (fun _ => true) "SNOWFLAKE" [.cumulative ⟨"orders.total", "total_item_costs", "orders", "order", [], false⟩] [] [.group] = .error .keyError ∧
    cumPlan (F := String) (fun _ => false) "SNOWFLAKE" [.cumulative ⟨"orders.total", "total_item_costs", "orders", "order", [], false⟩] [] [.group] = .error .accessDenied := by
  decide +kernel

end ML
