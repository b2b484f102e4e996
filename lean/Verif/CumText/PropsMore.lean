import Verif.CumText.Props
/-
C39: the columns the condition of a cumulative metric names, what is refused, the columns of the final query, and concrete cases.
-/
set_option autoImplicit false
namespace ML
open Spec

/-! ### The columns of the condition -/

/-- C39. Whenever the query of a metric's rows can be built, every name in its condition is the name of one of the columns of that query: the column exists. -/
theorem C39_condition_columns (get : List Char → Res WhereField) (hget : FindsGroups get) (group : List Char) (m : CumTexts) (ps : List Piece)
    (hps : OrdinaryText ps) (hdur : ∀ n f, get n = .ok f → f.kind = .duration → f.group = group ∨ ∃ e, get (f.view ++ '.' :: f.name ++ '_' :: group) = .error e)
    (fs : List WhereField) (h : cumWhereFields get group m (render ps) = .ok fs) :
    ∀ n ∈ refNames ps, n ≠ "cumulative_date".toList → ∃ f g, get n = .ok f ∧ g ∈ fs ∧
      whereColumn m group f = "subquery_".toList ++ m.label ++ ".".toList ++ g.label := by
  unfold cumWhereFields at h
  rw [refs_where ps hps] at h
  intro n hn hd
  have hmem : n ∈ (refNames ps).filter (· ≠ cumulativeDate) := by simpa using ⟨hn, hd⟩
  revert h hmem
  generalize (refNames ps).filter (· ≠ cumulativeDate) = rs
  intro h hmem
  induction rs generalizing fs with
  | nil => cases hmem
  | cons r rs ih =>
    simp only [cumWhereLoop] at h
    cases hr : get r with
    | error e => rw [hr] at h; cases h
    | ok f =>
      rw [hr] at h
      simp only at h
      cases hg : (if m.moves group f then get (f.view ++ '.' :: f.name ++ '_' :: group) else .ok f) with
      | error e => rw [hg] at h; cases h
      | ok g =>
        rw [hg] at h
        simp only at h
        cases hl : cumWhereLoop get group m rs with
        | error e => rw [hl] at h; cases h
        | ok gs =>
          rw [hl] at h
          cases h
          rcases List.mem_cons.mp hmem with rfl | hmem
          · refine ⟨f, g, hr, by simp, ?_⟩
            have hs : "subquery".toList ++ ['_'] = "subquery_".toList := by decide +kernel
            have hdot : ".".toList = ['.'] := by decide +kernel
            rw [← moves_column]
            have : (if m.moves group f then { f with group := group } else f) = g := by
              by_cases hm : m.moves group f = true
              · rw [if_pos hm] at hg ⊢
                cases hk : f.kind with
                | dimension => simp [CumTexts.moves, hk] at hm
                | time => rw [← hk]; exact (hget _ f group g hr hk hg).symm
                | duration =>
                  rcases hdur _ f hr hk with h1 | ⟨e, h1⟩
                  · simp [CumTexts.moves, h1] at hm
                  · rw [h1] at hg; cases hg
              · rw [if_neg hm] at hg ⊢
                cases hg; rfl
            rw [this]
            unfold CumTexts.prefix
            rw [if_neg Bool.false_ne_true, ← hs, hdot]
            simp only [List.append_assoc, List.cons_append, List.nil_append]
          · obtain ⟨f', g', h1, h2, h3⟩ := ih gs hl hmem
            exact ⟨f', g', h1, by simp [h2], h3⟩

/-- C39. A name in the condition that no field has makes the query fail. -/
theorem C39_condition_unknown (get : List Char → Res WhereField) (group : List Char) (m : CumTexts) (dateLabel : List Char) (ps : List Piece)
    (hm : m.cumWhere = some (render ps)) (hps : OrdinaryText ps) (n : List Char) (e : Err) (hn : n ∈ refNames ps) (hd : n ≠ "cumulative_date".toList)
    (he : get n = .error e) : ∃ e', cumOn get group m dateLabel = .error e' := by
  obtain ⟨e', h⟩ := where_error get group m "date_spine.date".toList ps hps n e hn hd he
  refine ⟨e', ?_⟩
  unfold cumOn
  rw [hm]
  cases hr : render ps with
  | nil =>
    exfalso
    induction ps with
    | nil => cases hn
    | cons p ps ih =>
      cases p with
      | lit l =>
        simp only [render, List.append_eq_nil_iff] at hr
        rw [hr.1] at hm hps
        have hps' : OrdinaryText ps := by
          rw [ordinary_iff] at hps ⊢
          exact fun q hq => hps q (by simp [hq])
        have hn' : n ∈ refNames ps := hn
        obtain ⟨e'', h''⟩ := where_error get group m "date_spine.date".toList ps hps' n e hn' hd he
        rw [hr.2] at h''
        simp [replaceCumWhere, cumWhereRefs, replaceAll, replaceGo, fieldsToReplace, refsGo, replaceEach] at h''
      | ref k => simp [render, refText] at hr
  | cons c cs => rw [hr] at h; dsimp only; rw [h]

/-- C39. A duration in the condition makes the query fail unless the metric says its timeframes are not to be changed: it has no group of the name of the
date's. -/
theorem C39_condition_duration (get : List Char → Res WhereField) (group : List Char) (m : CumTexts) (ps : List Piece) (hps : OrdinaryText ps)
    (hup : m.updateTimeframe ≠ some false) (n : List Char) (f : WhereField) (hn : n ∈ refNames ps) (hd : n ≠ "cumulative_date".toList) (hf : get n = .ok f)
    (hk : f.kind = .duration) (hg : f.group ≠ group) (e : Err) (hno : get (f.view ++ '.' :: f.name ++ '_' :: group) = .error e) :
    ∃ e', cumWhereFields get group m (render ps) = .error e' := by
  unfold cumWhereFields
  rw [refs_where ps hps]
  have hmem : n ∈ (refNames ps).filter (· ≠ cumulativeDate) := by simpa using ⟨hn, hd⟩
  revert hmem
  generalize (refNames ps).filter (· ≠ cumulativeDate) = rs
  intro hmem
  have hmv : m.moves group f = true := by
    unfold CumTexts.moves CumTexts.updates
    rcases hu : m.updateTimeframe with _ | b
    · simp [hk, hg]
    · cases b
      · exact absurd hu hup
      · simp [hk, hg]
  induction rs with
  | nil => cases hmem
  | cons r rs ih =>
    simp only [cumWhereLoop]
    rcases List.mem_cons.mp hmem with rfl | hmem
    · rw [hf]
      simp only [hmv, if_true, hno]
      exact ⟨e, rfl⟩
    · cases get r with
      | error e1 => exact ⟨e1, rfl⟩
      | ok f1 =>
        simp only
        cases (if m.moves group f1 then get (f1.view ++ '.' :: f1.name ++ '_' :: group) else .ok f1) with
        | error e1 => exact ⟨e1, rfl⟩
        | ok g =>
          obtain ⟨e1, h1⟩ := ih hmem
          simp only [h1]
          exact ⟨e1, rfl⟩

/-- C39. Without a condition of its own, the rows of a metric count by their date alone. -/
theorem C39_no_condition (get : List Char → Res WhereField) (group : List Char) (m : CumTexts) (dateLabel : List Char)
    (hm : m.cumWhere = none ∨ m.cumWhere = some []) (hdate : PlainColumn ("subquery_".toList ++ m.label ++ ".".toList ++ dateLabel)) :
    ∃ s, cumOn get group m dateLabel = .ok s ∧ readText s =
      some (.bin "<=".toList (.atom ("subquery_".toList ++ m.label ++ ".".toList ++ dateLabel)) (.atom "date_spine.date".toList)) := by
  have hspine : aloneText "date_spine.date".toList = some (.atom "date_spine.date".toList) := by decide +kernel
  have hE : readPieces [.ref "a".toList, .lit "<=".toList, .ref "b".toList] = some (.bin "<=".toList (.ref "a".toList) (.ref "b".toList)) := by decide +kernel
  have hab : "b".toList ≠ "a".toList := by decide +kernel
  have hr := read_fill _ _ hE (fun n => if n = "a".toList then "subquery_".toList ++ m.label ++ ".".toList ++ dateLabel else "date_spine.date".toList)
    (fun n => if n = "a".toList then .atom ("subquery_".toList ++ m.label ++ ".".toList ++ dateLabel) else .atom "date_spine.date".toList) (fun n hn => by
      split_ifs with h
      · exact hdate.1
      · exact hspine)
  have hs : "subquery".toList ++ ['_'] = "subquery_".toList := by decide +kernel
  have hdot : ".".toList = ['.'] := by decide +kernel
  refine ⟨m.prefix false ++ '.' :: dateLabel ++ "<=".toList ++ "date_spine.date".toList, ?_, ?_⟩
  · unfold cumOn
    rcases hm with h | h <;> rw [h]
  · simp only [SExp.subst, if_true, hab, if_false, fill] at hr
    rw [← hr]
    unfold CumTexts.prefix
    rw [if_neg Bool.false_ne_true, ← hs, hdot]
    simp only [List.append_assoc, List.cons_append, List.nil_append, List.append_nil]

/-! ### The columns of the final query -/

/-- C39. A number made of cumulative metrics (to any depth) computes, on every line of the final query, its author's formula from the values of these metrics
on that line. -/
theorem C39_number_partial (get : List Char → List Char → Res MetricField) (pieces : MetricField → List Piece)
    (hget : ∀ v m g, get v m = .ok g → OrdinaryNumber pieces g) (n : ℕ) (base : List Char) (f : MetricField) (hf : OrdinaryNumber pieces f)
    (hn : f.isNumber = true) (e : SExp) (he : metricMeaning get pieces n f = some e) :
    ∃ s, cumColumn get n base (.number f) = .ok s ∧ readText s = some e := by
  obtain ⟨s, h1, _, _, _, h5⟩ := C76_nested get pieces hget n f hf e he
  exact ⟨s, h1, h5 hn⟩

/-- C39. The other columns: a dimension or another metric is the column of that name of the table everything is joined to, a cumulative metric is the column of
its measure in its own sub-query. -/
theorem C39_column (get : List Char → List Char → Res MetricField) (n : ℕ) (base label : List Char) (m : CumTexts) (measureLabel : List Char) :
    cumColumn get n base (.plain label) = .ok (base ++ ".".toList ++ label) ∧
    cumColumn get n base (.cumulative m measureLabel) = .ok ("aggregated_".toList ++ m.label ++ ".".toList ++ measureLabel) := by
  have hs : "aggregated".toList ++ ['_'] = "aggregated_".toList := by decide +kernel
  have hdot : ".".toList = ['.'] := by decide +kernel
  constructor
  · simp only [cumColumn, hdot, List.append_assoc, List.cons_append, List.nil_append]
  · simp only [cumColumn]
    unfold CumTexts.prefix
    rw [if_pos rfl, ← hs, hdot]
    simp only [List.append_assoc, List.cons_append, List.nil_append]

/-- C39. Today is known exactly on the four warehouses with days. -/
theorem C39_today (warehouse : String) :
    (∃ t, currentDate warehouse = .ok t) ↔ warehouse ∈ ["SNOWFLAKE", "REDSHIFT", "BIGQUERY", "POSTGRES"] := by
  unfold currentDate
  simp only [List.mem_cons, List.not_mem_nil, or_false]
  split_ifs with h1 h2
  · exact iff_of_true ⟨_, rfl⟩ (by rcases h1 with h | h | h <;> simp [h])
  · exact iff_of_true ⟨_, rfl⟩ (by simp [h2])
  · rw [not_or, not_or] at h1
    exact iff_of_false (by rintro ⟨t, h⟩; cases h) (by simp [h1, h2])

/-! ### Concrete cases -/

namespace CumShop

/-- The fields named in conditions (an example; it models no file in /repo). -/
def get (n : List Char) : Res WhereField :=
  if n = "customers.cancelled_date".toList then .ok ⟨"customers".toList, "cancelled".toList, .time, "date".toList⟩
  else if n = "customers.cancelled_month".toList then .ok ⟨"customers".toList, "cancelled".toList, .time, "month".toList⟩
  else if n = "customers.region".toList then .ok ⟨"customers".toList, "region".toList, .dimension, []⟩
  else if n = "customers.days_waiting".toList then .ok ⟨"customers".toList, "waiting".toList, .duration, "days".toList⟩
  else .error .accessDenied

/-- Customers that have cancelled by the day (an example; it models no file in /repo). -/
def cancelledText : List Piece := [.ref "customers.cancelled_date".toList, .lit " < ".toList, .ref "cumulative_date".toList]

/-- The metric with that condition (an example; it models no file in /repo). -/
def cancelled : CumTexts := ⟨"orders_cancelled".toList, some (render cancelledText), none⟩

theorem ordinary_cancelled : OrdinaryText cancelledText := by
  intro p hp
  simp only [cancelledText, List.mem_cons, List.not_mem_nil, or_false] at hp
  rcases hp with rfl | rfl | rfl <;> decide +kernel

/-- The text of the condition, for a query by month. -/
example : cumOn get "month".toList cancelled "customers_first_month".toList =
    .ok "subquery_orders_cancelled.customers_first_month<=date_spine.date AND subquery_orders_cancelled.customers_cancelled_month < date_spine.date".toList := by
  decide +kernel

/-- `C39_condition_partial` applies to it. -/
example : ∃ s X, cumOn get "month".toList cancelled "customers_first_month".toList = .ok s ∧ readText s = some X ∧
    ∀ (D : Type) (I : Interp D) (T : Truth D I) (env : List Char → D), T.holds (X.value I env) ↔
      T.holds (I.bin "<=".toList (I.atom "subquery_orders_cancelled.customers_first_month".toList) (I.atom "date_spine.date".toList)) ∧
      T.holds (I.bin "<".toList (I.atom "subquery_orders_cancelled.customers_cancelled_month".toList) (I.atom "date_spine.date".toList)) := by
  obtain ⟨s, X, h1, h2, h3⟩ := C39_condition_partial get "month".toList cancelled "customers_first_month".toList cancelledText rfl ordinary_cancelled
    (.bin "<".toList (.ref "customers.cancelled_date".toList) (.ref "cumulative_date".toList)) (by decide +kernel) (by decide +kernel) (by decide +kernel)
    (fun _ => ⟨"customers".toList, "cancelled".toList, .time, "date".toList⟩)
    (by
      intro n hn hd
      have : n = "customers.cancelled_date".toList := by
        simp only [cancelledText, refNames, List.mem_cons, List.not_mem_nil, or_false] at hn
        exact hn.resolve_right hd
      subst this
      exact ⟨by decide +kernel, by decide +kernel, by decide +kernel⟩) ⟨by decide +kernel, by decide +kernel⟩
  refine ⟨s, X, h1, h2, fun D I T env => ?_⟩
  rw [h3 D I T env]
  have hne : "customers.cancelled_date".toList ≠ "cumulative_date".toList := by decide +kernel
  have hw : whereColumn cancelled "month".toList ⟨"customers".toList, "cancelled".toList, .time, "date".toList⟩ =
      "subquery_orders_cancelled.customers_cancelled_month".toList := by decide +kernel
  simp only [SExp.value, hne, if_false, if_true, hw]
  exact Iff.rfl

theorem finds : FindsGroups get := by
  intro n f g h hn hk hg
  have key : ∀ x : List Char, "customers".toList ++ '.' :: "cancelled".toList ++ '_' :: g = "customers.cancelled_".toList ++ x → g = x := by
    intro x hx
    have : "customers".toList ++ '.' :: "cancelled".toList ++ '_' :: g = "customers.cancelled_".toList ++ g := rfl
    rw [this] at hx
    exact List.append_cancel_left hx
  have hf : f.view = "customers".toList ∧ f.name = "cancelled".toList := by
    unfold get at hn
    split_ifs at hn <;> cases hn <;> first | exact ⟨rfl, rfl⟩ | cases hk
  obtain ⟨h1, h2⟩ := hf
  obtain ⟨fv, fn, fk, fg⟩ := f
  simp only at h1 h2 hk
  subst h1 h2 hk
  simp only at hg
  unfold get at hg
  split_ifs at hg with a b c d
  · cases hg; rw [key "date".toList a]
  · cases hg; rw [key "month".toList b]
  · exact absurd (congrArg (List.take 18) c) (by intro hc; revert hc; simp)
  · exact absurd (congrArg (List.take 15) d) (by intro hc; revert hc; simp)

/-- `C39_condition_columns` applies to the shop: the month of the cancellation is a column of the metric's rows. -/
example : ∃ f g, get "customers.cancelled_date".toList = .ok f ∧ g ∈ [(⟨"customers".toList, "cancelled".toList, .time, "month".toList⟩ : WhereField)] ∧
    whereColumn cancelled "month".toList f = "subquery_".toList ++ cancelled.label ++ ".".toList ++ g.label := by
  refine C39_condition_columns get finds "month".toList cancelled cancelledText ordinary_cancelled ?_ _ (by decide +kernel) _ (by decide +kernel) (by decide +kernel)
  intro n f hn hk
  refine .inr ⟨.accessDenied, ?_⟩
  unfold get at hn
  split_ifs at hn <;> cases hn <;> first | decide +kernel | cases hk

/-- A condition with OR (an example; it models no file in /repo). -/
def orText : List Piece :=
  [.ref "customers.cancelled_date".toList, .lit " > ".toList, .ref "cumulative_date".toList, .lit " or ".toList, .ref "customers.region".toList, .lit " = 'West'".toList]

/-- C39, where it fails. OR in the condition of a metric takes the comparison with the day apart: a row for which the second part holds counts for every day,
also for the days before its own date. -/
theorem C39_condition_or : ∃ s, cumOn get "date".toList ⟨"orders_active".toList, some (render orText), none⟩ "customers_first_date".toList = .ok s ∧
    readText s = some (.bin "or".toList
      (.bin "and".toList
        (.bin "<=".toList (.atom "subquery_orders_active.customers_first_date".toList) (.atom "date_spine.date".toList))
        (.bin ">".toList (.atom "subquery_orders_active.customers_cancelled_date".toList) (.atom "date_spine.date".toList)))
      (.bin "=".toList (.atom "subquery_orders_active.customers_region".toList) (.str "West".toList))) ∧
    "or".toList ∈ looseOps orText := by
  refine ⟨_, rfl, ?_, ?_⟩ <;> decide +kernel

/-- Durations are refused. -/
example : cumWhereFields get "date".toList ⟨"orders_active".toList, none, none⟩ "${customers.days_waiting} > 3".toList = .error .accessDenied ∧
    cumWhereFields get "date".toList ⟨"orders_active".toList, none, some false⟩ "${customers.days_waiting} > 3".toList =
      .ok [⟨"customers".toList, "waiting".toList, .duration, "days".toList⟩] := by
  constructor <;> decide +kernel

/-- Metrics seen from the final query (an example; it models no file in /repo). -/
def metrics (_ name : List Char) : Res MetricField :=
  if name = "running_revenue".toList then .ok ⟨"orders".toList, false, [], .ok "aggregated_orders_running_revenue.orders_revenue".toList⟩
  else if name = "running_orders".toList then .ok ⟨"orders".toList, false, [], .ok "aggregated_orders_running_orders.orders_orders".toList⟩
  else if name = "revenue".toList then .ok ⟨"orders".toList, false, [], .ok "SUM(orders_revenue)".toList⟩
  else .error .accessDenied

/-- The average over all orders so far. -/
example : cumColumn metrics 2 "aggregated_orders_running_revenue".toList
    (.number ⟨"orders".toList, true, "${running_revenue} / ${running_orders}".toList, .error .query⟩) =
    .ok "(aggregated_orders_running_revenue.orders_revenue) / (aggregated_orders_running_orders.orders_orders)".toList := by decide +kernel

/-- C39, where it fails. A number of a cumulative metric and one that is not: the latter is aggregated once more, in the final query, which has no GROUP BY; SQL
does not allow that beside the columns that are not aggregated. -/
theorem C39_mixed_number : ∃ s, cumColumn metrics 2 "base".toList
      (.number ⟨"orders".toList, true, "${revenue} / ${running_revenue}".toList, .error .query⟩) = .ok s ∧
    readText s = some (.bin ['/'] (.call "SUM".toList (.cons (.atom "orders_revenue".toList) .nil))
      (.atom "aggregated_orders_running_revenue.orders_revenue".toList)) := by
  refine ⟨_, rfl, ?_⟩
  decide +kernel

end CumShop
end ML
