import Verif.CumCompare.Spec
import Verif.Cumulative.Props
/-
C87: running totals of different periods, and over different states of the data.
-/
set_option autoImplicit false
namespace ML
open Spec
section
variable {F R V A : Type} [LinearOrder V]

omit [LinearOrder V] in
/-- Rows that show the same at one period show the same at every period. -/
theorem shownCols_period {ms : List CumMetric} {dims : List CumCol} {val : R → CumCol → Option V} {p p' : V} {r r' : R}
    (h : shownCols ms dims val p r = shownCols ms dims val p r') : shownCols ms dims val p' r = shownCols ms dims val p' r' := by
  unfold shownCols at h ⊢
  have h := List.map_inj_left.1 h
  apply List.map_congr_left
  intro d hd
  have := h d hd
  by_cases hm : OnCumDate ms d
  · simp [hm]
  · simpa [hm] using this

/-- A line that shows the period `p` and the partition of `r`. -/
theorem running_at {D : CumData F R V} {agg : List R → A} {ms : List CumMetric} {dims : List CumCol} {ws : List (CumWhere F)} {m : CumMetric}
    (hdate : ∃ d ∈ dims, OnCumDate ms d) {p : V} {r : R} {v : A} :
    RunningRow D agg ms dims ws m (shownCols ms dims D.val p r) v ↔
      Period D.days D.asGroup (granularity ms dims) p ∧ p ≤ D.today ∧ PeriodKept D.asGroup D.dateHolds ms ws p ∧
      (∃ s ∈ D.rows, Counted D ms dims ws m p s ∧ shownCols ms dims D.val p r = shownCols ms dims D.val p s) ∧ v = runningTotal D agg ms dims ws m p r := by
  constructor
  · rintro ⟨p', s, h1, h2, h3, h4, h5, h6, h7⟩
    obtain ⟨rfl, hpart⟩ := shownCols_inj hdate h6
    refine ⟨h1, h2, h3, ⟨s, h4, h5, h6⟩, ?_⟩
    rw [h7]; unfold runningTotal; rw [hpart]
  · rintro ⟨h1, h2, h3, ⟨s, h4, h5, h6⟩, h7⟩
    refine ⟨p, s, h1, h2, h3, h4, h5, h6, ?_⟩
    rw [h7]; unfold runningTotal; rw [(shownCols_inj hdate h6).2]

/-- C87 (a): the line of a period only depends on the rows that are dated by then and satisfy the query's conditions: when these are the
same in two states of the data, the line is in both answers or in none, with the same value. The order in which rows are stored does not
matter for an aggregate that does not look at it. -/
theorem C87_later {known : CumCol → Bool} {ms : List CumMetric} {dims dims' : List CumCol} {ws : List (CumWhere F)} {m : CumMetric}
    {q : CumRows F} {a : CumAgg F} (D : CumData F R V) (rows : List R) (agg : List R → A) (hagg : ∀ l l' : List R, l.Perm l' → agg l = agg l')
    (hdays : D.days.Nodup) (hdot : DotFree ms dims ws) (hv : granularity ms dims ∈ ["date", "week", "month", "quarter", "year"])
    (hdate : ∃ d ∈ dims, OnCumDate ms d) (hq : cumRows known ms dims ws m = .ok q) (ha : cumAgg known ms dims ws m = .ok (dims', a)) (p : V)
    (hrows : (rowsBy D ms dims ws m p).Perm (rowsBy { D with rows := rows } ms dims ws m p)) (r : R) (v : A) :
    (shownCols ms dims D.val p r, v) ∈ D.result agg q a ↔ (shownCols ms dims D.val p r, v) ∈ ({ D with rows := rows } : CumData F R V).result agg q a := by
  classical
  rw [result_iff D agg hdays hdot hv hdate hq ha, result_iff { D with rows := rows } agg hdays hdot hv hdate hq ha, running_at hdate]
  refine Iff.trans ?_ (running_at (D := { D with rows := rows }) hdate).symm
  have hmem : ∀ s, Counted D ms dims ws m p s → (s ∈ D.rows ↔ s ∈ rows) := by
    intro s hs
    have := hrows.mem_iff (a := s)
    simpa [rowsBy, hs.1, hs.2.2] using this
  have htot : runningTotal D agg ms dims ws m p r = runningTotal { D with rows := rows } agg ms dims ws m p r := by
    unfold runningTotal
    apply hagg
    have := hrows.filter fun s => decide (D.extra s p = true ∧ partitionOf ms dims D.val s = partitionOf ms dims D.val r)
    unfold rowsBy at this
    rw [List.filter_filter, List.filter_filter] at this
    convert this using 2
    · funext s; rw [← Bool.decide_and]; apply decide_eq_decide.2; unfold Counted; tauto
    · funext s; rw [← Bool.decide_and]; apply decide_eq_decide.2; unfold Counted; tauto
  rw [htot]
  have hex : (∃ s ∈ D.rows, Counted D ms dims ws m p s ∧ shownCols ms dims D.val p r = shownCols ms dims D.val p s) ↔
      (∃ s ∈ rows, Counted D ms dims ws m p s ∧ shownCols ms dims D.val p r = shownCols ms dims D.val p s) :=
    ⟨fun ⟨s, h1, h2, h3⟩ => ⟨s, (hmem s h2).1 h1, h2, h3⟩, fun ⟨s, h1, h2, h3⟩ => ⟨s, (hmem s h2).2 h1, h2, h3⟩⟩
  rw [hex]
  exact Iff.rfl

/-- C87 (b): a partition that is shown at a period is shown at every later period that is asked for and not after today, unless the
metric's own `cumulative_where` takes its rows back. -/
theorem C87_stays {known : CumCol → Bool} {ms : List CumMetric} {dims dims' : List CumCol} {ws : List (CumWhere F)} {m : CumMetric}
    {q : CumRows F} {a : CumAgg F} (D : CumData F R V) (agg : List R → A)
    (hdays : D.days.Nodup) (hdot : DotFree ms dims ws) (hv : granularity ms dims ∈ ["date", "week", "month", "quarter", "year"])
    (hdate : ∃ d ∈ dims, OnCumDate ms d) (hq : cumRows known ms dims ws m = .ok q) (ha : cumAgg known ms dims ws m = .ok (dims', a)) (p p' : V)
    (hp : p ≤ p') (hx : ∀ s, D.extra s p = true → D.extra s p' = true) (hper : Period D.days D.asGroup (granularity ms dims) p') (htoday : p' ≤ D.today)
    (hkept : PeriodKept D.asGroup D.dateHolds ms ws p') (r : R) (v : A) (h : (shownCols ms dims D.val p r, v) ∈ D.result agg q a) :
    ∃ v', (shownCols ms dims D.val p' r, v') ∈ D.result agg q a := by
  rw [result_iff D agg hdays hdot hv hdate hq ha, running_at hdate] at h
  obtain ⟨-, -, -, ⟨s, h4, ⟨h5, h6, t, h7, h8⟩, h9⟩, -⟩ := h
  refine ⟨_, (result_iff D agg hdays hdot hv hdate hq ha _ _).2 ((running_at hdate).2
    ⟨hper, htoday, hkept, ⟨s, h4, ⟨h5, hx s h6, t, h7, le_trans h8 hp⟩, shownCols_period h9⟩, rfl⟩)⟩

/-- C87 (c): running totals of an aggregate that does not shrink when rows are added never decrease from period to period. -/
theorem C87_grows {known : CumCol → Bool} {ms : List CumMetric} {dims dims' : List CumCol} {ws : List (CumWhere F)} {m : CumMetric}
    {q : CumRows F} {a : CumAgg F} [LE A] (D : CumData F R V) (agg : List R → A) (hagg : ∀ l l' : List R, l.Sublist l' → agg l ≤ agg l')
    (hdays : D.days.Nodup) (hdot : DotFree ms dims ws) (hv : granularity ms dims ∈ ["date", "week", "month", "quarter", "year"])
    (hdate : ∃ d ∈ dims, OnCumDate ms d) (hq : cumRows known ms dims ws m = .ok q) (ha : cumAgg known ms dims ws m = .ok (dims', a)) (p p' : V)
    (hp : p ≤ p') (hx : ∀ s, D.extra s p = true → D.extra s p' = true) (r : R) (v v' : A) (h : (shownCols ms dims D.val p r, v) ∈ D.result agg q a)
    (h' : (shownCols ms dims D.val p' r, v') ∈ D.result agg q a) : v ≤ v' := by
  rw [result_iff D agg hdays hdot hv hdate hq ha, running_at hdate] at h h'
  obtain ⟨-, -, -, -, rfl⟩ := h
  obtain ⟨-, -, -, -, rfl⟩ := h'
  apply hagg
  apply List.monotone_filter_right
  intro s hs
  simp only [decide_eq_true_eq] at hs ⊢
  obtain ⟨⟨h1, h2, t, h3, h4⟩, h5⟩ := hs
  exact ⟨⟨h1, hx s h2, t, h3, le_trans h4 hp⟩, h5⟩

/-- C87 (d): between two periods a running total grows by exactly what the rows dated in between amount to. -/
theorem C87_difference {known : CumCol → Bool} {ms : List CumMetric} {dims dims' : List CumCol} {ws : List (CumWhere F)} {m : CumMetric}
    {q : CumRows F} {a : CumAgg F} (D : CumData F R V) (agg : List R → A) (add : A → A → A) (hagg : ∀ l l' : List R, l.Perm l' → agg l = agg l')
    (hadd : ∀ l l' : List R, agg (l ++ l') = add (agg l) (agg l'))
    (hdays : D.days.Nodup) (hdot : DotFree ms dims ws) (hv : granularity ms dims ∈ ["date", "week", "month", "quarter", "year"])
    (hdate : ∃ d ∈ dims, OnCumDate ms d) (hq : cumRows known ms dims ws m = .ok q) (ha : cumAgg known ms dims ws m = .ok (dims', a)) (p p' : V)
    (hp : p ≤ p') (hx : ∀ s t, D.extra s t = true) (r : R) (v v' : A) (h : (shownCols ms dims D.val p r, v) ∈ D.result agg q a)
    (h' : (shownCols ms dims D.val p' r, v') ∈ D.result agg q a) : v' = add v (agg (rowsBetween D ms dims ws m p p' r)) := by
  classical
  rw [result_iff D agg hdays hdot hv hdate hq ha, running_at hdate] at h h'
  obtain ⟨-, -, -, -, rfl⟩ := h
  obtain ⟨-, -, -, -, rfl⟩ := h'
  unfold runningTotal rowsBetween
  rw [← hadd]
  apply hagg
  have := (List.filter_append_perm (fun s => decide (DatedBy (fun s => D.val s (dateCol ms dims m)) p s))
    (D.rows.filter fun s => decide (Counted D ms dims ws m p' s ∧ partitionOf ms dims D.val s = partitionOf ms dims D.val r))).symm
  rw [List.filter_filter, List.filter_filter] at this
  refine this.trans (List.Perm.of_eq ?_)
  congr 1
  · congr 1; funext s; rw [← Bool.decide_and]; apply decide_eq_decide.2
    unfold Counted
    constructor
    · rintro ⟨h1, ⟨h2, h3, h4⟩, h5⟩; exact ⟨⟨h2, hx _ _, h1⟩, h5⟩
    · rintro ⟨⟨h2, h3, t, h4, h6⟩, h5⟩; exact ⟨⟨t, h4, h6⟩, ⟨h2, hx _ _, t, h4, le_trans h6 hp⟩, h5⟩
  · congr 1; funext s; rw [← decide_not, ← Bool.decide_and]; apply decide_eq_decide.2
    unfold Counted
    constructor
    · rintro ⟨h1, ⟨h2, h3, h4⟩, h5⟩; exact ⟨h2, h4, h1, h5⟩
    · rintro ⟨h2, h4, h1, h5⟩; exact ⟨h1, ⟨h2, hx _ _, h4⟩, h5⟩
end

/-! ### Concrete cases: the orders of area Cumulative. -/

/-- The sum of the amounts adds up, does not look at the order of the rows and does not shrink. -/
theorem cumSum_good : (∀ l l' : List (ℕ × Option ℕ × ℕ), l.Perm l' → cumSum l = cumSum l') ∧ (∀ l l', cumSum (l ++ l') = cumSum l + cumSum l') ∧
    ∀ l l', l.Sublist l' → cumSum l ≤ cumSum l' := by
  refine ⟨fun l l' h => ?_, fun _ _ => by simp [cumSum], fun l l' h => ?_⟩
  · induction h with
    | nil => rfl
    | cons x _ ih => simp only [cumSum, List.map_cons, List.sum_cons] at ih ⊢; omega
    | swap x y l => simp only [cumSum, List.map_cons, List.sum_cons]; omega
    | trans _ _ h1 h2 => exact h1.trans h2
  · induction h with
    | slnil => exact le_rfl
    | cons x _ ih => simp only [cumSum, List.map_cons, List.sum_cons] at ih ⊢; omega
    | cons_cons x _ ih => simp only [cumSum, List.map_cons, List.sum_cons] at ih ⊢; omega

/-- Days 4 and 5 of region 1 are lines of the answer, 10 and 30, and the order of 20 is dated in between; an order of day 9 is in neither. -/
example : (match cumRows (fun _ => true) [cumRevenue] [cumOrderDate, cumRegion] [.cond cumOrderDate 4] cumRevenue,
        cumAgg (fun _ => true) [cumRevenue] [cumOrderDate, cumRegion] [.cond cumOrderDate 4] cumRevenue with
      | .ok q, .ok (_, a) => decide ((shownCols [cumRevenue] [cumOrderDate, cumRegion] cumExampleData.val 4 (10, some 3, 1), 10) ∈ cumExampleData.result cumSum q a ∧
          (shownCols [cumRevenue] [cumOrderDate, cumRegion] cumExampleData.val 5 (10, some 3, 1), 30) ∈ cumExampleData.result cumSum q a ∧
          (shownCols [cumRevenue] [cumOrderDate, cumRegion] cumExampleData.val 4 (10, some 3, 1), 10) ∈
            ({ cumExampleData with rows := (3, some 9, 1) :: cumOrders } : CumData ℕ (ℕ × Option ℕ × ℕ) ℕ).result cumSum q a)
      | _, _ => false) = true := by decide +kernel

end ML
