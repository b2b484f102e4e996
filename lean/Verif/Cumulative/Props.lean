import Verif.Cumulative.Lemmas
import Mathlib.Data.Nat.Basic
/-
C39: cumulative metrics are running totals.
-/
set_option autoImplicit false
namespace ML
open Spec

section
variable {F R V A : Type} [LinearOrder V]

/-- **C39**, the rows of one cumulative metric. When one of the query's dimensions is the metric's date, at the granularity of days,
weeks, months, quarters or years, the rows the metric's sub-query returns are exactly the running totals: a row for every period up to
today that satisfies the conditions on the date and every partition that has rows by then, and its value is the aggregate over all rows
of the partition dated on or before the period that satisfy the other conditions. For every table, every spine of distinct days, every
aggregate, every set of conditions and dimensions. -/
theorem C39_running {known : CumCol → Bool} {ms : List CumMetric} {dims dims' : List CumCol} {ws : List (CumWhere F)} {m : CumMetric}
    {q : CumRows F} {a : CumAgg F} (D : CumData F R V) (agg : List R → A) (hdays : D.days.Nodup) (hdot : DotFree ms dims ws)
    (hv : granularity ms dims ∈ ["date", "week", "month", "quarter", "year"]) (hdate : ∃ d ∈ dims, OnCumDate ms d)
    (hq : cumRows known ms dims ws m = .ok q) (ha : cumAgg known ms dims ws m = .ok (dims', a)) (cols : List (Option V)) (v : A) :
    (cols, v) ∈ D.result agg q a ↔ RunningRow D agg ms dims ws m cols v :=
  result_iff D agg hdays hdot hv hdate hq ha cols v

/-- **C39**, one row for every period and partition. -/
theorem C39_once {known : CumCol → Bool} {ms : List CumMetric} {dims dims' : List CumCol} {ws : List (CumWhere F)} {m : CumMetric}
    {q : CumRows F} {a : CumAgg F} (D : CumData F R V) (agg : List R → A) (hdot : DotFree ms dims ws)
    (hv : granularity ms dims ∈ ["date", "week", "month", "quarter", "year"]) (hdate : ∃ d ∈ dims, OnCumDate ms d)
    (ha : cumAgg known ms dims ws m = .ok (dims', a)) : ((D.result agg q a).map Prod.fst).Nodup :=
  result_once D agg q hdot hv hdate ha

/-- **C39**, the value does not depend on which periods are displayed: two queries over the same rows that differ in the days of the
spine, in today, and in the conditions on the metric's date show the same value wherever they show the same period and partition. -/
theorem C39_independent {known : CumCol → Bool} {ms : List CumMetric} {dims dims₁ dims₂ : List CumCol} {ws₁ ws₂ : List (CumWhere F)}
    {m : CumMetric} {q₁ q₂ : CumRows F} {a₁ a₂ : CumAgg F} (D : CumData F R V) (days : List V) (today : V) (agg : List R → A)
    (hdays₁ : D.days.Nodup) (hdays₂ : days.Nodup) (hdot₁ : DotFree ms dims ws₁) (hdot₂ : DotFree ms dims ws₂)
    (hv : granularity ms dims ∈ ["date", "week", "month", "quarter", "year"]) (hdate : ∃ d ∈ dims, OnCumDate ms d)
    (hws : ∀ c f, ¬ OnCumDate ms c → (CumWhere.cond c f ∈ ws₁ ↔ CumWhere.cond c f ∈ ws₂))
    (hq₁ : cumRows known ms dims ws₁ m = .ok q₁) (ha₁ : cumAgg known ms dims ws₁ m = .ok (dims₁, a₁))
    (hq₂ : cumRows known ms dims ws₂ m = .ok q₂) (ha₂ : cumAgg known ms dims ws₂ m = .ok (dims₂, a₂))
    (cols : List (Option V)) (v₁ v₂ : A) (h₁ : (cols, v₁) ∈ D.result agg q₁ a₁)
    (h₂ : (cols, v₂) ∈ ({ D with days := days, today := today } : CumData F R V).result agg q₂ a₂) : v₁ = v₂ := by
  rw [result_iff _ _ hdays₁ hdot₁ hv hdate hq₁ ha₁] at h₁
  rw [result_iff _ _ hdays₂ hdot₂ hv hdate hq₂ ha₂] at h₂
  obtain ⟨p₁, r₁, -, -, -, -, -, hc₁, rfl⟩ := h₁
  obtain ⟨p₂, r₂, -, -, -, -, -, hc₂, rfl⟩ := h₂
  obtain ⟨rfl, hp⟩ := shownCols_inj hdate (hc₁.symm.trans hc₂)
  have hk : ∀ s, RowKept D.keeps ms ws₁ s ↔ RowKept D.keeps ms ws₂ s := fun s =>
    ⟨fun h c f hc hm => h c f ((hws c f hm).2 hc) hm, fun h c f hc hm => h c f ((hws c f hm).1 hc) hm⟩
  unfold runningTotal
  congr 1
  apply List.filter_congr
  intro s _
  rw [decide_eq_decide]
  simp only [Counted, hk, hp]

/-- **C39**, conditions on the metric's date only hide periods: compared with the same query without them, the query shows exactly
the rows whose period satisfies them, with the same values. -/
theorem C39_filters_hide {known : CumCol → Bool} {ms : List CumMetric} {dims dims₁ dims₂ : List CumCol} {ws₁ ws₂ : List (CumWhere F)}
    {m : CumMetric} {q₁ q₂ : CumRows F} {a₁ a₂ : CumAgg F} (D : CumData F R V) (agg : List R → A)
    (hdays : D.days.Nodup) (hdot₁ : DotFree ms dims ws₁) (hdot₂ : DotFree ms dims ws₂)
    (hv : granularity ms dims ∈ ["date", "week", "month", "quarter", "year"]) (hdate : ∃ d ∈ dims, OnCumDate ms d)
    (hws : ∀ c f, ¬ OnCumDate ms c → (CumWhere.cond c f ∈ ws₁ ↔ CumWhere.cond c f ∈ ws₂))
    (hnone : ∀ c f, CumWhere.cond c f ∈ ws₂ → ¬ OnCumDate ms c)
    (hq₁ : cumRows known ms dims ws₁ m = .ok q₁) (ha₁ : cumAgg known ms dims ws₁ m = .ok (dims₁, a₁))
    (hq₂ : cumRows known ms dims ws₂ m = .ok q₂) (ha₂ : cumAgg known ms dims ws₂ m = .ok (dims₂, a₂))
    (cols : List (Option V)) (v : A) :
    (cols, v) ∈ D.result agg q₁ a₁ ↔ (cols, v) ∈ D.result agg q₂ a₂ ∧
      ∃ p r, cols = shownCols ms dims D.val p r ∧ PeriodKept D.asGroup D.dateHolds ms ws₁ p := by
  have hk : ∀ s, RowKept D.keeps ms ws₁ s ↔ RowKept D.keeps ms ws₂ s := fun s =>
    ⟨fun h c f hc hm => h c f ((hws c f hm).2 hc) hm, fun h c f hc hm => h c f ((hws c f hm).1 hc) hm⟩
  have hc : ∀ p s, Counted D ms dims ws₁ m p s ↔ Counted D ms dims ws₂ m p s := fun p s => by simp only [Counted, hk]
  have ht : ∀ p r, runningTotal D agg ms dims ws₁ m p r = runningTotal D agg ms dims ws₂ m p r := by
    intro p r
    unfold runningTotal
    congr 1
    apply List.filter_congr
    intro s _
    rw [decide_eq_decide, hc]
  rw [result_iff _ _ hdays hdot₁ hv hdate hq₁ ha₁, result_iff _ _ hdays hdot₂ hv hdate hq₂ ha₂]
  constructor
  · rintro ⟨p, r, h1, h2, h3, h4, h5, rfl, rfl⟩
    exact ⟨⟨p, r, h1, h2, fun c f hcf hm => absurd hm (hnone c f hcf), h4, (hc p r).1 h5, rfl, ht p r⟩, p, r, rfl, h3⟩
  · rintro ⟨⟨p, r, h1, h2, h3, h4, h5, rfl, rfl⟩, p', r', he, h6⟩
    obtain ⟨rfl, -⟩ := shownCols_inj hdate he
    exact ⟨p, r, h1, h2, h6, h4, (hc p r).2 h5, rfl, (ht p r).symm⟩

/-- **C39**, the whole query. Every row of the base (the metrics that are not cumulative, or the first cumulative metric) appears once,
in order, followed by one value for every cumulative metric: the running total of its period and partition when there is one and no
dimension of the row is NULL, and NULL otherwise. -/
theorem C39_joined {known : CumCol → Bool} {warehouse : String} {fields : List CumField} {dims : List CumCol} {ws : List (CumWhere F)}
    {plan : CumPlan F} {ms : List CumMetric} (hms : ms = (separateMetrics fields).1)
    (hplan : cumPlan known warehouse fields dims ws = .ok plan)
    (hdot : DotFree ms dims ws) (hv : granularity ms dims ∈ ["date", "week", "month", "quarter", "year"])
    (hdate : ∃ d ∈ dims, OnCumDate ms d) (Ds : List (CumData F R V × (List R → A))) (hlen : Ds.length = ms.length)
    (hdays : ∀ D ∈ Ds, D.1.days.Nodup) (base : List (List (Option V) × List (Option A))) :
    plan.dims = dims ∧
    List.Forall₂ (fun b out => out.1 = b.1 ∧ ∃ vs, out.2 = b.2 ++ vs ∧
        List.Forall₂ (fun mD x => ∀ v, x = some v ↔ noNull b.1 = true ∧ RunningRow mD.2.1 mD.2.2 ms dims ws mD.1 b.1 v) (ms.zip Ds) vs)
      base (finalRows base (List.zipWith (fun c D => D.1.result D.2 c.1 c.2) plan.ctes Ds)) := by
  subst hms
  obtain ⟨h1, -, -⟩ := cumPlan_ok hplan
  obtain ⟨h2, h3⟩ := cumCtes_ok (by rw [defaultGroup_eq hdot]; exact hv) h1
  refine ⟨h2, ?_⟩
  have hno : ∀ c ∈ List.zipWith (fun c (D : CumData F R V × (List R → A)) => D.1.result D.2 c.1 c.2) plan.ctes Ds, (c.map Prod.fst).Nodup := by
    clear hlen hplan h1 h2 hdays
    generalize plan.ctes = ctes at h3
    generalize hl : (separateMetrics fields).1 = l at h3
    rw [hl] at hdot hv hdate
    clear hl
    generalize hl' : l = l' at h3
    have : ∀ (l' : List CumMetric) (ctes) (Ds : List (CumData F R V × (List R → A))),
        List.Forall₂ (fun m (c : CumRows F × CumAgg F) => cumRows known l dims ws m = .ok c.1 ∧ cumAgg known l dims ws m = .ok (dims, c.2)) l' ctes →
        ∀ c ∈ List.zipWith (fun c (D : CumData F R V × (List R → A)) => D.1.result D.2 c.1 c.2) ctes Ds, (c.map Prod.fst).Nodup := by
      intro l' ctes Ds hf
      induction hf generalizing Ds with
      | nil => intro c hc; simp at hc
      | cons hx _ ih =>
        cases Ds with
        | nil => intro c hc; simp at hc
        | cons D Ds =>
          intro c hc
          rcases List.mem_cons.1 (by simpa using hc) with rfl | h
          · exact result_once D.1 D.2 _ hdot hv hdate hx.2
          · exact ih Ds c h
    subst hl'
    exact this l ctes Ds h3
  rw [finalRows_eq _ _ hno, List.forall₂_map_right_iff]
  rw [List.forall₂_same]
  intro b _
  refine ⟨rfl, _, rfl, ?_⟩
  rw [List.forall₂_map_right_iff]
  clear hno hplan h1 h2
  have : ∀ (l' : List CumMetric) (ctes) (Ds : List (CumData F R V × (List R → A))), Ds.length = l'.length → (∀ D ∈ Ds, D.1.days.Nodup) →
      List.Forall₂ (fun m (c : CumRows F × CumAgg F) => cumRows known (separateMetrics fields).1 dims ws m = .ok c.1 ∧
        cumAgg known (separateMetrics fields).1 dims ws m = .ok (dims, c.2)) l' ctes →
      List.Forall₂ (fun mD c => ∀ v, (if noNull b.1 = true then lookupCols c b.1 else none) = some v ↔ noNull b.1 = true ∧
        RunningRow mD.2.1 mD.2.2 (separateMetrics fields).1 dims ws mD.1 b.1 v) (l'.zip Ds)
        (List.zipWith (fun c (D : CumData F R V × (List R → A)) => D.1.result D.2 c.1 c.2) ctes Ds) := by
    intro l' ctes Ds hl hn hf
    induction hf generalizing Ds with
    | nil => simp
    | cons hx _ ih =>
      cases Ds with
      | nil => simp at hl
      | cons D Ds =>
        simp only [List.zip_cons_cons, List.zipWith_cons_cons]
        refine .cons ?_ (ih Ds (by simpa using hl) (fun D hD => hn D (List.mem_cons_of_mem _ hD)))
        intro v
        by_cases hb : noNull b.1 = true
        · simp only [hb, if_true, true_and]
          rw [lookupCols_some (result_once D.1 D.2 _ hdot hv hdate hx.2)]
          exact result_iff D.1 D.2 (hn D List.mem_cons_self) hdot hv hdate hx.1 hx.2 b.1 v
        · simp [hb]
  exact this _ _ Ds hlen hdays h3

/-- **C39**, which metrics are accumulated: the cumulative metrics of the query and of the numbers that reference them, each id once. -/
theorem C39_metrics (fields : List CumField) :
    ((separateMetrics fields).1.map CumMetric.id).Nodup ∧
    (∀ m ∈ (separateMetrics fields).1, .cumulative m ∈ fields ∨ ∃ i refs, CumField.number i refs ∈ fields ∧ .inr m ∈ refs) ∧
    (∀ m, CumField.cumulative m ∈ fields → ∃ n ∈ (separateMetrics fields).1, n.id = m.id) ∧
    (∀ i refs m, CumField.number i refs ∈ fields → Sum.inr m ∈ refs → ∃ n ∈ (separateMetrics fields).1, n.id = m.id) ∧
    (∀ j, j ∈ (separateMetrics fields).2 ↔ .plain j ∈ fields ∨ ∃ i refs, CumField.number i refs ∈ fields ∧ .inl j ∈ refs) := by
  have hr : ∀ m : CumMetric, m ∈ (fields.flatMap CumField.parts).filterMap Sum.getRight? ↔
      .cumulative m ∈ fields ∨ ∃ i refs, CumField.number i refs ∈ fields ∧ .inr m ∈ refs := by
    intro m
    simp only [List.mem_filterMap, List.mem_flatMap]
    constructor
    · rintro ⟨x, ⟨f, hf, hx⟩, hm⟩
      cases x with
      | inl s => simp at hm
      | inr n =>
        simp only [Sum.getRight?_inr, Option.some.injEq] at hm
        subst hm
        cases f with
        | cumulative n' => simp only [CumField.parts, List.mem_singleton, Sum.inr.injEq] at hx; subst hx; exact .inl hf
        | plain s => simp [CumField.parts] at hx
        | number i refs => exact .inr ⟨i, refs, hf, hx⟩
    · rintro (h | ⟨i, refs, h, hm⟩)
      · exact ⟨.inr m, ⟨_, h, by simp [CumField.parts]⟩, rfl⟩
      · exact ⟨.inr m, ⟨_, h, hm⟩, rfl⟩
  have hl : ∀ j : String, j ∈ (fields.flatMap CumField.parts).filterMap Sum.getLeft? ↔
      .plain j ∈ fields ∨ ∃ i refs, CumField.number i refs ∈ fields ∧ .inl j ∈ refs := by
    intro m
    simp only [List.mem_filterMap, List.mem_flatMap]
    constructor
    · rintro ⟨x, ⟨f, hf, hx⟩, hm⟩
      cases x with
      | inr s => simp at hm
      | inl n =>
        simp only [Sum.getLeft?_inl, Option.some.injEq] at hm
        subst hm
        cases f with
        | plain n' => simp only [CumField.parts, List.mem_singleton, Sum.inl.injEq] at hx; subst hx; exact .inl hf
        | cumulative s => simp [CumField.parts] at hx
        | number i refs => exact .inr ⟨i, refs, hf, hx⟩
    · rintro (h | ⟨i, refs, h, hm⟩)
      · exact ⟨.inl m, ⟨_, h, by simp [CumField.parts]⟩, rfl⟩
      · exact ⟨.inl m, ⟨_, h, hm⟩, rfl⟩
  refine ⟨dedupMetrics_nodup _, fun m hm => (hr m).1 (dedupMetrics_sub hm), fun m hm => dedupMetrics_complete ((hr m).2 (.inl hm)),
    fun i refs m h1 h2 => dedupMetrics_complete ((hr m).2 (.inr ⟨i, refs, h1, h2⟩)), fun j => ?_⟩
  rw [← hl j]
  exact dedupIds_mem

/-- **C39**, the columns the aggregating query reads are columns of the metric's rows, when all dimensions that are the metric's date
have one granularity: the date it compares with the spine, every other dimension, and the fields `cumulative_where` mentions. -/
theorem C39_columns {known : CumCol → Bool} {ms : List CumMetric} {dims dims' : List CumCol} {ws : List (CumWhere F)} {m : CumMetric}
    {q : CumRows F} {a : CumAgg F} (hdot : DotFree ms dims ws)
    (hv : granularity ms dims ∈ ["date", "week", "month", "quarter", "year"])
    (hone : ∀ d ∈ dims, d.view = m.view → d.name = m.defaultDate → d.group = granularity ms dims)
    (hq : cumRows known ms dims ws m = .ok q) (ha : cumAgg known ms dims ws m = .ok (dims', a)) :
    dateCol ms dims m = a.date ∧ a.date ∈ q.cols ∧ (∀ c, CumRef.col c ∈ a.select → c ∈ q.cols) ∧
    (∀ c ∈ m.whereCols, ∃ c' ∈ q.cols, c'.view = c.view ∧ c'.name = c.name ∧
      (m.updateTimeframe = true → c.group ≠ "" → c'.group = granularity ms dims)) := by
  have hgr := defaultGroup_eq hdot
  obtain ⟨-, e1, -, e3, -, -⟩ := cumAgg_ok (by rw [hgr]; exact hv) ha
  obtain ⟨-, f2⟩ := cumRows_ok hq
  refine ⟨by rw [e1, hgr]; rfl, ?_, ?_, ?_⟩
  · rw [e1, f2]
    apply List.mem_append_left
    split
    · next h =>
      obtain ⟨d, hd, hh⟩ := List.any_eq_true.1 h
      simp only [Bool.and_eq_true, beq_iff_eq] at hh
      have := hone d hd hh.2.symm hh.1.symm
      rw [hh.1, hh.2, hgr, ← this]
      exact hd
    · simp
  · intro c hc
    rw [e3] at hc
    obtain ⟨d, hd, he⟩ := List.mem_map.1 hc
    split at he
    · cases he
    · injection he with he
      subst he
      rw [f2]
      apply List.mem_append_left
      split
      · exact hd
      · exact List.mem_append_left _ hd
  · intro c hc
    rw [f2]
    refine ⟨_, List.mem_append_right _ (List.mem_map_of_mem hc), ?_⟩
    rw [hgr]
    by_cases h : (c.group != "" && c.group != granularity ms dims && m.updateTimeframe) = true
    · simp [h]
    · simp only [h]
      simp only [Bool.false_eq_true, if_false, true_and]
      intro hu hne
      simp only [Bool.and_eq_true, bne_iff_ne, hu, and_true, not_and, not_not] at h
      exact h hne

/-- **C39**, without the metric's date among the dimensions the value is not a total over the rows: every row counts once for every day of
the spine from its date to today. (Without any dimension; the conditions on the metric's date have no effect.) -/
theorem C39_without_date [DecidableEq R] {known : CumCol → Bool} {ms : List CumMetric} {dims' : List CumCol} {ws : List (CumWhere F)}
    {m : CumMetric} {q : CumRows F} {a : CumAgg F} (D : CumData F R V) (agg : List R → A) (hdot : DotFree ms [] ws)
    (hq : cumRows known ms [] ws m = .ok q) (ha : cumAgg known ms [] ws m = .ok (dims', a)) :
    ∃ l, D.result agg q a = [([], agg l)] ∧ ∀ r, (RowKept D.keeps ms ws r → l.count r =
        D.rows.count r * (D.days.filter fun d => decide (d ≤ D.today) && decide (DatedBy (fun s => D.val s ⟨m.view, m.defaultDate, "date"⟩) d r) && D.extra r d).length) ∧
      (¬ RowKept D.keeps ms ws r → r ∉ l) := by
  obtain ⟨-, e1, e2, e3, e4, fs, e5, e6⟩ := cumAgg_ok (by simp [defaultGroup, spineGroups]) ha
  obtain ⟨f1, -⟩ := cumRows_ok hq
  simp only [List.any_nil, Bool.false_eq_true, if_false, List.filter_nil, List.map_nil] at e3 e4 e6
  have hkept : ∀ r, r ∈ D.rows → (q.filters.all (fun f => D.keeps f r) = true ↔ RowKept D.keeps ms ws r) := by
    intro r _
    unfold RowKept
    rw [List.all_eq_true]
    constructor
    · intro h c f hc hm
      exact h (c, f) ((rowFilters_mem f1 c f).2 ⟨hc, by rw [isDefaultDate_eq hdot.1 (hdot.2.2 c f hc).1]; simpa using hm⟩)
    · rintro h ⟨c, f⟩ hcf
      obtain ⟨h1, h2⟩ := (rowFilters_mem f1 c f).1 hcf
      rw [isDefaultDate_eq hdot.1 (hdot.2.2 c f h1).1] at h2
      exact h c f h1 (by simpa using h2)
  refine ⟨(D.pairs q a).map Prod.snd, ?_, ?_⟩
  · unfold CumData.result CumData.groups
    simp only [e4, if_true]
    have : D.havingHolds a (D.pairs q a) = true := by
      unfold CumData.havingHolds
      rw [e6]
      cases D.pairs q a <;> rfl
    have hc : D.groupCols a (D.pairs q a) = [] := by
      unfold CumData.groupCols
      rw [e3]
      cases D.pairs q a <;> rfl
    simp [this, hc]
  · intro r
    have hcount : ∀ l : List V, ((l.flatMap fun d => ((D.table q).filter fun r => leDate (D.val r a.date) d && D.extra r d).map fun r => (d, r)).map Prod.snd).count r =
        (D.table q).count r * (l.filter fun d => leDate (D.val r a.date) d && D.extra r d).length := by
      intro l
      induction l with
      | nil => simp
      | cons d l ih =>
        rw [List.flatMap_cons, List.map_append, List.count_append, ih, List.map_map]
        have hid : (List.map (Prod.snd ∘ fun r => (d, r)) ((D.table q).filter fun r => leDate (D.val r a.date) d && D.extra r d)) =
            (D.table q).filter fun r => leDate (D.val r a.date) d && D.extra r d := by
          rw [show (Prod.snd ∘ fun r : R => (d, r)) = id from rfl, List.map_id]
        rw [hid, List.filter_cons]
        by_cases h : (leDate (D.val r a.date) d && D.extra r d) = true
        · rw [List.count_filter (p := fun r => leDate (D.val r a.date) d && D.extra r d) h, if_pos h, List.length_cons, Nat.mul_add, Nat.mul_one, Nat.add_comm]
        · have : r ∉ (D.table q).filter fun r => leDate (D.val r a.date) d && D.extra r d := by
            rw [List.mem_filter]; exact fun hh => h hh.2
          rw [List.count_eq_zero_of_not_mem this, if_neg h, Nat.zero_add]
    constructor
    · intro hk
      unfold CumData.pairs
      rw [hcount, List.filter_filter]
      have ht : (D.table q).count r = D.rows.count r := by
        by_cases hm : r ∈ D.rows
        · exact List.count_filter (p := fun r => q.filters.all fun f => D.keeps f r) ((hkept r hm).2 hk)
        · have : r ∉ D.table q := fun h => hm (List.mem_filter.1 h).1
          rw [List.count_eq_zero_of_not_mem hm, List.count_eq_zero_of_not_mem this]
      rw [ht]
      congr 2
      have he : a.spine = none := by rw [e2]; rfl
      rw [he]
      simp only [CumData.spineDates]
      congr 1
      funext d
      have e1' : a.date = ⟨m.view, m.defaultDate, "date"⟩ := by rw [e1]; rfl
      rw [leDate_eq (fun s => D.val s a.date), e1']
      simp only [Bool.and_comm, Bool.and_left_comm]
    · intro hk hm
      obtain ⟨⟨d, s⟩, hp, rfl⟩ := List.mem_map.1 hm
      obtain ⟨-, -, h3, -⟩ := mem_pairs.1 hp
      obtain ⟨h4, h5⟩ := List.mem_filter.1 h3
      exact hk ((hkept s h4).1 h5)

/-- **C39**, only these warehouses have cumulative metrics. -/
theorem C39_warehouses {known : CumCol → Bool} {warehouse : String} {fields : List CumField} {dims : List CumCol} {ws : List (CumWhere F)}
    (h : warehouse ∉ ["SNOWFLAKE", "REDSHIFT", "BIGQUERY", "POSTGRES"]) :
    cumPlan known warehouse fields dims ws = .error .notImplemented := by
  simp only [cumPlan, spineWarehouses, h, not_false_eq_true, if_true]

/-- **C39**, a metric whose view's default date is a date of another view cannot be queried: the date is looked up in the metric's own view
under its full name. -/
theorem C39_foreign_date {known : CumCol → Bool} {warehouse : String} {fields : List CumField} {dims : List CumCol} {ws : List (CumWhere F)}
    {m : CumMetric} (hw : warehouse ∈ ["SNOWFLAKE", "REDSHIFT", "BIGQUERY", "POSTGRES"]) (hm : (separateMetrics fields).1 = [m])
    (hf : '.' ∈ m.defaultDate.toList) : cumPlan known warehouse fields dims ws = .error .accessDenied := by
  have hw' : warehouse ∈ spineWarehouses := hw
  have : cumRows known [m] dims ws m = .error .accessDenied := by simp [cumRows, getDefaultDate, hf]
  have h2 : cumCtes known [m] ws dims [m] = .error .accessDenied := by simp [cumCtes, this]
  simp [cumPlan, hw', hm, h2]

end

/-! ### Concrete cases -/

/-- A table of orders: amount, day (`none`: NULL), region. -/
def cumOrders : List (ℕ × Option ℕ × ℕ) := [(10, some 3, 1), (20, some 5, 1), (5, some 4, 2), (7, some 9, 1), (100, none, 1)]

/-- The metric over the orders. -/
def cumRevenue : CumMetric := ⟨"orders.cumulative_revenue", "orders.revenue", "orders", "order", [], true⟩

/-- The date of the orders. -/
def cumOrderDate : CumCol := ⟨"orders", "order", "date"⟩

/-- The region of the orders. -/
def cumRegion : CumCol := ⟨"orders", "region", ""⟩

/-- The data of the metric: days 0 to 9, today is day 6, conditions on the region are equalities and on the date lower bounds. -/
def cumExampleData : CumData ℕ (ℕ × Option ℕ × ℕ) ℕ where
  rows := cumOrders
  val r c := if c = cumOrderDate then r.2.1 else if c = cumRegion then some r.2.2 else none
  keeps f r := decide (f.1 = cumRegion ∧ r.2.2 = f.2)
  days := List.range 10
  today := 6
  asGroup _ d := d
  dateHolds f d := decide (f ≤ d)
  extra _ _ := true

/-- The sum of the amounts. -/
def cumSum (l : List (ℕ × Option ℕ × ℕ)) : ℕ := (l.map Prod.fst).sum

example : DotFree (F := ℕ) [cumRevenue] [cumOrderDate, cumRegion] [.cond cumOrderDate 4] ∧
    granularity [cumRevenue] [cumOrderDate, cumRegion] ∈ ["date", "week", "month", "quarter", "year"] ∧
    (∃ d ∈ [cumOrderDate, cumRegion], OnCumDate [cumRevenue] d) ∧ cumExampleData.days.Nodup ∧
    (match cumRows (fun _ => true) [cumRevenue] [cumOrderDate, cumRegion] [.cond cumOrderDate 4] cumRevenue,
        cumAgg (fun _ => true) [cumRevenue] [cumOrderDate, cumRegion] [.cond cumOrderDate 4] cumRevenue with
      | .ok q, .ok (_, a) => cumExampleData.result cumSum q a
      | _, _ => []) =
      [([some 4, some 1], 10), ([some 4, some 2], 5), ([some 5, some 1], 30), ([some 5, some 2], 5), ([some 6, some 1], 30), ([some 6, some 2], 5)] := by
  refine ⟨⟨by decide +kernel, by decide +kernel, ?_⟩, by decide +kernel, by decide +kernel, by decide +kernel, by decide +kernel⟩
  intro c f h
  simp only [List.mem_singleton, CumWhere.cond.injEq] at h
  rw [h.1]
  decide +kernel

/-- **C39 fails** without the metric's date: revenue of 45 up to today is shown as 10·4 + 20·2 + 5·3 = 95. -/
theorem C39_inflated :
    (match cumPlan (F := ℕ) (fun _ => true) "SNOWFLAKE" [.cumulative cumRevenue] [] [] with
      | .ok ⟨_, [(q, a)], _⟩ => (cumExampleData.result cumSum q a)
      | _ => []) = [([], 95)] := by decide +kernel

/-- **C39 fails** without the metric's date: a condition on the date is dropped. -/
theorem C39_date_filter_dropped :
    (cumPlan (F := ℕ) (fun _ => true) "SNOWFLAKE" [.cumulative cumRevenue] [cumRegion] [.cond cumOrderDate 4]) =
    (cumPlan (F := ℕ) (fun _ => true) "SNOWFLAKE" [.cumulative cumRevenue] [cumRegion] []) := by decide +kernel

/-- **C39 fails** for partitions whose dimension is NULL when two cumulative metrics are queried together: the second metric has a
running total for the partition but its column is NULL. -/
theorem C39_null_partition :
    (match cumPlan (F := ℕ) (fun _ => true) "SNOWFLAKE" [.cumulative cumRevenue, .cumulative { cumRevenue with id := "orders.other" }]
          [cumOrderDate, ⟨"orders", "channel", ""⟩] [] with
      | .ok ⟨_, [(q₁, a₁), (q₂, a₂)], _⟩ =>
        ((cumExampleData.result cumSum q₂ a₂).head?, (finalRows (asBase (cumExampleData.result cumSum q₁ a₁)) [cumExampleData.result cumSum q₂ a₂]).head?)
      | _ => (none, none)) = (some ([some 3, none], 10), some ([some 3, none], [some 10, none])) := by decide +kernel

/-- **C39 fails** at the granularity of timestamps: the date of the first metric is appended to the query's dimensions, once for every
cumulative metric. -/
theorem C39_extra_dimension :
    (cumPlan (F := ℕ) (fun _ => true) "SNOWFLAKE" [.cumulative cumRevenue, .cumulative { cumRevenue with id := "orders.other" }]
      [⟨"orders", "order", "raw"⟩] []).map CumPlan.dims =
      .ok [⟨"orders", "order", "raw"⟩, ⟨"orders", "order", "date"⟩, ⟨"orders", "order", "date"⟩] := by decide +kernel

/-- **C39 fails** with the dates of two metrics at two granularities: the query of the second metric's rows does not select the date the
aggregating query compares with the spine. -/
theorem C39_two_granularities :
    (match cumPlan (F := ℕ) (fun _ => true) "SNOWFLAKE"
          [.cumulative cumRevenue, .cumulative ⟨"customers.cumulative_customers", "customers.number", "customers", "first_order", [], true⟩]
          [⟨"orders", "order", "week"⟩, ⟨"customers", "first_order", "month"⟩] [] with
      | .ok ⟨_, [_, (q, a)], _⟩ => (a.date, q.cols)
      | _ => (cumOrderDate, [])) =
      (⟨"customers", "first_order", "week"⟩, [⟨"orders", "order", "week"⟩, ⟨"customers", "first_order", "month"⟩]) := by decide +kernel

/-- The same data in a project with a time zone: the date of the spine is converted again, which moves midnight to the day before. -/
def cumZoned : CumData ℕ (ℕ × Option ℕ × ℕ) ℕ := { cumExampleData with asGroup := fun _ d => d - 1 }

/-- **C39 fails** when the metric's date is converted to a time zone: the condition `date ≥ 4` hides the period 4. -/
theorem C39_time_zone :
    (match cumPlan (F := ℕ) (fun _ => true) "SNOWFLAKE" [.cumulative cumRevenue] [cumOrderDate] [.cond cumOrderDate 4] with
      | .ok ⟨_, [(q, a)], _⟩ => (cumZoned.result cumSum q a)
      | _ => []) = [([some 5], 35), ([some 6], 35)] := by decide +kernel

end ML
