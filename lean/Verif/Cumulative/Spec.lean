import Verif.Cumulative.Model
/-
What a cumulative metric means, without reference to the generated query.
-/
set_option autoImplicit false
namespace ML.Spec
variable {R V A : Type} [LinearOrder V]

/-- The row is dated on or before the period. -/
def DatedBy (date : R → Option V) (p : V) (r : R) : Prop := ∃ t, date r = some t ∧ t ≤ p

instance (date : R → Option V) (p : V) (r : R) : Decidable (DatedBy date p r) :=
  match h : date r with
  | none => isFalse (by rintro ⟨t, ht, _⟩; rw [h] at ht; cases ht)
  | some t => if hp : t ≤ p then isTrue ⟨t, h, hp⟩ else isFalse (by rintro ⟨u, hu, hup⟩; rw [h] at hu; cases hu; exact hp hup)

/-- The column is the default date of the view of one of the cumulative metrics. -/
def OnCumDate (ms : List CumMetric) (c : CumCol) : Prop := ∃ m ∈ ms, c.view = m.view ∧ c.name = m.defaultDate

instance (ms : List CumMetric) (c : CumCol) : Decidable (OnCumDate ms c) := by unfold OnCumDate; infer_instance

/-- Names of views and fields contain no dot, and default dates are dates of the view itself. -/
def DotFree {F : Type} (ms : List CumMetric) (dims : List CumCol) (ws : List (CumWhere F)) : Prop :=
  (∀ m ∈ ms, '.' ∉ m.view.toList ∧ '.' ∉ m.defaultDate.toList) ∧
  (∀ c ∈ dims, '.' ∉ c.view.toList ∧ '.' ∉ c.name.toList) ∧
  (∀ c f, CumWhere.cond c f ∈ ws → '.' ∉ c.view.toList ∧ '.' ∉ c.name.toList)

/-- The row satisfies every condition of the query that is not on a metric's date. -/
def RowKept {F : Type} (keeps : CumCol × F → R → Bool) (ms : List CumMetric) (ws : List (CumWhere F)) (r : R) : Prop :=
  ∀ c f, CumWhere.cond c f ∈ ws → ¬ OnCumDate ms c → keeps (c, f) r = true

/-- The period satisfies every condition of the query on a metric's date, each at its own granularity. -/
def PeriodKept {F : Type} (asGroup : String → V → V) (holds : F → V → Bool) (ms : List CumMetric) (ws : List (CumWhere F)) (p : V) : Prop :=
  ∀ c f, CumWhere.cond c f ∈ ws → OnCumDate ms c → holds f (asGroup c.group p) = true

/-- The columns of the row of a partition at a period: the period in the place of every metric's date. -/
def shownCols (ms : List CumMetric) (dims : List CumCol) (val : R → CumCol → Option V) (p : V) (r : R) : List (Option V) :=
  dims.map fun d => if OnCumDate ms d then some p else val r d

/-- The values of the dimensions that are not a metric's date. -/
def partitionOf (ms : List CumMetric) (dims : List CumCol) (val : R → CumCol → Option V) (r : R) : List (Option V) :=
  (dims.filter fun d => !decide (OnCumDate ms d)).map (val r)

/-- No column of the row is NULL. -/
def noNull (cols : List (Option V)) : Bool := cols.all Option.isSome

/-- The value of the sub-query's row with these columns, if there is one. -/
def lookupCols (cte : List (List (Option V) × A)) (cols : List (Option V)) : Option A := (cte.find? fun c => decide (c.1 = cols)).map Prod.snd

/-- The granularity of the query: the group of the first of its dimensions that is a metric's date, days without one. -/
def granularity (ms : List CumMetric) (dims : List CumCol) : String :=
  ((dims.find? fun d => decide (OnCumDate ms d)).map CumCol.group).getD "date"

/-- The periods: the days, or the weeks, months, quarters or years they lie in. -/
def Period (days : List V) (asGroup : String → V → V) (group : String) (p : V) : Prop :=
  if group ∈ ["week", "month", "quarter", "year"] then ∃ d ∈ days, p = asGroup group d else p ∈ days

/-- The date of the metric `m` at the granularity of the query. -/
def dateCol (ms : List CumMetric) (dims : List CumCol) (m : CumMetric) : CumCol := ⟨m.view, m.defaultDate, granularity ms dims⟩

/-- The row takes part in the metric at the period `p`: it satisfies the query's conditions that are not on a metric's date and the
metric's own `cumulative_where`, and it is dated on or before `p`. -/
def Counted {F : Type} (D : CumData F R V) (ms : List CumMetric) (dims : List CumCol) (ws : List (CumWhere F)) (m : CumMetric) (p : V)
    (r : R) : Prop :=
  RowKept D.keeps ms ws r ∧ D.extra r p = true ∧ DatedBy (fun s => D.val s (dateCol ms dims m)) p r

open Classical in
/-- The running total of the partition of `r` at the period `p`: the aggregate over all rows that take part at `p` and agree with `r`
on the other dimensions. -/
noncomputable def runningTotal {F : Type} (D : CumData F R V) (agg : List R → A) (ms : List CumMetric) (dims : List CumCol)
    (ws : List (CumWhere F)) (m : CumMetric) (p : V) (r : R) : A :=
  agg (D.rows.filter fun s => decide (Counted D ms dims ws m p s ∧ partitionOf ms dims D.val s = partitionOf ms dims D.val r))

/-- `cols` and `v` are the row of a running total: `cols` shows a period up to today that satisfies the conditions on the metric's
date and a partition that has rows by then, and `v` is the running total. -/
def RunningRow {F : Type} (D : CumData F R V) (agg : List R → A) (ms : List CumMetric) (dims : List CumCol) (ws : List (CumWhere F))
    (m : CumMetric) (cols : List (Option V)) (v : A) : Prop :=
  ∃ p r, Period D.days D.asGroup (granularity ms dims) p ∧ p ≤ D.today ∧ PeriodKept D.asGroup D.dateHolds ms ws p ∧
    r ∈ D.rows ∧ Counted D ms dims ws m p r ∧ cols = shownCols ms dims D.val p r ∧ v = runningTotal D agg ms dims ws m p r

end ML.Spec
