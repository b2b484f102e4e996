import Verif.Cumulative.Spec
/-
Running totals that are compared with each other (C87).
-/
set_option autoImplicit false
namespace ML.Spec
variable {F R V A : Type} [LinearOrder V]

open Classical in
/-- The rows of a partition that are dated after the period `p` and by the period `p'`: those that satisfy the query's conditions that are
not on a metric's date and agree with `r` on the other dimensions. -/
noncomputable def rowsBetween (D : CumData F R V) (ms : List CumMetric) (dims : List CumCol) (ws : List (CumWhere F)) (m : CumMetric) (p p' : V) (r : R) :
    List R :=
  D.rows.filter fun s => decide (RowKept D.keeps ms ws s ∧ DatedBy (fun s => D.val s (dateCol ms dims m)) p' s ∧
    ¬ DatedBy (fun s => D.val s (dateCol ms dims m)) p s ∧ partitionOf ms dims D.val s = partitionOf ms dims D.val r)

open Classical in
/-- The rows of the data that are dated by the period `p` and satisfy the query's conditions that are not on a metric's date. -/
noncomputable def rowsBy (D : CumData F R V) (ms : List CumMetric) (dims : List CumCol) (ws : List (CumWhere F)) (m : CumMetric) (p : V) : List R :=
  D.rows.filter fun s => decide (RowKept D.keeps ms ws s ∧ DatedBy (fun s => D.val s (dateCol ms dims m)) p s)

end ML.Spec
