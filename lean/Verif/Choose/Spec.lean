import Verif.Choose.Model
import Verif.Design.Spec
/-
Specification vocabulary for C40 and C48.
-/
set_option autoImplicit false
namespace ML.Spec

/-- A metric is itself a merged result: it is declared so, or, with nothing declared, it is a
number built from two measures (not cumulative ones) with different dates. -/
def IsMerged (m : MetricInfo) : Prop :=
  m.declared = some true ∨
  (m.declared = none ∧ m.isNumberMeasure = true ∧
    ∃ a b, some a ∈ m.refs ∧ some b ∈ m.refs ∧ a.isMeasure = true ∧ b.isMeasure = true ∧
      a.isCumulative = false ∧ b.isCumulative = false ∧ a.canonDate ≠ b.canonDate)

/-- The query must be merged: one of its metrics is a merged result, the caller asks for it, or a
mapped date stands for different dates of the metrics. -/
def MustMerge (lookup : String → Res MetricInfo) (k : KindArgs) : Prop :=
  (∃ m ∈ k.metrics, ∃ i, lookup m = .ok i ∧ IsMerged i) ∨ k.mergedResult = true ∨
    k.mappingForces = true

end ML.Spec
