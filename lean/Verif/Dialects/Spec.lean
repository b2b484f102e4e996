import Verif.Slice.Spec
/-
One question asked of the same data in two warehouses (C89).
-/
set_option autoImplicit false
namespace ML.Spec

/-- The warehouses for which the layer corrects the double counting of joins. -/
def CorrectsDoubleCounting (w : Warehouse) : Prop := w ∈ [Warehouse.snowflake, .redshift, .bigquery, .postgres, .duckDb]

/-- The layer corrects double counting for both warehouses, or for none. -/
def SameKind (w w' : Warehouse) : Prop := CorrectsDoubleCounting w ↔ CorrectsDoubleCounting w'

/-- There is nothing to correct in the metric: it is a maximum, a minimum, a number of distinct values or a median, or the rows of the FROM are, as far as the layer knows, the rows of
the metric's own view. -/
def NothingToCorrect (fpk : FunctionalPk) (m : Measure) : Prop :=
  m.type ∈ [MeasureType.max, .min, .countDistinct, .median] ∨ fpk = .none ∨ ∃ id pk, m.pk = some (id, pk) ∧ fpk = .key id

/-- The comparison is one of the access filters, or of the filters or HAVING conditions of the query. -/
def Compares (P : AnsProject) (views : List String) (q : Question) (i : Nat) : Prop :=
  i ∈ P.access views ∨ (∃ l ∈ leavesList q.wheres, i ∈ l.first :: l.rest) ∨ ∃ l ∈ leavesList q.havings, i ∈ l.first :: l.rest

/-- The layer corrects double counting for both warehouses or for none, or no metric that the query shows or compares needs a correction. -/
def Comparable (P : AnsProject) (w w' : Warehouse) (q : Question) (ms : List AnsField) : Prop :=
  SameKind w w' ∨ ∀ views, QueryViews P q views → ∀ f m, f.sql = .measure m →
    (f ∈ ms ∨ ∃ i, Compares P views q i ∧ P.get (q.fieldOf i) = .ok f) → NothingToCorrect (P.fpk views) m

end ML.Spec
