import Verif.Answer.Spec
/-
Queries that are compared with each other: filters on what is shown, and fewer or reordered columns (C82, C83).
-/
set_option autoImplicit false
namespace ML.Spec

section
variable {ρ : Type}

/-- The query shows all its lines: it has no filter with a group_by and no limit, and an ordering by columns. -/
structure ShowsAll (w : Warehouse) (q : Question) : Prop where
  groups : q.groupFilters = []
  limit : q.limit = none
  order : (∀ t, q.order ≠ .text t) ∧ ∀ o ∈ askedOrder w q, o.1 ≠ "__DEFAULT__"

/-- Which rows a FROM has, its key and its access filters only depend on which views it is for, not on their order. -/
def SetOfViews (D : Db ρ) (P : AnsProject) : Prop :=
  ∀ views views', (∀ v, v ∈ views ↔ v ∈ views') →
    D.rows views = D.rows views' ∧ P.fpk views = P.fpk views' ∧ ∀ i, i ∈ P.access views ↔ i ∈ P.access views'

/-- The fields of the two queries are of the same views. -/
def SameViews (P : AnsProject) (q q' : Question) : Prop :=
  ∀ views views', QueryViews P q views → QueryViews P q' views' → ∀ v, v ∈ views ↔ v ∈ views'

/-- All comparisons of the filter are on fields that the query shows; `pos` says in which column. -/
def OnShown (P : AnsProject) (q : Question) (shown : List AnsField) (pos : Nat → Nat) (x : FObj) : Prop :=
  ∀ l ∈ leaves x, ∀ i ∈ l.first :: l.rest, ∃ f, shown[pos i]? = some f ∧ P.get (q.fieldOf i) = .ok f

/-- The filter is true of a line: each comparison is made with the value shown. -/
def TrueOf (D : Db ρ) (pos : Nat → Nat) (x : FObj) (line : List Val) : Prop :=
  meaning (fun i => D.test i (line[pos i]?).join) x = .t

instance (D : Db ρ) (pos : Nat → Nat) (x : FObj) (line : List Val) : Decidable (TrueOf D pos x line) := by
  unfold TrueOf
  infer_instance

/-- The metric is written without a correction for repeated rows: a maximum, minimum, median or count of different values always is; a sum, count or average is when its
view's key is that of the FROM, or the view found has no key, or the warehouse is not one on which the correction is written. -/
def Uncorrected (w : Warehouse) (fpk : FunctionalPk) (m : Measure) : Prop :=
  m.type ∈ [MeasureType.max, .min, .median, .countDistinct] ∨ m.type ∈ [MeasureType.sum, .count, .average] ∧
    ((∃ id s, m.pk = some (id, s) ∧ fpk = .key id) ∨ fpk = .none ∨ w ∉ [Warehouse.snowflake, .redshift, .bigquery, .postgres, .duckDb])

/-- The columns of a line, in the given order. -/
def columns (js : List Nat) (line : List Val) : List Val := js.map (fun j => (line[j]?).join)

end
end ML.Spec
