import Verif.Answer.Spec
import Verif.Joined.Spec
/-
What it means that the lines of a finer query add up to those of a coarser one (C81).
-/
set_option autoImplicit false
namespace ML.Spec

/-- A column of the lines. -/
def columnAt (i : Nat) (lines : List (List Val)) : List Val := lines.map (fun l => (l[i]?).join)

/-- What the values of a metric on several lines come to together: sums and counts are added, of maxima and minima the greatest and the least counts; NULLs are
left out, and all of them NULL is NULL (zero for a count). -/
def together (t : MeasureType) (vs : List Val) : Val :=
  match t with
  | .count => some (vs.filterMap id).sum
  | .max => sqlMax (vs.filterMap id)
  | .min => sqlMin (vs.filterMap id)
  | _ => sqlSum (vs.filterMap id)

/-- The metric is a maximum or minimum, or a sum or count that is written without a correction for repeated rows: its view's key is that of the FROM, or the view
whose rows the FROM repeats least has no key, or the warehouse is not one on which the correction is written. -/
def AddsUp (w : Warehouse) (fpk : FunctionalPk) (m : Measure) : Prop :=
  m.type = .max ∨ m.type = .min ∨ (m.type = .sum ∨ m.type = .count) ∧
    ((∃ id s, m.pk = some (id, s) ∧ fpk = .key id) ∨ fpk = .none ∨ w ∉ [Warehouse.snowflake, .redshift, .bigquery, .postgres, .duckDb])

section
variable {ρ : Type}

/-- The rows of the finer query are those of the coarser one with more columns: each is made from a row of the coarser FROM, none is lost or made twice, and it
has the same columns for the dimensions `ds` and the metrics `ms`, and passes the filters of its query if that row passes those of the other. -/
def Widens (D : Db ρ) (P : AnsProject) (w : Warehouse) (q q' : Question) (ds ms : List AnsField) (views views' : List String) : Prop :=
  ∃ part : ρ → ρ, ((D.rows views).map part).Perm (D.rows views') ∧ ∀ r ∈ D.rows views,
    (PassesWhere D P w views q r ↔ PassesWhere D P w views' q' (part r)) ∧
    (∀ d ∈ ds, ∀ s, d.sql = .dimension s → D.engine.value r s = D.engine.value (part r) s) ∧
    ∀ m ∈ ms, ∀ a, m.sql = .measure a → D.engine.value r a.sql = D.engine.value (part r) a.sql

/-- The query asks for all lines: no filter with a group_by, no filter on metrics, no limit, and an ordering by columns. -/
structure AsksAll (w : Warehouse) (q : Question) : Prop where
  groups : q.groupFilters = []
  havings : q.havings = []
  limit : q.limit = none
  order : (∀ t, q.order ≠ .text t) ∧ ∀ o ∈ askedOrder w q, o.1 ≠ "__DEFAULT__"

/-- The two queries have the same filters, on dimensions whose columns satisfy `ok`, and the same access filters are added to both. -/
structure SameFilters (P : AnsProject) (q q' : Question) (views views' : List String) (ok : String → Prop) : Prop where
  wheres : q.wheres = q'.wheres
  fieldOf : q.fieldOf = q'.fieldOf
  access : ∀ i, i ∈ P.access views ↔ i ∈ P.access views'
  columns : ∀ i, (i ∈ P.access views ∨ ∃ l ∈ leavesList q.wheres, i ∈ l.first :: l.rest) →
    ∃ f s, P.get (q.fieldOf i) = .ok f ∧ f.sql = .dimension s ∧ ok s

/-- The column is computed from the row of one of the views, and NULL where there is none. -/
def ReadsFrom (E : Engine (JRow ρ)) (vs : List String) (s : String) : Prop :=
  ∃ v ∈ vs, ∀ row, E.value row s = (dictGet row v).bind (fun r => E.value [(v, r)] s)

/-- The first FROM is the second one followed by left joins, in each of which a row finds at most one other. -/
def OnlyLooksUp (db : String → List ρ) (from₁ from₂ : String × List (JoinStep ρ)) : Prop :=
  from₁.1 = from₂.1 ∧ FromShape from₁.1 from₁.2 ∧ ∃ post, from₁.2 = from₂.2 ++ post ∧
    ∀ j ∈ post, j.kind = .left ∧ (j.rel = .manyToOne ∨ j.rel = .oneToOne) ∧ Respects db j

end
end ML.Spec
