import Verif.MergeStmt.Model
import Verif.Merged.Spec
import Verif.Refs.Spec
import Mathlib.Data.List.Forall2
/-
What the user of a merged query relies on (C60): one line for each combination of dimension values, with the metrics of that
combination.
-/
set_option autoImplicit false
namespace ML.Spec

/-- The text of a formula, following references to depth `n`: a metric that is itself a formula is replaced by its text in
parentheses, any other by its column; outer white space is dropped. `none` when a reference leads nowhere. -/
def formulaText (get : String → List Char → Res SMetric) (pieces : SMetric → List Piece) : ℕ → SMetric → Option (List Char)
  | 0, _ => none
  | n + 1, f =>
    let value (name : List Char) : Option (List Char) :=
      match get f.view name with
      | .error _ => none
      | .ok g => if g.formula then (formulaText get pieces n g).map (fun t => '(' :: t ++ [')']) else some g.column.toList
    if (refNames (pieces f)).any (fun m => (value m).isNone) then none
    else some (strip (fill (fun m => (value m).getD []) (pieces f)))

/-- The text of a metric is ordinary, and its column and the names in it have no braces; it does not use `${TABLE}`. -/
structure OrdinaryMetric (pieces : SMetric → List Piece) (f : SMetric) : Prop where
  text : f.sql = render (pieces f)
  ordinary : OrdinaryText (pieces f)
  column : '{' ∉ f.column.toList
  noTable : "TABLE".toList ∉ refNames (pieces f)

section
variable {V : Type} [DecidableEq V]

/-- The value of a metric's column for a combination of dimension values: that of the row its sub-query has for the combination,
NULL if it has none. -/
def metricAt (d : MergedDef) (db : String → List (MRow V)) (k : List V) (c : String) : Option V :=
  match d.metrics.find? (fun p => c ∈ p.2) with
  | none => none
  | some p => ((db p.1).find? (fun t => keyOf d.src p.1 t = k.map some)).bind (fun t => t c)

/-- What a column of the answer shows on the line of a combination: a metric its value for the combination, a dimension at
place `i` the `i`-th value of the combination, a merged metric its formula computed from the metrics of the combination. -/
inductive Shows (W : MWarehouse V) (text : SMetric → Option (List Char)) (d : MergedDef) (db : String → List (MRow V)) (k : List V) :
    String → Option V → Prop
  | metric (p : String × List String) (c : String) : p ∈ d.metrics → c ∈ p.2 → Shows W text d db k c (metricAt d db k c)
  | dimension (h : String) (i : ℕ) (f : MDim) : h ∈ d.src.hashes → (dimsOf d.src h)[i]? = some f →
      Shows W text d db k f.column k[i]?
  | merged (m : SMetric) (t : List Char) : m ∈ d.merged → text m = some t →
      Shows W text d db k m.column (W.compute t (metricAt d db k))

/-- Each metric is a column of one sub-query only, and no dimension has its column. -/
structure MetricsApart (d : MergedDef) : Prop where
  listed : ∀ p ∈ d.metrics, p.1 ∈ d.src.hashes
  keys : (d.metrics.map (·.1)).Nodup
  once : ∀ p ∈ d.metrics, ∀ q ∈ d.metrics, ∀ c, c ∈ p.2 → c ∈ q.2 → p = q
  noDimension : ∀ p ∈ d.metrics, ∀ c ∈ p.2, ∀ q ∈ d.src.dims, ∀ f ∈ q.2, f.column ≠ c

/-- The dimensions at place `i` are the same column in all sub-queries, which no other dimension has, and no mapping is about it. -/
def SameEverywhere (d : MergeDef) (i : ℕ) (a : String) : Prop :=
  (∀ h ∈ d.hashes, ((dimsOf d h)[i]?).map MDim.column = some a) ∧
  (∀ p ∈ d.dims, ∀ j, (p.2[j]?).map MDim.column = some a → j = i) ∧
  ∀ p ∈ d.dims, ∀ f ∈ p.2, f.column = a → ∀ q ∈ d.dims, ∀ g ∈ q.2, g.keyGroup = f.id → d.mapping g.key = []

/-- The dimension at place `i` of the sub-query `h` is a column of its own, and its mappings lead to the dimension at place `i` of every
other sub-query. -/
def MappedToAll (d : MergeDef) (h : String) (i : ℕ) (f : MDim) : Prop :=
  (∀ p ∈ d.dims, ∀ g ∈ p.2, g.column = f.column → p.1 = h ∧ g = f) ∧
  (∀ p ∈ d.dims, ∀ g ∈ p.2, g.keyGroup = f.id ↔ g = f) ∧
  d.mapping f.key ≠ [] ∧
  (∀ h' ∈ d.hashes, h' ≠ h → ∃ m ∈ d.mapping f.key, m.cte = h') ∧
  ∀ m ∈ d.mapping f.key, ∃ g, (dimsOf d m.cte)[i]? = some g ∧ m.cte ∈ d.hashes ∧ m.cte ≠ h ∧
    (match f.group with | none => m.field | some x => m.field ++ "_" ++ x) = g.id

/-- The dimensions of the sub-queries match place by place: at each place they are one column, or columns that are mapped to each other.
Names have no dots. -/
structure DimensionsMatch (d : MergeDef) : Prop where
  listed : ∀ p ∈ d.dims, p.1 ∈ d.hashes
  keys : (d.dims.map (·.1)).Nodup
  places : ∀ h ∈ d.hashes, ∀ i f, (dimsOf d h)[i]? = some f → SameEverywhere d i f.column ∨ MappedToAll d h i f
  noDots : ∀ p ∈ d.dims, ∀ f ∈ p.2, '.' ∉ f.view.toList ∧ '.' ∉ f.short.toList

/-- The merged metrics have columns of their own. -/
structure MergedApart (d : MergedDef) : Prop where
  noMetric : ∀ m ∈ d.merged, ∀ p ∈ d.metrics, m.column ∉ p.2
  noDimension : ∀ m ∈ d.merged, ∀ q ∈ d.src.dims, ∀ f ∈ q.2, f.column ≠ m.column
  once : ∀ m ∈ d.merged, ∀ m' ∈ d.merged, m.column = m'.column → m = m'

/-- The value of a metric or merged metric for a combination, by its column. -/
def metricValueAt (W : MWarehouse V) (text : SMetric → Option (List Char)) (d : MergedDef) (db : String → List (MRow V)) (k : List V)
    (c : String) : Option V :=
  match d.merged.find? (fun m => m.column = c) with
  | none => metricAt d db k c
  | some m => (text m).bind (fun t => W.compute t (metricAt d db k))

/-- The line of a combination passes the filters on metrics: all of them are true of the metrics' values for the combination. -/
def PassesFilters (W : MWarehouse V) (text : SMetric → Option (List Char)) (column : ℕ → Res String) (d : MergedDef)
    (db : String → List (MRow V)) (k : List V) : Prop :=
  ∀ b ∈ meanings (fun i => match column i with
    | .error _ => .u
    | .ok c => W.test i (metricValueAt W text d db k c)) d.having, b = .t

/-- The filters are on metrics and merged metrics of the query. -/
def OnMetrics (column : ℕ → Res String) (d : MergedDef) : Prop :=
  ∀ l ∈ leavesList d.having, ∀ i ∈ l.first :: l.rest, ∀ c, column i = .ok c →
    (∃ p ∈ d.metrics, c ∈ p.2) ∨ ∃ m ∈ d.merged, m.column = c

/-- What the limit asks for: the first lines, at most so many. -/
def LimitedTo (limit : Option ℕ) (lines out : List (List (Option V))) : Prop :=
  match limit with
  | none => out = lines
  | some n => out <+: lines ∧ out.length = min n lines.length

end
end ML.Spec
