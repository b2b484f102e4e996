import Verif.Window.Model
import Verif.Answer.Spec
import Verif.FilterStr.Spec
/-
What the user of a non-additive metric relies on (C57): which rows count.
-/
set_option autoImplicit false
namespace ML.Spec

section
variable {ρ : Type}

/-- The field named `n` is one of those that split the windows of `d`: one of its groupings, or a dimension of the query (when the
window does not follow the query's dimensions, only a variation of the window's date). -/
def SplitsWindow (W : WinProject) (q : Question) (d : WinDef) (n : String) : Prop :=
  n ∈ d.groups ∨ (n ∈ q.dimensions ∧ (d.aware = true ∨ W.variation d.name n = true))

/-- The value of the dimension named `n` on a row. -/
def onRow (W : WinProject) (E : Engine ρ) (n : String) (r : ρ) : Val :=
  match W.get n with
  | .ok ⟨_, _, _, .dimension s⟩ => E.value r s
  | _ => none

/-- The rows are in the same window: all fields that split the windows have the same values; a NULL is the same as nothing unless the
definition says that NULLs are equal. -/
def SameWindow (W : WinProject) (E : Engine ρ) (q : Question) (d : WinDef) (r x : ρ) : Prop :=
  ∀ n, SplitsWindow W q d n → onRow W E n r = onRow W E n x ∧ (d.nullsEqual = false → onRow W E n r ≠ none)

/-- The views whose rows are searched for the window's date: those of the fields that split the windows, of the date itself and of the
filters. -/
def WindowViews (W : WinProject) (q : Question) (d : WinDef) (views : List String) : Prop :=
  views.Nodup ∧ ∀ v, v ∈ views ↔ ∃ n f, (SplitsWindow W q d n ∨ n = d.name ∨ n ∈ q.whereNames) ∧ W.get n = .ok f ∧ f.view = v

/-- `t` is the latest (for `min`: the earliest) of the given times. -/
def IsExtreme : WinChoice → (ℚ → Prop) → ℚ → Prop
  | .max, times, t => times t ∧ ∀ u, times u → u ≤ t
  | .min, times, t => times t ∧ ∀ u, times u → t ≤ u

/-- The times of the row's window: of the rows of the given views that pass the query's filters and are in the same window. -/
def WindowTimes (D : Db ρ) (W : WinProject) (w : Warehouse) (q : Question) (d : WinDef) (views : List String) (r : ρ) (t : ℚ) : Prop :=
  ∃ x ∈ D.rows views, PassesWhere D W.project w views q x ∧ SameWindow W D.engine q d r x ∧ onRow W D.engine d.name x = some t

/-- The row counts for the metric: its date is the window's latest (earliest) one, none of the definition's groupings is NULL on it, and it
satisfies the metric's own filters. -/
def Counts (D : Db ρ) (W : WinProject) (w : Warehouse) (q : Question) (truth : ρ → String → Comparison → Option Bool) (m : WinMeasure)
    (views : List String) (r : ρ) : Prop :=
  (∃ t, onRow W D.engine m.win.name r = some t ∧ IsExtreme m.win.choice (WindowTimes D W w q m.win views r) t) ∧
  (∀ g ∈ m.win.groups, onRow W D.engine g r ≠ none) ∧
  RowMatches W.num W.now truth (m.filters.filter (fun f => f.field ≠ some m.name)) r

/-- The engine `E2` shows each metric as a column: the metric's value on the rows that count, and on the others NULL, for counts, or zero, for
all other types. Everything else is read from the row as `D` does. -/
structure ShowsCounted (D : Db ρ) (W : WinProject) (w : Warehouse) (q : Question) (truth : ρ → String → Comparison → Option Bool)
    (E2 : Engine ρ) : Prop where
  counted : ∀ n ∈ q.metrics ++ q.havingNames, ∀ m c, W.win n = some m → m.case W.num W.now = .ok c → ∃ views, WindowViews W q m.win views ∧
    ∀ r, (Counts D W w q truth m views r → E2.value r (W.render c) = D.engine.value r m.measure.sql) ∧
      (¬ Counts D W w q truth m views r → E2.value r (W.render c) =
        if m.measure.type = .count ∨ m.measure.type = .countDistinct then none else some 0)
  others : ∀ s, (∀ n m c, W.win n = some m → m.case W.num W.now = .ok c → s ≠ W.render c) → ∀ r, E2.value r s = D.engine.value r s
  hash : E2.hash = D.engine.hash

/-- What the theorems assume of the non-additive metrics of a query: the date is in the metric's view, groupings are written as
`view.field`, no two metrics have the same subquery name, the dimensions' names do not depend on case, and the temporary measure's
name is not used by the query. -/
structure ProperWindows (W : WinProject) (q : Question) : Prop where
  sameView : ∀ n ∈ q.metrics ++ q.havingNames, ∀ m, W.win n = some m → ∀ f, W.get m.win.name = .ok f → f.view = m.view
  groupings : ∀ n ∈ q.metrics ++ q.havingNames, ∀ m, W.win n = some m → ∀ g ∈ m.win.groups, ∀ f, W.get g = .ok f →
    lower (dotted g) = lower f.label
  ownName : ∀ n ∈ q.metrics ++ q.havingNames, ∀ n' ∈ q.metrics ++ q.havingNames, ∀ m m', W.win n = some m → W.win n' = some m' →
    m.cteAlias = m'.cteAlias → m = m'
  caseless : ∀ d ∈ q.dimensions, W.get (lower d) = W.get d
  unused : ∀ n ∈ q.metrics ++ q.havingNames, ∀ m, W.win n = some m → (∀ i, q.fieldOf i ≠ m.view ++ "." ++ m.win.temp) ∧
    ∀ g, SplitsWindow W q m.win g → lower g ≠ m.view ++ "." ++ m.win.temp ∧ g ≠ m.view ++ "." ++ m.win.temp
  filters : ∀ n ∈ q.metrics ++ q.havingNames, ∀ m, W.win n = some m → ∀ f ∈ m.filters, ∀ s, f.value ≠ some (.literal s)

end
end ML.Spec
