import Verif.FunnelTable.Model
import Verif.Answer.Spec
import Verif.Funnel.Spec
import Verif.SymAgg.Spec
/-
What the user of a funnel query relies on: for each step the metrics over the events by which persons reach it (C38).
-/
set_option autoImplicit false
namespace ML.Spec

section
variable {ρ : Type}

/-- The row passes the access filters of the query's views and all filters of the query. -/
def FunnelPasses (D : Db ρ) (P : AnsProject) (w : Warehouse) (views : List String) (q : FunnelQuestion) (r : ρ) : Prop :=
  (∀ i ∈ P.access views, compared D P w (P.fpk views) q.fieldOf [r] i = .t) ∧
  ∀ v ∈ meanings (compared D P w (P.fpk views) q.fieldOf [r]) q.wheres, v = .t

/-- The events of a funnel as its author sees them: of each row the person and the date; a row satisfies a step when all its comparisons are true of the fields they name. -/
def funnelEvents (D : Db ρ) (get : String → Res AnsField) (fieldOf : Nat → String) (date person : AnsField) (diff : String → ℚ → ℚ → Option ℤ) (events : List ρ) :
    FunnelData (List Nat) ρ ℚ ℚ where
  events := events
  person r := rawValueOf D.engine person r
  time r := rawValueOf D.engine date r
  holds cs r := cs.all (fun i => match get (fieldOf i) with
    | .ok f => decide (D.test i (rawValueOf D.engine f r) = .t)
    | .error _ => false)
  diff := diff

/-- An event by which its person reaches step `n`: the last of a chain of `n` events. -/
def EndsChain (d : FunnelData (List Nat) ρ ℚ ℚ) (unit : String) (value : ℤ) (steps : List (List Nat)) (n : ℕ) (e : ρ) : Prop :=
  ∃ c, c.length = n ∧ FunnelChain d unit value steps c ∧ c.getLast? = some e

/-- The value of a metric over a set of events: the true value of its type over the rows of its own view behind them, each once (the key of its view tells them apart). -/
def MetricOver (E : Engine ρ) (key f : AnsField) (t : MeasureType) (G : List ρ) (v : Val) : Prop :=
  ∃ reps, OnePerKey (rawValueOf E key) G reps ∧ SameValue v (trueValue t (values (rawValueOf E f) reps))

/-- The lines of a step: one for each combination of dimension values that occurs on an event by which the step is reached, with the metrics over exactly those events. -/
structure IsFunnelTable (events : List ρ) (ends : ρ → Prop) (dims : ρ → List Val) (metrics : List ρ → List Val → Prop) (n : Nat) (lines : List (List Val)) : Prop where
  sound : ∀ l ∈ lines, ∃ k G vs, G ≠ [] ∧ Behind ends dims events k G ∧ vs.length = n ∧ metrics G vs ∧ l = vs ++ k
  complete : ∀ r ∈ events, ends r → ∃ vs, vs.length = n ∧ vs ++ dims r ∈ lines
  once : (lines.map (List.drop n)).Nodup

/-- The rows of each metric's view can be told apart and summed: rows with one key are copies of one row, the hash does not collide, values have six decimals, and a count of the
key is one of the key's column. -/
structure Countable (E : Engine ρ) (rows : List ρ) (key f : AnsField) (m : Measure) : Prop where
  own : OwnValue (rawValueOf E key) (rawValueOf E f) rows
  apart : NoCollision E.hash (rawValueOf E key) (rawValueOf E f) rows
  six : SixDecimals (rawValueOf E f) rows
  count : m.primaryKeyCount = true → ∀ r ∈ rows, rawValueOf E f r = rawValueOf E key r

/-- The lines the conditions let through: each is true of the column of its field. -/
def FunnelKept (D : Db ρ) (get : String → Res AnsField) (having : List (String × Nat)) (columns : List AnsField) (l : Nat × List Val) : Prop :=
  ∀ h ∈ having, ∃ (j : ℕ) (f : AnsField), columns[j]? = some f ∧ get h.1 = .ok f ∧ D.test h.2 (l.2[j]?).join = .t

/-- The lines of all steps, each with the number of its step. -/
def stepLines (tables : List (List (List Val))) : List (Nat × List Val) := tables.zipIdx.flatMap (fun t => t.1.map (fun l => (t.2 + 1, l)))

/-- `kept` are the lines for which `ok` holds, each as often as it occurs, in any order. -/
def KeptLines (ok : Nat × List Val → Prop) (lines kept : List (Nat × List Val)) : Prop :=
  ∃ p : Nat × List Val → Bool, (∀ l ∈ lines, p l = true ↔ ok l) ∧ kept.Perm (lines.filter p)

/-- What the limit asks for: the first lines, at most so many. -/
def FunnelLimited (limit : Option Nat) (lines out : List (Nat × List Val)) : Prop :=
  match limit with
  | none => out = lines
  | some n => out <+: lines ∧ out.length = min n lines.length

/-- The metrics of a line over its events: each of its type, with the key of its view. -/
def LineMetrics (E : Engine ρ) (P : FunnelProject) (ms : List AnsField) (G : List ρ) (vs : List Val) : Prop :=
  List.Forall₂ (fun f v => ∃ m key, f.sql = .measure m ∧ P.viewKey f.view = some key ∧ MetricOver E key f m.type G v) ms vs

/-- The fields a funnel query may come across: those of the query's clauses, those of the project, and keys. -/
def FunnelField (P : FunnelProject) (q : FunnelQuestion) (f : AnsField) : Prop := f ∈ q.lookup ∨ (∃ n, P.get n = .ok f) ∨ ∃ v, P.viewKey v = some f

/-- The views the base query's FROM is built for: those of the query's own fields, the dimensions, the date, the customer, the fields of the steps, the metrics and their keys. -/
def FunnelViews (P : FunnelProject) (q : FunnelQuestion) (date person : AnsField) (views : List String) : Prop :=
  views.Nodup ∧ ∀ v, v ∈ views ↔ ∃ f, f.view = v ∧ (f ∈ q.lookup ∨ f = date ∨ f = person ∨
    (∃ n ∈ q.dimensions ++ q.steps.flatten.map q.fieldOf ++ q.metrics ++ q.having.map Prod.fst, P.get n = .ok f) ∨
    ∃ n ∈ q.metrics ++ q.having.map Prod.fst, ∃ m, P.get n = .ok m ∧ P.viewKey m.view = some f)

/-- What the theorems assume of the project and the question: columns tell fields apart, keys are dimensions of the project, dimensions and metrics are what they are requested as,
filters are documented ones, no metric is a median, and the distinct key of a metric is the key of its view. -/
structure FunnelProper (P : FunnelProject) (q : FunnelQuestion) (ds ms : List AnsField) : Prop where
  labels : LabelsDiffer P.toAnsProject
  keys : ∀ v k, P.viewKey v = some k → (∃ n, P.get n = .ok k) ∧ ∃ s, k.sql = .dimension s
  dims : Names P.toAnsProject q.dimensions ds
  metrics : Names P.toAnsProject (q.metrics ++ (q.having.map Prod.fst).dedup) ms
  dimension : ∀ d ∈ ds, ∃ s, d.sql = .dimension s
  measure : ∀ f ∈ ms, ∃ m, f.sql = .measure m ∧ m.type ≠ .median
  distinct : ∀ f ∈ ms, ∀ k, P.viewKey f.view = some k → P.distinctAlias f = k.label
  wheres : WellFormedFilters q.wheres
  ids : ∀ f g, FunnelField P q f → FunnelField P q g → f.view ++ "." ++ f.name = g.view ++ "." ++ g.name → f.view = g.view

end
end ML.Spec
