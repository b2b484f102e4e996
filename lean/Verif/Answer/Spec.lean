import Verif.Answer.Model
import Mathlib.Data.List.Dedup
import Mathlib.Data.List.Forall2
/-
What the user of a query relies on, in terms of rows, fields and lines (C55, C56).
-/
set_option autoImplicit false
namespace ML.Spec

section
variable {ρ : Type}

/-- The value of a field over a group of rows: of a dimension, its value on the group's first row; of a measure, its aggregate over
the group (C21, C22). -/
def valueOf (E : Engine ρ) (w : Warehouse) (fpk : FunctionalPk) (f : AnsField) (G : List ρ) : Val :=
  match f.sql with
  | .dimension s => (G.head?).bind (fun r => E.value r s)
  | .measure m => match aggregateSql m w fpk with
    | .ok a => a.eval E G
    | .error _ => none

/-- The truth of comparison `i` over a group of rows: its test on the value of its field. (A query with a comparison whose field is unknown
or has no SQL is refused, `C55_comparisons`.) -/
def compared (D : Db ρ) (P : AnsProject) (w : Warehouse) (fpk : FunctionalPk) (fieldOf : Nat → String) (G : List ρ) (i : Nat) : TV :=
  match P.get (fieldOf i) with
  | .error _ => .u
  | .ok f => match f.sql with
    | .dimension _ => D.test i (valueOf D.engine w fpk f G)
    | .measure m => match aggregateSql m w fpk with
      | .ok _ => D.test i (valueOf D.engine w fpk f G)
      | .error _ => .u

/-- The row passes the access filters of the query's views and all filters of the query. -/
def PassesWhere (D : Db ρ) (P : AnsProject) (w : Warehouse) (views : List String) (q : Question) (r : ρ) : Prop :=
  (∀ i ∈ P.access views, compared D P w (P.fpk views) q.fieldOf [r] i = .t) ∧
  ∀ v ∈ meanings (compared D P w (P.fpk views) q.fieldOf [r]) q.wheres, v = .t

/-- The group passes all HAVING conditions of the query. -/
def PassesHaving (D : Db ρ) (P : AnsProject) (w : Warehouse) (views : List String) (q : Question) (G : List ρ) : Prop :=
  ∀ v ∈ meanings (compared D P w (P.fpk views) q.fieldOf G) q.havings, v = .t

/-- `G` is the list of the rows behind a line: exactly those that pass and have the values `k` of the dimensions, as often as they occur. -/
def Behind (pass : ρ → Prop) (dims : ρ → List Val) (rows : List ρ) (k : List Val) (G : List ρ) : Prop :=
  ∃ p : ρ → Bool, (∀ r ∈ rows, p r = true ↔ pass r ∧ dims r = k) ∧ G = rows.filter p

/-- `lines` is the table asked for: one line for each combination of dimension values that occurs on a row that passes and whose group
passes HAVING; the line has those values followed by the metrics over exactly the rows behind it. -/
structure IsTable (rows : List ρ) (pass : ρ → Prop) (dims : ρ → List Val) (metrics : List ρ → List Val)
    (passGroup : List ρ → Prop) (n : Nat) (lines : List (List Val)) : Prop where
  sound : ∀ l ∈ lines, ∃ k G, k.length = n ∧ G ≠ [] ∧ Behind pass dims rows k G ∧ passGroup G ∧ l = k ++ metrics G
  complete : ∀ r ∈ rows, pass r → ∃ G, Behind pass dims rows (dims r) G ∧ (passGroup G → dims r ++ metrics G ∈ lines)
  once : (lines.map (List.take n)).Nodup

/-- Value `x` comes before value `y` in the given direction. With `last`, NULLs come after all values; otherwise NULL counts as the
lowest value. -/
inductive Less (last : Bool) : Bool → Val → Val → Prop
  | asc (a b : ℚ) : a < b → Less last false (some a) (some b)
  | desc (a b : ℚ) : b < a → Less last true (some a) (some b)
  | nullAfter (d : Bool) (a : ℚ) : last = true ∨ d = true → Less last d (some a) none
  | nullBefore (a : ℚ) : last = false → Less last false none (some a)

/-- Line `x` comes before line `y`: by the first column in which they differ. A column is its position and whether it is
descending. -/
inductive Precedes (last : Bool) : List (Nat × Bool) → List Val → List Val → Prop
  | here (i : Nat) (d : Bool) (rest : List (Nat × Bool)) (x y : List Val) (a b : Val) :
      x[i]? = some a → y[i]? = some b → Less last d a b → Precedes last ((i, d) :: rest) x y
  | later (i : Nat) (d : Bool) (rest : List (Nat × Bool)) (x y : List Val) (a : Val) :
      x[i]? = some a → y[i]? = some a → Precedes last rest x y → Precedes last ((i, d) :: rest) x y

/-- The ordering without one being asked for, on the warehouses that order by default: the first metric descending, or the first
dimension ascending. -/
def defaultAsked (w : Warehouse) : List String → List String → List (String × Bool)
  | m :: _, _ => if w = .snowflake ∨ w = .redshift ∨ w = .duckDb then [(m, true)] else []
  | [], d :: _ => if w = .snowflake ∨ w = .redshift ∨ w = .duckDb then [(d, false)] else []
  | [], [] => []

/-- The ordering asked for: the fields of the list with their directions, or the default. -/
def askedOrder (w : Warehouse) (q : Question) : List (String × Bool) :=
  match q.order with
  | .json (x :: l) => (x :: l).map (fun c => (c.1, c.2.map lower == some "desc"))
  | _ => defaultAsked w q.metrics q.dimensions

/-- The columns of the lines that the ordering asked for refers to: the columns of its fields, with its directions. -/
def OrderColumns (P : AnsProject) (q : Question) (asked : List (String × Bool)) (cols : List (Nat × Bool)) : Prop :=
  List.Forall₂ (fun o c => c.2 = o.2 ∧ ∃ n, (q.dimensions ++ q.metrics)[c.1]? = some n ∧ P.get n = P.get o.1) asked cols

/-- The column names tell the fields apart. -/
def LabelsDiffer (P : AnsProject) : Prop := ∀ n m f g, P.get n = .ok f → P.get m = .ok g → f.label = g.label → f = g

/-- The warehouses on which the ordering is written with NULLS LAST. -/
def writesNullsLast (w : Warehouse) : Bool := w ≠ .druid && w ≠ .sqlServer && w ≠ .azureSynapse

/-- The names stand for these fields. -/
def Names (P : AnsProject) (ns : List String) (fs : List AnsField) : Prop := List.Forall₂ (fun n f => P.get n = .ok f) ns fs

/-- No dimension is requested that is the primary key of the first metric's view, or grouping is forced: the query groups. -/
def GroupsRows (q : Question) (ds ms : List AnsField) : Prop :=
  q.force = true ∨ ∀ m, ms.head? = some m → ∀ d ∈ ds, d.primaryKey = true → d.view ≠ m.view

/-- What the theorems assume of the question: dimensions and metrics are what they are requested as, filters are documented ones. -/
structure Proper (P : AnsProject) (q : Question) (ds ms : List AnsField) : Prop where
  dims : Names P q.dimensions ds
  metrics : Names P q.metrics ms
  dimension : ∀ d ∈ ds, ∃ s, d.sql = .dimension s
  measure : ∀ m ∈ ms, ∃ a, m.sql = .measure a
  wheres : WellFormedFilters q.wheres
  havings : WellFormedFilters q.havings

/-- The views the query's FROM is built for: those of its metrics, dimensions and named fields of its clauses. -/
def QueryViews (P : AnsProject) (q : Question) (views : List String) : Prop :=
  ∃ fs, Names P (q.metrics ++ q.dimensions ++ q.whereNames ++ q.havingNames ++ q.orderNames) fs ∧ views.Nodup ∧
    ∀ v, v ∈ views ↔ ∃ f ∈ fs, f.view = v

/-- What the limit asks for: the first lines, at most so many. -/
def Limited (limit : Option Nat) (lines out : List (List Val)) : Prop :=
  match limit with
  | none => out = lines
  | some n => out <+: lines ∧ out.length = min n lines.length

/-- The lines are in the order asked for: no line comes after one that should follow it. -/
def InOrder (P : AnsProject) (w : Warehouse) (q : Question) (lines : List (List Val)) : Prop :=
  ∃ cols, OrderColumns P q (askedOrder w q) cols ∧ lines.Pairwise (fun x y => ¬ Precedes (writesNullsLast w) cols y x)

/-- The value a query that does not group shows of a field on a row: the dimension, or the measure's column before aggregation. -/
def rawValueOf (E : Engine ρ) (f : AnsField) (r : ρ) : Val :=
  match f.sql with
  | .dimension s => E.value r s
  | .measure m => E.value r m.sql

/-- The entity of the row passes the group filter: its value is not NULL, and the comparison holds for the measure over exactly the
rows of that entity in the FROM of the two fields' views that the access filters let through. Filters of the query play no part. -/
def EntityPasses (D : Db ρ) (P : AnsProject) (w : Warehouse) (q : Question) (g : GroupFilter) (d : AnsField) (views : List String) (r : ρ) :
    Prop :=
  ∃ v G, valueOf D.engine w (P.fpk views) d [r] = some v ∧ G ≠ [] ∧
    Behind (fun x => ∀ i ∈ P.access views, compared D P w (P.fpk views) (cteQuestion q g).fieldOf [x] i = .t)
      (fun x => [valueOf D.engine w (P.fpk views) d [x]]) (D.rows views) [some v] G ∧
    compared D P w (P.fpk views) (cteQuestion q g).fieldOf G g.comparison = .t

end
end ML.Spec
