import Verif.Usable.Model
import Verif.JoinGraph.Spec
/-
Specification vocabulary for C58 and C59: what a field needs, what its SQL mentions, which graph
names a field is listed under, and what the graph of merged results links.
-/
set_option autoImplicit false
namespace ML.Spec

/-- The names in `${...}` of the SQL of a field: of its text, or of the two texts of a duration. -/
def sqlNamesOf (f : UField) : List String :=
  match f.sql, f.sqlStart, f.sqlEnd with
  | some s, _, _ => s.names
  | none, some s, some t => s.names ++ t.names
  | none, _, _ => []

/-- The SQL of `f` has a reference that leads to the field `g`. -/
def RefersTo (get : UGet) (f g : UField) : Prop :=
  ∃ n ∈ sqlNamesOf f, n ≠ "TABLE" ∧ get f.view n = .ok g

/-- The SQL of a field, written out in full, reads the view. -/
inductive Needs (get : UGet) : UField → String → Prop
  | own (f : UField) : Needs get f f.view
  | ref {f g : UField} {w : String} : RefersTo get f g → Needs get g w → Needs get f w

/-- The SQL of a field mentions another field, directly or in the SQL of fields of type number it mentions. -/
inductive Mentions (get : UGet) : UField → UField → Prop
  | direct {f g : UField} : RefersTo get f g → g.type ≠ "number" → Mentions get f g
  | through {f g h : UField} : RefersTo get f g → g.type = "number" → Mentions get g h → Mentions get f h

/-- A field as validation wants it: a duration has no `sql` and both ends, another field does not have both ends, and no text
is a template. -/
structure Formed (f : UField) : Prop where
  duration : f.type = "duration" → f.sql = none
  other : f.type ≠ "duration" → f.sqlStart = none ∨ f.sqlEnd = none
  plain : ∀ s, f.sql = some s → s.template = false

/-- The view is the field's own or that of a field its SQL mentions. -/
def CountedView (get : UGet) (f : UField) (w : String) : Prop :=
  w = f.view ∨ ∃ h, Mentions get f h ∧ h.view = w

/-- Some view of the join graph called `n` reaches all the views of `p`. -/
def ServedBy (g : Graph) (comps : List (List String)) (n : String) (p : String → Prop) : Prop :=
  ∃ u, joinGraphHash comps u = .ok n ∧ ∀ w, p w → Reach g u w

/-- A metric with a date of its own that exists, and a timeframe of that date. -/
structure Dated (env : MEnv) (m : UField) (d : UDate) (t : String) : Prop where
  metric : m ∈ env.measures
  isMeasure : m.role = .measure
  found : ∃ c, m.canonDate = some c ∧ env.date c = .ok d
  offered : ∃ ts, d.timeframes = some ts ∧ t ∈ ts

/-- Both names are join graphs of metrics that have a date, in alphabetical order. -/
structure GraphPair (env : MEnv) (a b : String) : Prop where
  first : ∃ m ∈ env.measures, m.role = .measure ∧ m.canonDate ≠ none ∧ env.hash m.view = .ok a
  second : ∃ m ∈ env.measures, m.role = .measure ∧ m.canonDate ≠ none ∧ env.hash m.view = .ok b
  order : a < b

/-- A metric of one of the two join graphs has a date with this timeframe. -/
def PairDated (env : MEnv) (a b t : String) (m : UField) (d : UDate) : Prop :=
  Dated env m d t ∧ (env.hash m.view = .ok a ∨ env.hash m.view = .ok b)

/-- What a group of merged results called `root` contains. -/
inductive Linked (env : MEnv) (maps : List (String × MEntry)) : String → String → Prop
  /-- every metric with a date, under each timeframe of its date -/
  | metric {m d t} : Dated env m d t → Linked env maps ("canon_date_core" ++ "_" ++ t) m.id
  /-- and the date itself -/
  | date {m d t} : Dated env m d t → Linked env maps ("canon_date_core" ++ "_" ++ t) (d.view ++ "." ++ d.name ++ "_" ++ t)
  /-- the metrics of two join graphs, under each timeframe of their dates -/
  | pairMetric {a b m d t} : GraphPair env a b → PairDated env a b t m d →
      Linked env maps (a ++ "_" ++ b ++ "_" ++ t) m.id
  /-- and their dates -/
  | pairDate {a b m d t} : GraphPair env a b → PairDated env a b t m d →
      Linked env maps (a ++ "_" ++ b ++ "_" ++ t) (d.view ++ "." ++ d.name ++ "_" ++ t)
  /-- the fields of every view that can be joined to both -/
  | pairShared {a b m d t v i} : GraphPair env a b → PairDated env a b t m d → v ∈ env.views → i ∈ v.2 →
      a ∈ env.weak v.1 → b ∈ env.weak v.1 → Linked env maps (a ++ "_" ++ b ++ "_" ++ t) i
  /-- the fields that a mapping relates across, or within, the two -/
  | pairFrom {a b m d t e r i} : GraphPair env a b → PairDated env a b t m d → e ∈ maps → e.2.special = false → r ∈ e.2.refs →
      (e.2.graph = a ∨ e.2.graph = b) → (r.graph = a ∨ r.graph = b) → env.idOf e.1 = .ok i →
      Linked env maps (a ++ "_" ++ b ++ "_" ++ t) i
  | pairTo {a b m d t e r i} : GraphPair env a b → PairDated env a b t m d → e ∈ maps → e.2.special = false → r ∈ e.2.refs →
      (e.2.graph = a ∨ e.2.graph = b) → (r.graph = a ∨ r.graph = b) → env.idOf r.field = .ok i →
      Linked env maps (a ++ "_" ++ b ++ "_" ++ t) i

/-- The field `t` is an alternative to `f` in one of the mappings: both are listed in it, both are accessible, and they are
different names. -/
def Alternative (get : String → Res MField) (maps : List (Bool × List String)) (f t : String) : Prop :=
  f ≠ t ∧ ∃ m ∈ maps, f ∈ m.2 ∧ t ∈ m.2 ∧ (∃ x, get f = .ok x) ∧ ∃ y, get t = .ok y

/-- The field mentions a metric, not a cumulative one, whose date is in the view `v`. -/
def DatedIn (get : UGet) (f : UField) (v : String) : Prop :=
  ∃ h, Mentions get f h ∧ h.role = .measure ∧ h.type ≠ "cumulative" ∧
    ∃ d, h.canonDate = some (v ++ "." ++ d) ∧ '.' ∉ v.toList ∧ '.' ∉ d.toList

end ML.Spec
