import Verif.MergePlan.Model
/-
What C35, C36 and C37 say about the sub-queries of a merged query.
-/
set_option autoImplicit false
namespace ML.Spec

/-- The name of the `n`-th join graph, join_graph.py 55-82. -/
def graphName (n : ℕ) : String := "subquery_" ++ toString n

/-- The date's name does not contain the word `subquery` and is not made of digits and underscores only. -/
structure PlainDate (date : String) : Prop where
  word : ¬ "subquery".toList <:+: (dotsToUnderscores date).toList
  letter : ∃ c ∈ date.toList, c ≠ '.' ∧ c ≠ '_' ∧ c.isDigit = false

/-- The metrics a merged query needs: the requested ones and those of HAVING that are not merged results, and what the
merged ones refer to. -/
def Needed (env : PlanEnv) (metrics having : List String) (f : PField) : Prop :=
  ∃ name ∈ metrics ++ having, ∃ m, env.getField name = .ok m ∧
    ((m.merged = false ∧ f = m) ∨ (m.merged = true ∧ some f ∈ env.refs m))

/-- The sub-query a metric belongs to: that of its canonical date and of the join graphs of that date. -/
def BelongsTo (env : PlanEnv) (f : PField) (key : String) : Prop :=
  ∃ c g, f.canon = some c ∧ joinHashKey env f = .ok g ∧ key = cteName c g

/-- A metric is computed in a sub-query. -/
def ComputedIn (q : List (String × List PField)) (f : PField) (key : String) : Prop :=
  ∃ l, (key, l) ∈ q ∧ ∃ g ∈ l, g.id = f.id

/-- A dimension as the join graph and the validation make them: no measure, a plain canonical date, at least one join graph. -/
structure PlainDimension (f : PField) : Prop where
  dim : f.measure = false
  date : ∀ c, f.canon = some c → PlainDate c
  graphs : ∃ ns : List ℕ, ns ≠ [] ∧ f.graphs.filter (fun j => !containsSub "merged_result".toList j.toList) = ns.map graphName

/-- What the join graph and the validation ensure: ids identify fields, metrics are measures whose date is a dimension, dimensions
are plain. -/
structure PlainQuery (env : PlanEnv) (metrics having dimensions : List String) : Prop where
  ids : ∀ f g, Needed env metrics having f → Needed env metrics having g → f.id = g.id → f = g
  names : ∀ n m f g, env.getField n = .ok f → env.getField m = .ok g → f.id = g.id → f = g
  measure : ∀ f, Needed env metrics having f → f.measure = true ∧ f.canon ≠ some "" ∧
    ∀ c b, f.canon = some c → env.getFieldByName c = .ok b → b.measure = false
  dims : ∀ d ∈ dimensions, ∀ f, env.getField d = .ok f → PlainDimension f

/-- The metrics of the query have at least two canonical dates. -/
def TwoDates (env : PlanEnv) (metrics having : List String) : Prop :=
  ∃ f g, Needed env metrics having f ∧ Needed env metrics having g ∧ f.canon ≠ g.canon

/-- The sub-query's name was built from the join graph `g`. -/
def BuiltFrom (h : String) (g : String) : Prop :=
  ∃ (date : String) (ns : List ℕ) (n : ℕ), PlainDate date ∧ h = cteName date (underscoreJoin (ns.map graphName)) ∧ n ∈ ns ∧ g = graphName n

/-- The field `x` computed in the sub-query `h` comes from the dimension `f`: it is `f`, which can be joined there or whose own
sub-query it is; or, for a canonical date, the same group of the sub-query's date; or a mapping of the model leads to it. -/
def ComesFrom (env : PlanEnv) (Date : String → Prop) (InGraphs : String → String → Prop) (h : String) (f x : PField) : Prop :=
  (x = f ∧ ((∃ g ∈ f.graphs, InGraphs h g) ∨ ∃ c g, (c = f.key ∨ f.canon = some c) ∧ joinHashKey env f = .ok g ∧ h = cteName c g)) ∨
  (Date f.key ∧ ∃ base, Date base ∧ base ≠ f.key ∧ (∃ b g, env.getFieldByName base = .ok b ∧ joinHashKey env b = .ok g ∧ h = cteName base g) ∧
    env.getField (base ++ "_" ++ f.group.getD "None") = .ok x) ∨
  (∃ d ∈ env.mappings, d.key = f.key ∧ ∃ m ∈ d.refs,
    (env.getField m.field = .ok x ∨ env.getField (m.field ++ "_" ++ f.group.getD "None") = .ok x) ∧
    (InGraphs h m.toHash ∨ ∃ c, x.canon = some c ∧ h = cteName c m.toHash))

/-- The canonical dates of the metrics a query needs. -/
def MetricDate (env : PlanEnv) (metrics having : List String) (c : String) : Prop :=
  ∃ f, Needed env metrics having f ∧ f.canon = some c

/-- The canonical dates of the metrics a query needs and of its dimensions. -/
def QueryDate (env : PlanEnv) (metrics having dimensions : List String) (c : String) : Prop :=
  MetricDate env metrics having c ∨ ∃ d ∈ dimensions, ∃ f, env.getField d = .ok f ∧ f.canon = some c

/-- `base` (without a dimension group) stands for the field `f` in the sub-query `h`: both are canonical dates and `h` is the
sub-query of `base`, or a mapping of the model leads from `f` to `base`, whose join graph is one of the sub-query's. -/
def StandsFor (env : PlanEnv) (Date : String → Prop) (h : String) (f : PField) (base : String) : Prop :=
  (Date f.key ∧ Date base ∧ base ≠ f.key ∧ ∃ b g, env.getFieldByName base = .ok b ∧ joinHashKey env b = .ok g ∧ h = cteName base g) ∨
  (∃ d ∈ env.mappings, d.key = f.key ∧ ∃ m ∈ d.refs, m.field = base ∧ hashContains h [m.toHash] = true)

/-- `g` is the field that stands for `f`: for a date, the same dimension group of `base`. -/
def IsVersion (env : PlanEnv) (f : PField) (base : String) (g : PField) : Prop :=
  env.getField (match f.group with | none => base | some x => base ++ "_" ++ x) = .ok g

/-- A date whose name has no two underscores in a row and none at its end. -/
def TidyDate (date : String) : Prop :=
  ¬ "__".toList <:+: (dotsToUnderscores date).toList ∧ (dotsToUnderscores date).toList.getLast? ≠ some '_'

/-- The sub-query `h`, whose metrics and those of the other sub-queries are `ms`, can filter on the field `f` directly: `f` is
not a canonical date and its join graph is one of the sub-query's, or `f` is the canonical date of the sub-query. -/
def Fits (env : PlanEnv) (ms : List PField) (h : String) (f : PField) : Prop :=
  ((∀ m ∈ ms, m.canon ≠ some f.key) ∧ ∃ (date : String) (ns : List ℕ) (n : ℕ), TidyDate date ∧ h = cteName date (underscoreJoin (ns.map graphName)) ∧ n ∈ ns ∧
    joinHashKey env f = .ok (graphName n)) ∨
  ((∃ m ∈ ms, m.canon = some f.key) ∧ '.' ∉ f.view.toList ∧ '.' ∉ f.name.toList ∧ ∃ g, joinHashKey env f = .ok g ∧ h = cteName f.key g)

/-- The same groups, the same comparisons, on fields related by `R`. -/
inductive Rewritten (R : String → String → Prop) : MWhere → MWhere → Prop
  | cond (field field' rest : String) : R field field' → Rewritten R (.cond field rest) (.cond field' rest)
  | group (rest : String) (cs ds : List MWhere) : List.Forall₂ (Rewritten R) cs ds → Rewritten R (.group rest cs) (.group rest ds)

/-- How one comparison reaches the sub-query `h`: where its field can be used it stays, and otherwise it stays or is made on a
field that stands for it. -/
def Reaches (env : PlanEnv) (Date : String → Prop) (ms : List PField) (h : String) (field field' : String) : Prop :=
  ∃ f, env.getField field = .ok f ∧ (Fits env ms h f → field' = field) ∧
    (field' = field ∨ ∃ base x, StandsFor env Date h f base ∧ IsVersion env f base x ∧ field' = x.id)

/-- The comparison is not left on a field that the sub-query cannot use when another stands for it there. -/
def Mapped (env : PlanEnv) (Date Date' : String → Prop) (ms : List PField) (h : String) (field field' : String) : Prop :=
  ∃ f, env.getField field = .ok f ∧ (¬ Fits env ms h f → (∃ base, StandsFor env Date h f base) →
    ∃ base x, StandsFor env Date' h f base ∧ IsVersion env f base x ∧ field' = x.id)

mutual
/-- Only comparisons and groups, no SQL text. -/
def Structured : MWhere → Prop
  | .cond _ _ => True
  | .group _ cs => StructuredList cs
  | .literal _ => False
  | .null => False

/-- All of them have only comparisons and groups. -/
def StructuredList : List MWhere → Prop
  | [] => True
  | c :: cs => Structured c ∧ StructuredList cs
end

end ML.Spec
