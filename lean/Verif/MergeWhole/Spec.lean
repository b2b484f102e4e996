import Verif.MergeWhole.Model
import Verif.MergePlan.Spec
import Verif.MergePlan.PropsDates
/-
What the user of a merged query relies on: its sub-queries fit together (C78).
-/
set_option autoImplicit false
namespace ML.Spec

/-- The sub-queries of a merged query: one for each canonical date of its metrics. -/
def SubQuery (env : PlanEnv) (metrics having : List String) (h : String) : Prop :=
  ∃ c, MetricDate env metrics having c ∧ DateQuery env c h

/-- The dimension can be joined in the sub-query. -/
def JoinsIn (h : String) (f : PField) : Prop := ∃ g ∈ f.graphs, BuiltFrom h g

/-- A mapping of the model leads from the dimension to `x`, which can be joined in the sub-query. -/
def MapsIn (env : PlanEnv) (h : String) (f x : PField) : Prop :=
  ∃ d ∈ env.mappings, d.key = f.key ∧ ∃ m ∈ d.refs, env.getField m.field = .ok x ∧ BuiltFrom h m.toHash

/-- `x` is what the sub-query `h` must compute for the dimension `f`: for a canonical date, the same dimension group of the sub-query's own
date; otherwise `f` where it can be joined, and elsewhere what the model maps it to. -/
def Counterpart (env : PlanEnv) (metrics having : List String) (h : String) (f x : PField) : Prop :=
  (MetricDate env metrics having f.key ∧
    ((DateQuery env f.key h ∧ x = f) ∨
      ∃ c, MetricDate env metrics having c ∧ c ≠ f.key ∧ DateQuery env c h ∧ env.getField (c ++ "_" ++ f.group.getD "None") = .ok x)) ∨
  (¬ MetricDate env metrics having f.key ∧ ((JoinsIn h f ∧ x = f) ∨ (¬ JoinsIn h f ∧ MapsIn env h f x)))

/-- What the project must be like: the dates have plain names and sub-queries of their own, there are fewer than ten join graphs, no mapping
is about a canonical date; each other dimension can be joined to one of the metrics, and where it cannot be joined the model maps it
to one field. -/
structure TidyQuery (env : PlanEnv) (metrics having dimensions : List String) : Prop where
  near : ∀ d ∈ dimensions, ∀ f c, env.getField d = .ok f → f.canon = some c →
    MetricDate env metrics having c ∨ ∃ m, OwnDate env metrics having m ∧ ShareGraph f m
  names : ∀ c h, MetricDate env metrics having c → DateQuery env c h →
    PlainDate c ∧ ∃ ns : List ℕ, h = cteName c (underscoreJoin (ns.map graphName)) ∧ ∀ n ∈ ns, n < 10
  apart : ∀ c c' h, MetricDate env metrics having c → MetricDate env metrics having c' → DateQuery env c h → DateQuery env c' h → c = c'
  dates : ∀ d ∈ dimensions, ∀ f, env.getField d = .ok f → MetricDate env metrics having f.key →
    (∀ m ∈ env.mappings, m.key ≠ f.key) ∧ ∀ b, env.getFieldByName f.key = .ok b → joinHashKey env b = joinHashKey env f
  others : ∀ d ∈ dimensions, ∀ f, env.getField d = .ok f → ¬ MetricDate env metrics having f.key →
    (∃ h, SubQuery env metrics having h ∧ JoinsIn h f) ∧
    ∀ h, SubQuery env metrics having h → ¬ JoinsIn h f → ∃ x, ∀ y, MapsIn env h f y ↔ y = x
  maps : ∀ d ∈ env.mappings, ¬ SubQuery env metrics having d.fromHash ∧ ∀ m ∈ d.refs, ∃ n, n < 10 ∧ m.toHash = graphName n

/-- The dimensions are different ones in each sub-query. -/
def DimensionsDiffer (env : PlanEnv) (metrics having dimensions : List String) : Prop :=
  ∀ h, SubQuery env metrics having h → dimensions.Pairwise (fun d d' => ∀ f f' x x', env.getField d = .ok f → env.getField d' = .ok f' →
    Counterpart env metrics having h f x → Counterpart env metrics having h f' x' → x.id ≠ x'.id)

/-- `x` is computed in the sub-query `h` for one of the dimensions of the query. -/
def DimensionOf (env : PlanEnv) (metrics having dimensions : List String) (h : String) (x : PField) : Prop :=
  ∃ d ∈ dimensions, ∃ f, env.getField d = .ok f ∧ Counterpart env metrics having h f x

/-- The dimension can be joined in all sub-queries, and the model does not map it to any of them. -/
structure JoinedEverywhere (env : PlanEnv) (metrics having : List String) (f : PField) : Prop where
  joins : ∀ h, SubQuery env metrics having h → JoinsIn h f
  unmapped : ∀ d ∈ env.mappings, d.key = f.key → ∀ m ∈ d.refs, ∀ h, SubQuery env metrics having h → ¬ BuiltFrom h m.toHash

/-- The model maps the field of each sub-query to those of all the others, and to nothing else there. -/
structure MappedEachWay (env : PlanEnv) (metrics having : List String) (f : PField) : Prop where
  plain : ∀ h x, SubQuery env metrics having h → Counterpart env metrics having h f x → ¬ MetricDate env metrics having x.key ∧ x.group = none
  all : ∀ h h' x, SubQuery env metrics having h → SubQuery env metrics having h' → h ≠ h' → Counterpart env metrics having h f x →
    ∃ d ∈ env.mappings, d.key = x.key ∧ ∃ m ∈ d.refs, BuiltFrom h' m.toHash
  only : ∀ h x, SubQuery env metrics having h → Counterpart env metrics having h f x → ∀ d ∈ env.mappings, d.key = x.key → ∀ m ∈ d.refs,
    ∀ h', SubQuery env metrics having h' → BuiltFrom h' m.toHash → h' ≠ h ∧ ∃ x', Counterpart env metrics having h' f x' ∧ m.field = x'.id

/-- The dimensions of the query: each is a dimension group of a canonical date, whose names are regular, or can be joined everywhere, or is
mapped each way. -/
structure FitsTogether (env : PlanEnv) (metrics having dimensions : List String) : Prop where
  dates : ∀ c g x, MetricDate env metrics having c → env.getField (c ++ "_" ++ g) = .ok x → x.key = c ∧ x.group = some g
  grouped : ∀ d ∈ dimensions, ∀ f, env.getField d = .ok f → MetricDate env metrics having f.key → f.group ≠ none
  unmapped : ∀ m ∈ env.mappings, ¬ MetricDate env metrics having m.key
  others : ∀ d ∈ dimensions, ∀ f, env.getField d = .ok f → ¬ MetricDate env metrics having f.key →
    JoinedEverywhere env metrics having f ∨ MappedEachWay env metrics having f

/-- How the statement reads the fields: a dimension by its view, name and group (it is no duration), and different fields have
different columns. -/
structure ColumnsApart (env : PlanEnv) (metrics having dimensions : List String) (dim : PField → MDim) (column : PField → String) : Prop where
  reads : ∀ h x, SubQuery env metrics having h → DimensionOf env metrics having dimensions h x →
    (dim x).view = x.view ∧ (dim x).name = x.name ∧ (dim x).group = x.group ∧ (dim x).duration = false ∧ (dim x).id = x.id
  noDots : ∀ h x, SubQuery env metrics having h → DimensionOf env metrics having dimensions h x →
    '.' ∉ (dim x).view.toList ∧ '.' ∉ (dim x).short.toList
  dims : ∀ h h' x x', SubQuery env metrics having h → SubQuery env metrics having h' → DimensionOf env metrics having dimensions h x →
    DimensionOf env metrics having dimensions h' x' → (dim x).column = (dim x').column → x = x'
  columns : ∀ f g, Needed env metrics having f → Needed env metrics having g → column f = column g → f = g
  apart : ∀ h x f, SubQuery env metrics having h → DimensionOf env metrics having dimensions h x → Needed env metrics having f →
    (dim x).column ≠ column f

end ML.Spec
