import Verif.Design.Model
import Mathlib.Data.List.Dedup
/-
Model of how a query picks its model and whether it is answered as one joined query or as a merge:
`metrics_layer/core/sql/resolve.py` 57-125 and 408-458, `model/field.py` 390-406 and the order of
the steps of `sql/single_query_resolve.py` 24-93.
-/
set_option autoImplicit false
namespace ML

/-! ### Single query or merge (C40) -/

/-- What `is_merged_result`, field.py 396-404, looks at in one referenced field: `none` for a
reference that stayed a string, otherwise whether it is a measure, whether its type is
`cumulative`, and its `canon_date`. -/
structure RefInfo where
  isMeasure : Bool
  isCumulative : Bool
  canonDate : Option String
deriving DecidableEq, Repr

/-- The parts of a metric read by `is_merged_result`, field.py 390-406: the declared
`is_merged_result`, whether it is a measure of type `number`, and its referenced fields. -/
structure MetricInfo where
  declared : Option Bool
  isNumberMeasure : Bool
  refs : List (Option RefInfo)
deriving DecidableEq, Repr

/-- The `canon_date`s collected by the loop of field.py 397-404. -/
def metricRefDates (refs : List (Option RefInfo)) : List (Option String) :=
  refs.filterMap fun r => match r with
    | none => none
    | some i => if i.isMeasure && !i.isCumulative then some i.canonDate else none

/-- `Field.is_merged_result`, field.py 390-406. `set()` is `dedup`. -/
def MetricInfo.merged (m : MetricInfo) : Bool :=
  match m.declared with
  | some b => b
  | none => if m.isNumberMeasure then decide ((metricRefDates m.refs).dedup.length > 1) else false

/-- `any(get_field(m).is_merged_result for m in metrics)`, resolve.py 59: stops at the first metric
that is merged; a metric that cannot be found raises. -/
def anyMerged (lookup : String → Res MetricInfo) : List String → Res Bool
  | [] => .ok false
  | m :: ms => match lookup m with
    | .error e => .error e
    | .ok i => if i.merged then .ok true else anyMerged lookup ms

/-- What decides the kind of the query: the metrics, the keyword arguments `merged_result` and
`single_query`, and `mapping_forces_merged_result` (set while resolving mapped dates, resolve.py
171-177). -/
structure KindArgs where
  metrics : List String
  mergedResult : Bool
  singleQuery : Bool
  mappingForces : Bool
deriving DecidableEq, Repr

/-- `SQLQueryResolver.is_merged_result`, resolve.py 57-61. -/
def isMergedResult (lookup : String → Res MetricInfo) (k : KindArgs) : Res Bool :=
  match anyMerged lookup k.metrics with
  | .error e => .error e
  | .ok b => .ok (b || k.mergedResult || k.mappingForces)

/-- The kind recorded in `query_kind`, resolve.py 68 and 77. -/
inductive QKind where
  | single | merged
deriving DecidableEq, Repr

/-- `SQLQueryResolver.get_query`, resolve.py 63-92. `single` and `merged` are what
`_get_single_query` and `_get_merged_result_query` do. The result carries the kind that was used
last. The rewriting of the error message (83-92) does not change the class of the error. -/
def chooseQuery {α : Type} (lookup : String → Res MetricInfo) (k : KindArgs)
    (single merged : Res α) : Res (QKind × α) :=
  match isMergedResult lookup k with
  | .error e => .error e
  | .ok true => merged.map (fun q => (.merged, q))
  | .ok false => match single with
    | .ok q => .ok (.single, q)
    | .error .join => if k.singleQuery then .error .join else merged.map (fun q => (.merged, q))
    | .error e => .error e

/-- `_get_single_query`, resolve.py 94-107 with single_query_resolve.py 24-93, as the order of its
steps: the input is parsed (`prepare`, which yields the required views), then the joins are
designed (`joins`, query_design.py 39-52, the only place that raises JoinError), then the SQL is
generated (`generate`). -/
def singleQuery {α : Type} (nx : Nx) (g : Graph) (bridges : List String)
    (prepare : Res (List String)) (generate : List Pair → Res α) : Res α :=
  match prepare with
  | .error e => .error e
  | .ok req => match designJoins nx g bridges req with
    | .error e => .error e
    | .ok js => generate js

/-! ### The model of a query (C48) -/

/-- What `_derive_model` asks of the project: the names of its models, the `model_name` of the view
of a field (an error when the field cannot be found or is ambiguous), and whether asking a model
for a mapping raises. `get_mapped_field`, project.py 508-513, returns `None` for a name that is not
a mapping, so it raises only when the mappings of the model cannot be computed. -/
structure ModelEnv where
  models : List String
  fieldModel : String → Res (Option String)
  mappingRaises : String → Bool

/-- `Project.get_model`, project.py: the first model with the name, else
AccessDeniedOrDoesNotExistException. -/
def getModel (models : List String) (name : Option String) : Res String :=
  match models.find? (fun m => some m == name) with
  | some m => .ok m
  | none => .error .accessDenied

/-- The loop of `_derive_model`, resolve.py 429-440: the model names of the fields that are found,
and the names of the models asked for a mapping. -/
def modelNames (env : ModelEnv) : List String → List (Option String) × List String
  | [] => ([], [])
  | f :: fs =>
    let rest := modelNames env fs
    match env.fieldModel f with
    | .ok m => (m :: rest.1, rest.2)
    | .error _ => (rest.1, env.models.filter (fun m => !env.mappingRaises m) ++ rest.2)

/-- `Counter(l).most_common()[0]`, resolve.py 446-448: the first of the most frequent elements
(`best` is the best one so far). -/
def mostCommonGo (l : List String) : String → List String → String
  | best, [] => best
  | best, x :: xs => if l.count x > l.count best then mostCommonGo l x xs else mostCommonGo l best xs

/-- `_derive_model`, resolve.py 426-458. -/
def deriveModel (env : ModelEnv) (fields : List String) : Res String :=
  let names := modelNames env fields
  match names.1.dedup, names.2 with
  | [], x :: xs => getModel env.models (some (mostCommonGo (x :: xs) x xs))
  | [m], maps =>
    if maps.isEmpty || maps.any (fun x => some x == m) then getModel env.models m
    else .error .query
  | _, _ => .error .query

/-- `_get_model_for_query`, resolve.py 408-424. An empty name counts as no name. -/
def modelForQuery (env : ModelEnv) (name : Option String) (metrics dimensions : List String) :
    Res String :=
  match name with
  | some n => if n = "" then pick else getModel env.models (some n)
  | none => pick
where
  /-- resolve.py 414-424. -/
  pick : Res String := match env.models with
    | [m] => .ok m
    | [] => .error .query
    | _ => deriveModel env (metrics ++ dimensions)

end ML
