import Verif.JoinGraph.Model
import Mathlib.Data.Nat.Notation
import Mathlib.Data.List.Dedup
/-
Which fields can be used together: the join graphs of a field.
`/repo/metrics_layer/core/model/field.py` 355-361, 408-441, 818-838, 2506-2548, 2688-2699 and 2749-2791,
`/repo/metrics_layer/core/model/join_graph.py` 193-300, `/repo/metrics_layer/core/model/model.py` 367-429 and
`/repo/metrics_layer/core/model/project.py` 490-498.
-/
set_option autoImplicit false
namespace ML

/-- `field_type`. field.py 352-353. -/
inductive FRole
  | dimension | group | measure
deriving DecidableEq, Repr

/-- What is read of a SQL text: the names in `${...}` (`fields_to_replace`, base.py 91-94) and whether it contains `{%`.
field.py 2507 and 2531. -/
structure SqlNames where
  names : List String
  template : Bool := false
deriving DecidableEq, Repr

/-- What is read of a field: its view, the name of a dimension group's timeframe or the plain name (`alias()`), its kind and
type, its SQL texts (`none` for a missing or an empty text), the measure a cumulative metric accumulates, its `canon_date` key, the
default date of its view and its `is_merged_result` key. field.py 140-182, 318-328, 355-361, 390-441. -/
structure UField where
  view : String
  alias_ : String
  role : FRole
  type : String
  sql : Option SqlNames
  sqlStart : Option SqlNames := none
  sqlEnd : Option SqlNames := none
  measure : Option String := none
  canonKey : Option String := none
  defaultDate : Option String := none
  mergedKey : Option Bool := none
deriving DecidableEq, Repr

/-- `Field.id()`, field.py 175-179. -/
def UField.id (f : UField) : String := f.view ++ "." ++ f.alias_

/-- `_add_view_name_if_needed`, field.py 2670-2673. -/
def qualifyRef (view name : String) : String := if '.' ∈ name.toList then name else view ++ "." ++ name

/-- `canon_date.replace("${", "").replace("}", "")`, field.py 437. -/
def dropBraces (s : String) : String :=
  String.ofList (replaceAll "}".toList [] (replaceAll "${".toList [] s.toList))

/-- `Field.canon_date`, field.py 434-441. An empty text is as good as none. -/
def UField.canonDate (f : UField) : Option String :=
  match f.canonKey with
  | some c => if c ≠ "" then some (qualifyRef f.view (dropBraces c)) else viewDate
  | none => viewDate
where
  /-- The default date of the view, field.py 439-441. -/
  viewDate : Option String := match f.defaultDate with
    | some d => if d ≠ "" then some (qualifyRef f.view d) else none
    | none => none

/-- An element of `referenced_fields`: a field, or the text of a reference that leads nowhere, or the missing measure of a cumulative
metric (`None`). field.py 2506-2548. -/
inductive URef
  | field (f : UField)
  | text (s : String)
  | nothing
deriving DecidableEq, Repr

/-- `get_field_with_view_info` on the view of the field and a name, field.py 2605-2614 with project.py 500-506. -/
abbrev UGet := String → String → Res UField

/-- The loop of `referenced_fields`, field.py 2526-2548; `deep` is `get_referenced_sql_query(strings_only=False)`. -/
def refsLoop (get : UGet) (deep : UField → Res (Option (List URef))) (view : String) : List String → Res (List URef)
  | [] => .ok []
  | n :: ns =>
    if n = "TABLE" then refsLoop get deep view ns
    else
      match get view n with
      | .error .accessDenied =>
        match refsLoop get deep view ns with
        | .error e => .error e
        | .ok rs => .ok (.text n :: rs)
      | .error e => .error e
      | .ok g =>
        if g.type = "number" then
          match deep g with
          | .error e => .error e
          | .ok r =>
            match refsLoop get deep view ns with
            | .error e => .error e
            | .ok rs => .ok (r.getD [] ++ rs)
        else
          match refsLoop get deep view ns with
          | .error e => .error e
          | .ok rs => .ok (.field g :: rs)

/-- The names of an optional text; `referenced_fields(None)` is empty, field.py 2528-2529. -/
def namesOf : Option SqlNames → List String
  | some s => s.names
  | none => []

/-- `get_referenced_sql_query(strings_only=False)`, field.py 2506-2522. The first argument bounds the depth of references: Python
raises RecursionError. -/
def fieldRefs (get : UGet) : ℕ → UField → Res (Option (List URef))
  | 0, _ => .error .recursion
  | n + 1, f =>
    if (f.sql.map (·.template)).getD false then .ok none
    else if f.type = "cumulative" then
      match f.measure with
      | none => .ok (some [.nothing])
      | some m =>
        match get f.view m with
        | .error e => .error e
        | .ok g => .ok (some [.field g])
    else if f.type = "duration" ∧ f.sqlStart.isSome = true ∧ f.sqlEnd.isSome = true then
      match refsLoop get (fieldRefs get n) f.view (namesOf f.sqlStart) with
      | .error e => .error e
      | .ok s =>
        match refsLoop get (fieldRefs get n) f.view (namesOf f.sqlEnd) with
        | .error e => .error e
        | .ok t => .ok (some (s ++ t))
    else
      match refsLoop get (fieldRefs get n) f.view (namesOf f.sql) with
      | .error e => .error e
      | .ok rs => .ok (some rs)

/-- `referenced_fields(self.sql)`, field.py 2524-2548. -/
def sqlRefs (get : UGet) (n : ℕ) (f : UField) : Res (List URef) :=
  refsLoop get (fieldRefs get n) f.view (namesOf f.sql)

/-- The loop of `_get_required_views_from_sql`, field.py 832-838. -/
def neededLoop (get : UGet) (deep : UField → Res (List String)) (view : String) : List String → Res (List String)
  | [] => .ok []
  | n :: ns =>
    if n = "TABLE" then neededLoop get deep view ns
    else
      match get view n with
      | .error e => .error e
      | .ok g =>
        match deep g with
        | .error e => .error e
        | .ok vs =>
          match neededLoop get deep view ns with
          | .error e => .error e
          | .ok ws => .ok (vs ++ ws)

/-- `required_views`, field.py 818-830, as a list without repetitions (Python: a set in any order). -/
def requiredViews (get : UGet) : ℕ → UField → Res (List String)
  | 0, _ => .error .recursion
  | n + 1, f =>
    match f.sql with
    | some s =>
      match neededLoop get (requiredViews get n) f.view s.names with
      | .error e => .error e
      | .ok vs => .ok (f.view :: vs).dedup
    | none =>
      match f.sqlStart, f.sqlEnd with
      | some s, some t =>
        match neededLoop get (requiredViews get n) f.view s.names with
        | .error e => .error e
        | .ok vs =>
          match neededLoop get (requiredViews get n) f.view t.names with
          | .error e => .error e
          | .ok ws => .ok (f.view :: (vs ++ ws)).dedup
      | _, _ => .ok [f.view]

/-- The views of the references that are fields, with the field's own view, field.py 2758-2765. -/
def countedViews (f : UField) : Option (List URef) → List String
  | none => [f.view]
  | some rs => f.view :: rs.filterMap (fun r => match r with
    | .field g => some g.view
    | _ => none)

/-- `is_cumulative`, field.py 2688-2699. -/
def isCumulative (get : UGet) (n : ℕ) (f : UField) : Res Bool :=
  match f.sql with
  | none => .ok (decide (f.type = "cumulative"))
  | some _ =>
    match sqlRefs get n f with
    | .error e => .error e
    | .ok rs => .ok (decide (f.type = "cumulative") || rs.any (fun r => match r with
      | .field g => decide (g.type = "cumulative")
      | _ => false))

/-- The sets of join graphs of the dates of the referenced measures, field.py 415-427. `canon_date.split(".")` must have two
parts. -/
def dateGraphs (weak : String → List String) : List URef → Res (List (List String))
  | [] => .ok []
  | .field g :: rs =>
    if g.role = .measure ∧ g.type ≠ "cumulative" then
      match g.canonDate with
      | none => dateGraphs weak rs
      | some d =>
        match splitChars '.' d.toList with
        | [v, _] =>
          match dateGraphs weak rs with
          | .error e => .error e
          | .ok r => .ok (weak (String.ofList v) :: r)
        | _ => .error .valueError
    else dateGraphs weak rs
  | _ :: rs => dateGraphs weak rs

/-- Python's `s == t` on sets. field.py 431. -/
def sameSet (s t : List String) : Bool := s.all (t.contains ·) && t.all (s.contains ·)

/-- `loses_join_ability_with_other_views`, field.py 408-433. -/
def losesJoins (get : UGet) (weak : String → List String) (n : ℕ) (f : UField) : Res Bool :=
  match f.mergedKey with
  | some b => .ok b
  | none =>
    if f.type = "number" ∧ f.role = .measure then
      match sqlRefs get n f with
      | .error e => .error e
      | .ok rs =>
        match dateGraphs weak rs with
        | .error e => .error e
        | .ok [] => .ok false
        | .ok (s :: ss) => .ok ((s :: ss).any (fun t => !sameSet t s))
    else .ok false

/-- The graphs every listed view can be used with: `set.intersection(*base_collection)`, field.py 2767-2775. -/
def baseGraphs (weak : String → List String) : List String → List String
  | [] => []
  | v :: vs => (weak v).filter (fun n => vs.all (fun w => (weak w).contains n))

/-- `Field.join_graphs`, field.py 2749-2785, for a view that has a model. `merged` is the list of names the merged results graph
gives for the field (`extended`); the order of the result (sorted, or that of a Python set) is not modelled, and neither is the cache. -/
def joinGraphs (get : UGet) (weak : String → List String) (merged : UField → List String) (n : ℕ) (f : UField) :
    Res (List String) :=
  match fieldRefs get n f with
  | .error e => .error e
  | .ok refs =>
    match isCumulative get n f with
    | .error e => .error e
    | .ok true => .ok (baseGraphs weak (countedViews f refs))
    | .ok false =>
      match losesJoins get weak n f with
      | .error e => .error e
      | .ok true => .ok (merged f)
      | .ok false => .ok (baseGraphs weak (countedViews f refs) ++ merged f)

/-- The join graphs of several fields, project.py 491-493. -/
def graphsOfAll (jg : UField → Res (List String)) : List UField → Res (List String)
  | [] => .ok []
  | f :: fs =>
    match jg f with
    | .error e => .error e
    | .ok a =>
      match graphsOfAll jg fs with
      | .error e => .error e
      | .ok b => .ok (a ++ b)

/-- The fields with a graph among the options, project.py 496. -/
def keepWith (jg : UField → Res (List String)) (options : List String) : List UField → Res (List UField)
  | [] => .ok []
  | f :: fs =>
    match jg f with
    | .error e => .error e
    | .ok a =>
      match keepWith jg options fs with
      | .error e => .error e
      | .ok r => .ok (if a.any (options.contains ·) then f :: r else r)

/-- `Project.joinable_fields`, project.py 490-498. -/
def joinableFields (jg : UField → Res (List String)) (all asked : List UField) : Res (List UField) :=
  match graphsOfAll jg asked with
  | .error e => .error e
  | .ok options => keepWith jg options all

/-! ### The graph of merged results -/

/-- A reference of a mapping with its join graph, model.py 409-413. -/
structure MRef where
  field : String
  graph : String
deriving DecidableEq, Repr

/-- An entry of `get_mappings`, model.py 416-425. -/
structure MEntry where
  refs : List MRef
  role : FRole
  graph : String
  special : Bool
deriving DecidableEq, Repr

/-- A dimension group used as a date: its view, name and timeframes (`none` when it has none). join_graph.py 258-261. -/
structure UDate where
  view : String
  name : String
  timeframes : Option (List String)
deriving DecidableEq, Repr

/-- What building the graph reads: the measures of the model in order, `join_graph_hash`, `weak_join_graph_hashes`,
`get_field_by_name`, the views of the model with the ids of their fields (dimension groups expanded), `get_mappings(dimensions_only=True)`
and the id of a field given by name. join_graph.py 198-244. -/
structure MEnv where
  measures : List UField
  hash : String → Res String
  weak : String → List String
  date : String → Res UDate
  views : List (String × List String)
  mappings : Res (List (String × MEntry))
  idOf : String → Res String

/-- Edges from root nodes to the ids of fields. join_graph.py 208-300. -/
abbrev MEdges := List (String × String)

/-- The edges of one measure, join_graph.py 254-269: a pair of edges per timeframe of its date. -/
def measureEdges (env : MEnv) (root : String) (m : UField) : Res MEdges :=
  match m.canonDate with
  | none => .ok []
  | some c =>
    match env.date c with
    | .error .accessDenied => .ok []
    | .error e => .error e
    | .ok d =>
      match d.timeframes with
      | none => .error .typeError
      | some ts => .ok (ts.flatMap (fun t =>
          [(root ++ "_" ++ t, d.view ++ "." ++ d.name ++ "_" ++ t), (root ++ "_" ++ t, m.id)]))

/-- `_add_canon_dates_to_merged_result`, join_graph.py 246-268: the edges and the join graphs of the measures. With `only` a
measure of another join graph is passed over. -/
def dateEdges (env : MEnv) (root : String) (only : Option (List String)) : List UField → Res (MEdges × List String)
  | [] => .ok ([], [])
  | m :: ms =>
    match env.hash m.view with
    | .error e => .error e
    | .ok h =>
      match (if (only.map (fun l => l.contains h)).getD true then measureEdges env root m else .ok []) with
      | .error e => .error e
      | .ok es =>
        match dateEdges env root only ms with
        | .error e => .error e
        | .ok (es', hs) => .ok (es ++ es', h :: hs)

/-- `sorted(list(existing_root_nodes))`, join_graph.py 272: the roots that got an edge. -/
def rootsOf (es : MEdges) : List String := sortedSet (es.map (·.1))

/-- The references of one mapping, join_graph.py 282-289. -/
def mapRefEdges (env : MEnv) (inGraphs roots : List String) (from_ : String) (graph : String) : List MRef → Res MEdges
  | [] => .ok []
  | r :: rs =>
    if inGraphs.contains graph && inGraphs.contains r.graph then
      match env.idOf from_ with
      | .error e => .error e
      | .ok a =>
        match env.idOf r.field with
        | .error e => .error e
        | .ok b =>
          match mapRefEdges env inGraphs roots from_ graph rs with
          | .error e => .error e
          | .ok es => .ok (roots.flatMap (fun n => [(n, a), (n, b)]) ++ es)
    else mapRefEdges env inGraphs roots from_ graph rs

/-- `_add_mappings_to_merged_result`, join_graph.py 270-284. -/
def mapEdges (env : MEnv) (inGraphs roots : List String) (measuresOnly : Bool) : List (String × MEntry) → Res MEdges
  | [] => .ok []
  | (from_, m) :: rest =>
    if m.special || (measuresOnly && decide (m.role ≠ .measure)) then mapEdges env inGraphs roots measuresOnly rest
    else
      match mapRefEdges env inGraphs roots from_ m.graph m.refs with
      | .error e => .error e
      | .ok es =>
        match mapEdges env inGraphs roots measuresOnly rest with
        | .error e => .error e
        | .ok es' => .ok (es ++ es')

/-- `itertools.combinations(l, 2)`, join_graph.py 221. -/
def pairsOf : List String → List (String × String)
  | [] => []
  | a :: l => l.map (fun b => (a, b)) ++ pairsOf l

/-- The edges to the fields of the views usable with both join graphs, join_graph.py 230-238. -/
def sharedEdges (env : MEnv) (pair : String × String) (roots : List String) : MEdges :=
  env.views.flatMap (fun v =>
    if (env.weak v.1).contains pair.1 && (env.weak v.1).contains pair.2 then
      v.2.flatMap (fun i => roots.map (fun n => (n, i)))
    else [])

/-- One pair of join graphs, join_graph.py 222-242. -/
def pairEdges (env : MEnv) (ms : List UField) (maps : List (String × MEntry)) (pair : String × String) : Res MEdges :=
  match dateEdges env (pair.1 ++ "_" ++ pair.2) (some [pair.1, pair.2]) ms with
  | .error e => .error e
  | .ok (es, _) =>
    match mapEdges env [pair.1, pair.2] (rootsOf es) false maps with
    | .error e => .error e
    | .ok es' => .ok (es ++ sharedEdges env pair (rootsOf es) ++ es')

/-- The loop over the pairs, join_graph.py 221-242. -/
def allPairEdges (env : MEnv) (ms : List UField) (maps : List (String × MEntry)) : List (String × String) → Res MEdges
  | [] => .ok []
  | p :: ps =>
    match pairEdges env ms maps p with
    | .error e => .error e
    | .ok es =>
      match allPairEdges env ms maps ps with
      | .error e => .error e
      | .ok es' => .ok (es ++ es')

/-- The measures with a date, join_graph.py 199-203. -/
def datedMeasures (env : MEnv) : List UField :=
  env.measures.filter (fun f => decide (f.role = .measure) && f.canonDate.isSome)

/-- `_build_merged_results_graph`, join_graph.py 198-244. -/
def mergedEdges (env : MEnv) : Res MEdges :=
  match env.mappings with
  | .error e => .error e
  | .ok maps =>
    match dateEdges env "canon_date_core" none (datedMeasures env) with
    | .error e => .error e
    | .ok (es, hs) =>
      match mapEdges env hs (rootsOf es) true maps with
      | .error e => .error e
      | .ok es' =>
        match allPairEdges env (datedMeasures env) maps (pairsOf (sortedSet hs)) with
        | .error e => .error e
        | .ok es'' => .ok (es ++ es' ++ es'')

/-- `_wrap_with_model_name([f"merged_result_{mr}" for mr, _ in edges])`, field.py 2781 and 2787-2791: the roots with an edge to
the field, each once. `index` is the position of the field's model when the project has several. -/
def mergedNames (es : MEdges) (index : Option Nat) (f : UField) : List String :=
  ((es.filter (fun e => decide (e.2 = f.id))).map (·.1)).dedup.map (fun r =>
    match index with
    | none => "merged_result_" ++ r
    | some i => "m" ++ i.repr ++ "_merged_result_" ++ r)

/-- `merged_results_graph(model)`, join_graph.py 193-196: the graph is kept after the first call, whatever its model. -/
def mergedCached (cache : Option MEdges) (env : MEnv) : Res (MEdges × Option MEdges) :=
  match cache with
  | some es => .ok (es, cache)
  | none =>
    match mergedEdges env with
    | .error e => .error e
    | .ok es => .ok (es, some es)

/-! ### Mappings -/

/-- A field a mapping names: its kind and its view's join graph. model.py 382-391. -/
structure MField where
  role : FRole
  graph : Res String

/-- The inner loop of `get_mappings`, model.py 399-413: the other fields of the mapping. A field that is not found is passed
over. -/
def mapRefs (get : String → Res MField) (from_ : String) (role : FRole) : List String → Res (List MRef)
  | [] => .ok []
  | t :: ts =>
    if t = from_ then mapRefs get from_ role ts
    else
      match get t with
      | .error .accessDenied => mapRefs get from_ role ts
      | .error e => .error e
      | .ok g =>
        match g.graph with
        | .error e => .error e
        | .ok h =>
          if g.role ≠ role then .error .query
          else
            match mapRefs get from_ role ts with
            | .error e => .error e
            | .ok rs => .ok (⟨t, h⟩ :: rs)

/-- `dimension_mapping[mapped_from_field]`, model.py 416-425: references are added to an entry that is already there. -/
def addEntry (d : List (String × MEntry)) (from_ : String) (m : MEntry) : List (String × MEntry) :=
  if m.refs = [] then d
  else
    match d with
    | [] => [(from_, m)]
    | (k, e) :: rest => if k = from_ then (k, { e with refs := e.refs ++ m.refs }) :: rest else (k, e) :: addEntry rest from_ m

/-- The loop over the fields of one mapping, model.py 378-425. -/
def mapFields (get : String → Res MField) (dimensionsOnly special : Bool) (all : List String) :
    List (String × MEntry) → List String → Res (List (String × MEntry))
  | d, [] => .ok d
  | d, f :: fs =>
    match get f with
    | .error .accessDenied => mapFields get dimensionsOnly special all d fs
    | .error e => .error e
    | .ok g =>
      if dimensionsOnly && decide (g.role = .measure) then mapFields get dimensionsOnly special all d fs
      else
        match g.graph with
        | .error e => .error e
        | .ok h =>
          if g.role = .group ∧ special = false then .error .query
          else
            match mapRefs get f g.role all with
            | .error e => .error e
            | .ok rs => mapFields get dimensionsOnly special all (addEntry d f ⟨rs, g.role, h, special⟩) fs

/-- `Model.get_mappings`, model.py 367-429, on the mappings (whether reserved, and the fields). -/
def getMappings (get : String → Res MField) (dimensionsOnly : Bool) :
    List (String × MEntry) → List (Bool × List String) → Res (List (String × MEntry))
  | d, [] => .ok d
  | d, (special, fs) :: rest =>
    match mapFields get dimensionsOnly special fs d fs with
    | .error e => .error e
    | .ok d' => getMappings get dimensionsOnly d' rest

end ML
