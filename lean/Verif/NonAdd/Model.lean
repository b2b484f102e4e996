import Verif.Basic
import Mathlib.Data.List.Sort
/-
Queries with non-additive metrics and what they do to the stored definitions: the lists of `window_groupings` are Python
objects that are shared, replaced and extended in place, so they live in a heap and definitions hold addresses.
`/repo/metrics_layer/core/model/field.py` 452-469, 2675-2686, 246-296; `/repo/metrics_layer/core/sql/query_generator.py`
78-97, 197-212, 377-423; `/repo/metrics_layer/core/model/project.py` 89-113.
Not modelled: a `window_groupings` that is not a list, and the lru caches of the project.
-/
set_option autoImplicit false
namespace ML

/-- A `non_additive_dimension` dictionary: `name`, `window_choice`, `window_aware_of_query_dimensions` and the address of the
`window_groupings` list (`none` when the key is absent), field.py 452-469. -/
structure NDef where
  name : String
  choice : String
  aware : Bool
  groups : Option ℕ
  deriving DecidableEq, Repr

/-- The mutable state: list objects by address, the dictionary of each metric, and the field names in each view dictionary
(project.py 90, `view["fields"]`). -/
structure NStore where
  heap : List (List String)
  defs : String → Option NDef
  fields : List (String × List String)

/-- Qualify a name with the view unless it has a dot, field.py 455-457 and 462-465. -/
def qualifyIn (view n : String) : String := if '.' ∈ n.toList then n else view ++ "." ++ n

/-- The property `Field.non_additive_dimension`, field.py 452-469, as an effect on the state: the name is qualified in place and
a non-empty list of groupings is replaced by a new list of qualified names. -/
def touchDef (view : String → String) (s : NStore) (id : String) : NStore :=
  match s.defs id with
  | none => s
  | some d =>
    let d' := { d with name := qualifyIn (view id) d.name }
    match d.groups with
    | none => { s with defs := Function.update s.defs id (some d') }
    | some a =>
      let l := s.heap[a]?.getD []
      if l = [] then { s with defs := Function.update s.defs id (some d') }
      else { s with heap := s.heap ++ [l.map (qualifyIn (view id))],
                    defs := Function.update s.defs id (some { d' with groups := some s.heap.length }) }

/-- `name.split(".")[-1]`, query_generator.py 393 and field.py 2678, 2684. -/
def lastPart (n : String) : String := String.ofList ((splitChars '.' n.toList).getLast?.getD [])

/-- An entry of `non_additive_ctes`, query_generator.py 92-97; `groups` is the address of the list it shares. -/
structure NCte where
  label : String
  cteAlias : String
  name : String
  choice : String
  aware : Bool
  groups : Option ℕ
  deriving DecidableEq, Repr

/-- What a query needs to know of the rest of the project: the view and the `name` of each metric, the view of the field that a
non-additive dimension names, whether a requested dimension is a variation of it (query_generator.py 205-207), and whether
generating the subquery raises (query_generator.py 379-421). -/
structure NEnv where
  view : String → String
  metricName : String → String
  dimView : String → String
  variation : String → String → Bool
  nested : String → List String → Res Unit

/-- `non_additive_alias`, field.py 2675-2680. -/
def nonAddAlias (env : NEnv) (id : String) (choice name : String) : String :=
  env.view id ++ "_" ++ choice ++ "_" ++ lower (lastPart name)

/-- `non_additive_cte_alias`, field.py 2682-2686. -/
def nonAddCteAlias (env : NEnv) (id : String) (name : String) : String :=
  "cte_" ++ env.metricName id ++ "_" ++ lower (lastPart name)

/-- The body of the loop of query_generator.py 87-97 for one field: the property is read, then `{**definition, "alias":
non_additive_alias()}` copies the dictionary, with the address of its list, before the property is read again.
Simplification: consecutive reads of the property are one read. -/
def collectOne (env : NEnv) (s : NStore) (ctes : List NCte) (id : String) : NStore × List NCte :=
  let s1 := touchDef env.view s id
  match s1.defs id with
  | none => (s1, ctes)
  | some d =>
    if nonAddCteAlias env id d.name ∈ ctes.map NCte.cteAlias then (s1, ctes)
    else (touchDef env.view s1 id,
      ctes ++ [⟨nonAddAlias env id d.choice d.name, nonAddCteAlias env id d.name, d.name, d.choice, d.aware, d.groups⟩])

/-- The loop of query_generator.py 84-97 over the metrics and the fields they reference. -/
def collectAll (env : NEnv) (s : NStore) (ctes : List NCte) : List String → NStore × List NCte
  | [] => (s, ctes)
  | id :: ids => let r := collectOne env s ctes id; collectAll env r.1 r.2 ids

/-- What the SQL of a metric contains of its non-additive dimension, field.py 275-296: the dimension and the groupings. -/
structure NRendered where
  metric : String
  name : String
  choice : String
  groups : List String
  deriving DecidableEq, Repr

/-- The SQL of each metric is written (`Field.sql`, field.py 246-296), which reads the property; query_generator.py 169-194. -/
def renderAll (env : NEnv) (s : NStore) : List String → NStore × List NRendered
  | [] => (s, [])
  | id :: ids =>
    let s1 := touchDef env.view s id
    let r := renderAll env s1 ids
    match s1.defs id with
    | none => r
    | some d => (r.1, ⟨id, d.name, d.choice, (d.groups.map (fun a => s1.heap[a]?.getD [])).getD []⟩ :: r.2)

/-- `add_field(..., refresh_cache=False)`, project.py 89-101: appended unless a field of that name exists in any letter case.
Only names are kept. -/
def addField (fields : List (String × List String)) (view name : String) : Res (List (String × List String)) :=
  if view ∈ fields.map Prod.fst then
    .ok (updateFirst fields)
  else .error .accessDenied
where
  /-- The first view of that name is the one changed, project.py 90. -/
  updateFirst : List (String × List String) → List (String × List String)
    | [] => []
    | v :: vs =>
      if v.1 = view then
        (if v.2.any (fun f => lower f == lower name) then v else (v.1, v.2 ++ [name])) :: vs
      else v :: updateFirst vs

/-- `remove_field(..., refresh_cache=False)`, project.py 103-113. -/
def removeField (view name : String) : List (String × List String) → List (String × List String)
  | [] => []
  | v :: vs => if v.1 = view then (v.1, v.2.filter (fun f => f != name)) :: vs else v :: removeField view name vs

/-- `_non_additive_cte`, query_generator.py 377-423: a temporary measure is added to the view, the subquery is generated, the
measure is removed. An exception in between leaves the measure behind. -/
def nestedCte (env : NEnv) (s : NStore) (c : NCte) (groups : List String) : NStore × Res Unit :=
  let temp := c.choice ++ "_" ++ lastPart c.name
  match addField s.fields (env.dimView c.name) temp with
  | .error e => (s, .error e)
  | .ok fs =>
    match env.nested c.cteAlias groups with
    | .error e => ({ s with fields := fs }, .error e)
    | .ok _ => ({ s with fields := removeField (env.dimView c.name) temp fs }, .ok ())

/-- The distinct names in order of first occurrence, query_generator.py 209-211. -/
def firstSeen : List String → List String
  | [] => []
  | x :: xs => x :: (firstSeen xs).filter (fun y => y != x)

/-- The dimensions added to the groupings, query_generator.py 200-208. -/
def addedDims (env : NEnv) (dims : List String) (aware : Bool) (name : String) : List String :=
  if aware then dims.map lower else dims.filter (env.variation name)

/-- The loop of query_generator.py 198-212: `group_by_dimensions = definition.get("window_groupings", [])` is extended in
place. -/
def cteLoop (env : NEnv) (dims : List String) (s : NStore) : List NCte → NStore × Res (List (String × List String))
  | [] => (s, .ok [])
  | c :: cs =>
    let base := (c.groups.map (fun a => s.heap[a]?.getD [])).getD []
    let all := base ++ addedDims env dims c.aware c.name
    let s1 := match c.groups with
      | none => s
      | some a => { s with heap := s.heap.set a all }
    match nestedCte env s1 c (firstSeen all) with
    | (s2, .error e) => (s2, .error e)
    | (s2, .ok _) =>
      match cteLoop env dims s2 cs with
      | (s3, .error e) => (s3, .error e)
      | (s3, .ok rest) => (s3, .ok ((c.cteAlias, firstSeen all) :: rest))

/-- A query: the fields whose non-additive dimensions count (the metrics of the SELECT and HAVING clauses with the fields they
reference, query_generator.py 81-87) and the dimensions. -/
structure NQuery where
  metrics : List String
  dims : List String

/-- The parts of the SQL that depend on non-additive definitions: the rendered metrics and the subqueries with the columns they
group by and are joined on. query_generator.py 197-239. -/
structure NSql where
  rendered : List NRendered
  ctes : List (String × List String)
  deriving DecidableEq, Repr

/-- Generating the SQL of a query, query_generator.py 78-97 and 154-236. -/
def runNonAdd (env : NEnv) (s : NStore) (q : NQuery) : NStore × Res NSql :=
  let c := collectAll env s [] q.metrics
  let r := renderAll env c.1 q.metrics
  match cteLoop env q.dims r.1 (c.2.insertionSort (fun a b => a.label ≤ b.label)) with
  | (s', .error e) => (s', .error e)
  | (s', .ok l) => (s', .ok ⟨r.2, l⟩)

/-- A history of queries, each on the state the previous one left. query_generator.py 42-282, once per query. -/
def runHistory (env : NEnv) (s : NStore) : List NQuery → NStore
  | [] => s
  | q :: qs => runHistory env (runNonAdd env s q).1 qs

end ML
