import Verif.Basic
import Mathlib.Data.List.Dedup
/-
Model of the replacement of mapped names: `metrics_layer/core/sql/resolve.py` 126-406, with
`sql/single_query_resolve.py` 189-232 (names used by the clauses) and `model/project.py` 508-513.
-/
set_option autoImplicit false
namespace ML

/-- What is read of a field: its `id()`, its `join_graphs()` and its `canon_date`. resolve.py 305-335. -/
structure CField where
  id : String
  graphs : List String
  canonDate : Option String
deriving DecidableEq, Repr

/-- What `get_mapped_field`, project.py 508-513, returns: the lower-cased name and the candidate
fields of the mapping. -/
structure MapDef where
  name : String
  fields : List String
deriving DecidableEq, Repr

/-- What the resolver asks of the project: `get_mapped_field(name, model)`,
`get_field(name, model=model)`, `get_field(name)`, `model.special_mapping_values`, the number of
measures of a view (resolve.py 191-197), and the order in which Python happens to list a set of
dates (resolve.py 179-205). -/
structure MapEnv where
  mapping : String → Option MapDef
  modelField : String → Res CField
  field : String → Res CField
  special : List String
  viewMeasures : String → Res Nat
  setOrder : List String → List String

/-- An entry of a `where`, `having` or `order_by` list: a dict without "conditions" (its "field" if
it has one, whether it has the key "group_by", and everything else), or one with "conditions" (and
possibly a "field" too). resolve.py 392-406. -/
inductive MCond where
  | cond (field : Option String) (groupBy : Bool) (rest : String)
  | group (field : Option String) (conds : List MCond) (rest : String)
deriving Repr

/-- A clause of the query: text, nothing, or a list of entries. A single dict has become a list of
one entry before (`_check_for_dict`, single_query_resolve.py 238-242). -/
inductive MClause where
  | text (s : String)
  | none
  | list (cs : List MCond)
deriving Repr

/-- The leaves of `flatten_filters`, utils.py 19-34. -/
def MCond.leaves : MCond → List (Option String × Bool)
  | .cond f g _ => [(f, g)]
  | .group _ cs _ => leavesList cs
where
  /-- The loop over the entries, utils.py 26-31. -/
  leavesList : List MCond → List (Option String × Bool)
  | [] => []
  | c :: cs => c.leaves ++ leavesList cs

/-- `[cond["field"] for cond in flattened if "group_by" not in cond]`, single_query_resolve.py
224-232; the KeyError becomes a QueryError. -/
def fieldNames : List (Option String × Bool) → Res (List String)
  | [] => .ok []
  | (_, true) :: ls => fieldNames ls
  | (none, false) :: _ => .error .query
  | (some f, false) :: ls => match fieldNames ls with
    | .error e => .error e
    | .ok fs => .ok (f :: fs)

/-- The field names of a clause, `parse_field_names`, single_query_resolve.py 189-207. `idents` is
`parse_identifiers_from_clause`, query_base.py 37-52, which rests on sqlparse. -/
def MClause.names (idents : String → List String) : MClause → Res (List String)
  | .text s => .ok (idents s)
  | .none => .ok []
  | .list cs => fieldNames (MCond.leaves.leavesList cs)

/-- The query being resolved, with `mapping_forces_merged_result`, and `field_id_mapping` in the
order of the replacements. resolve.py 126-303. -/
structure MQuery where
  metrics : List String
  dimensions : List String
  where_ : MClause
  having : MClause
  orderBy : MClause
  forces : Bool
  replaced : List (String × String)
deriving Repr

/-- `_join_graphs_by_type`, resolve.py 331-334: the graphs shared by all the fields. -/
def sharedGraphs : List (List String) → List String
  | [] => []
  | g :: gs => g.filter (fun x => gs.all (fun h => h.contains x))

/-- The graphs that are not results of a merge, resolve.py 333. -/
def isJoinGraph (g : String) : Bool := !containsSub "merged_result".toList g.toList

/-- `_handle_invalid_merged_result`, resolve.py 336-372. With a single field the search for a
culprit calls `set.intersection` without arguments, which is a TypeError. -/
def checkShared (lookup : List (String × List String)) : Res Unit :=
  if (sharedGraphs (lookup.map (·.2))).isEmpty then
    if lookup.length = 1 then .error .typeError else .error .query
  else .ok ()

/-- The loop of `determine_field_to_replace_with`, resolve.py 315-322: the joinable candidates and
the candidates that are only mergeable. -/
def candidates (env : MapEnv) (shared : List String) : List String → Res (List CField × List CField)
  | [] => .ok ([], [])
  | n :: ns => match env.field n with
    | .error e => .error e
    | .ok c => match candidates env shared ns with
      | .error e => .error e
      | .ok (js, ms) =>
        if c.graphs.any (fun g => isJoinGraph g && shared.contains g) then .ok (c :: js, ms)
        else if c.graphs.any (fun g => shared.contains g) then .ok (js, c :: ms)
        else .ok (js, ms)

/-- `determine_field_to_replace_with`, resolve.py 314-329. -/
def determineField (env : MapEnv) (shared : List String) (m : MapDef) : Res CField :=
  match candidates env shared m.fields with
  | .error e => .error e
  | .ok (c :: _, _) => .ok c
  | .ok ([], c :: _) => .ok c
  | .ok ([], []) => .error .query

/-- `l[l.index(a)] = b` when `a in l`, resolve.py 376-381. -/
def replaceFirst (a b : String) : List String → List String
  | [] => []
  | x :: xs => if x = a then b :: xs else x :: replaceFirst a b xs

/-- `_replace_dict_or_literal`, resolve.py 392-406, on an entry. -/
def MCond.replace (a b : String) : MCond → MCond
  | .cond f g r => if f = some a then .cond (some b) g r else .cond f g r
  | .group (some f) cs r => if f = a then .group (some b) cs r else .group (some f) cs r
  | .group none cs r => .group none (replaceList cs) r
where
  /-- The loop over the entries, resolve.py 397-405. -/
  replaceList : List MCond → List MCond
  | [] => []
  | c :: cs => c.replace a b :: replaceList cs

/-- `_replace_dict_or_literal`, resolve.py 392-406. `None` cannot occur: it has no names. -/
def MClause.replace (a b : String) : MClause → MClause
  | .text s => .text (String.ofList (replaceAll a.toList b.toList s.toList))
  | .none => .none
  | .list cs => .list (MCond.replace.replaceList a b cs)

/-- The names of the query, resolve.py 128-133. They are those of the query as it came in. -/
structure QNames where
  whereNames : List String
  havingNames : List String
  orderNames : List String
  all : List String
deriving Repr

/-- `_replace_mapped_field`, resolve.py 374-390. -/
def replaceMapped (names : QNames) (q : MQuery) (a : String) (c : CField) : Res MQuery :=
  let q' : MQuery := { q with
    replaced := q.replaced ++ [(a, c.id)]
    metrics := replaceFirst a c.id q.metrics
    dimensions := replaceFirst a c.id q.dimensions
    where_ := if a ∈ names.whereNames then q.where_.replace a c.id else q.where_
    having := if a ∈ names.havingNames then q.having.replace a c.id else q.having
    orderBy := if a ∈ names.orderNames then q.orderBy.replace a c.id else q.orderBy }
  if a ∈ names.all then .ok q' else .error .query

/-- `_get_field_from_lookup(name)`, resolve.py 305-312: the field found before, else a new look-up. -/
def fromLookup (env : MapEnv) (found : List (String × CField)) (name : String) : Res CField :=
  match found.lookup name with
  | some f => .ok f
  | none => env.modelField name

/-- The text of a date in an f-string: a missing one prints as `None`. resolve.py 314-330. -/
def mappedDateText : Option String → String
  | some d => d
  | none => "None"

/-- The loop over the other metrics, resolve.py 171-177: does one have another date? -/
def datesDiffer (env : MapEnv) (found : List (String × CField)) (d : Option String) :
    List String → Res Bool
  | [] => .ok false
  | m :: ms => match fromLookup env found m with
    | .error e => .error e
    | .ok f => if f.canonDate ≠ d then .ok true else datesDiffer env found d ms

/-- The dates of the dimensions that were found, resolve.py 179-183, as a list without
repetitions. An empty date counts as none. -/
def dimensionDates (found : List (String × CField)) (dims : List String) : List String :=
  (dims.filterMap (fun d => match found.lookup d with
    | some f => match f.canonDate with
      | some c => if c = "" then none else some c
      | none => none
    | none => none)).dedup

/-- `canon_date.split(".")[0]`, resolve.py 191. -/
def viewOfDate (c : String) : String := String.ofList (c.toList.takeWhile (· ≠ '.'))

/-- The numbers of measures, resolve.py 189-197. -/
def measureCounts (env : MapEnv) : List String → Res (List (String × Nat))
  | [] => .ok []
  | c :: cs => match env.viewMeasures (viewOfDate c) with
    | .error e => .error e
    | .ok n => match measureCounts env cs with
      | .error e => .error e
      | .ok r => .ok ((c, n) :: r)

/-- The first element of a list sorted by number, largest first (a stable sort), resolve.py
198-200: the first of those with the largest number. -/
def firstLargest : (String × Nat) → List (String × Nat) → String
  | best, [] => best.1
  | best, x :: xs => if x.2 > best.2 then firstLargest x xs else firstLargest best xs

/-- One round of the loop of resolve.py 157-216 for the mapped name `a`. -/
def stepMapped (env : MapEnv) (names : QNames) (found : List (String × CField))
    (shared : List String) (q : MQuery) (a : String) (m : MapDef) : Res MQuery :=
  if m.name ∈ env.special then
    match q.metrics with
    | first :: others => match fromLookup env found first with
      | .error e => .error e
      | .ok f => match env.field (mappedDateText f.canonDate ++ "_" ++ m.name) with
        | .error e => .error e
        | .ok c => match datesDiffer env found f.canonDate others with
          | .error e => .error e
          | .ok b => replaceMapped names { q with forces := q.forces || b } a c
    | [] => match env.setOrder (dimensionDates found q.dimensions) with
      | [] => match determineField env shared m with
        | .error e => .error e
        | .ok c => replaceMapped names q a c
      | [d] => match env.field (d ++ "_" ++ m.name) with
        | .error e => .error e
        | .ok c => replaceMapped names q a c
      | ds => match measureCounts env ds with
        | .error e => .error e
        | .ok [] => .error .other
        | .ok (x :: xs) => match env.field (firstLargest x xs ++ "_" ++ m.name) with
          | .error e => .error e
          | .ok c => replaceMapped names q a c
  else match determineField env shared m with
    | .error e => .error e
    | .ok c => replaceMapped names q a c

/-- The loop of resolve.py 157-216; `do_replace` (resolve.py 135-145) is whether the name is one of
the query. -/
def loopMapped (env : MapEnv) (names : QNames) (found : List (String × CField))
    (shared : List String) : MQuery → List (String × MapDef) → Res MQuery
  | q, [] => .ok q
  | q, (a, m) :: rest =>
    if a ∈ names.all then match stepMapped env names found shared q a m with
      | .error e => .error e
      | .ok q' => loopMapped env names found shared q' rest
    else loopMapped env names found shared q rest

/-- The names in order of first occurrence (the keys of a dict filled in order). resolve.py 126-303. -/
def firstOccurrences : List String → List String
  | [] => []
  | x :: xs => x :: (firstOccurrences xs).filter (fun y => decide (y ≠ x))

/-- The loop of resolve.py 142-150 over the names in order of first occurrence: the mapped names and
the fields that were found. -/
def classify (env : MapEnv) : List String → Res (List (String × MapDef) × List (String × CField))
  | [] => .ok ([], [])
  | n :: ns => match env.mapping n with
    | some m => match classify env ns with
      | .error e => .error e
      | .ok (ms, fs) => .ok ((n, m) :: ms, fs)
    | none => match env.modelField n with
      | .error e => .error e
      | .ok f => match classify env ns with
        | .error e => .error e
        | .ok (ms, fs) => .ok (ms, (n, f) :: fs)

/-! ### Queries of mapped names only -/

/-- The candidates of a mapping with their join graphs, resolve.py 225-227. -/
def candidateGraphs (env : MapEnv) : List String → Res (List (String × List String))
  | [] => .ok []
  | n :: ns => match env.field n with
    | .error e => .error e
    | .ok c => match candidateGraphs env ns with
      | .error e => .error e
      | .ok r => .ok ((n, c.graphs) :: r)

/-- `check`, resolve.py 223-227; a mapping without candidates leaves no entry in the `defaultdict`. -/
def checkTable (env : MapEnv) : List (String × MapDef) →
    Res (List (String × List (String × List String)))
  | [] => .ok []
  | (a, m) :: rest => match candidateGraphs env m.fields with
    | .error e => .error e
    | .ok cs => match checkTable env rest with
      | .error e => .error e
      | .ok r => if cs.isEmpty then .ok r else .ok ((a, cs) :: r)

/-- The part of an id before the first dot, resolve.py 251. -/
def viewOfId (s : String) : String := String.ofList (s.toList.takeWhile (· ≠ '.'))

/-- The inner loop of resolve.py 240-263 over the candidates of another mapping: the points of the
first one that shares a graph, if any. -/
def pairPoints (id : String) (graphs : List String) : List (String × List String) → Option Nat
  | [] => none
  | (id', graphs') :: rest =>
    if id ≠ id' ∧ graphs.any (fun g => graphs'.contains g) then
      some ((if viewOfId id = viewOfId id' then 1 else 0) +
        (if graphs.any (fun g => isJoinGraph g && graphs'.contains g) then 1 else 0))
    else pairPoints id graphs rest

/-- The points of a candidate of the mapping `a`, if every other mapping has a candidate to go with
it, resolve.py 237-268. -/
def candidatePoints (table : List (String × List (String × List String))) (a id : String)
    (graphs : List String) : Option Nat :=
  let others := (table.filter (fun e => decide (e.1 ≠ a))).map (fun e => pairPoints id graphs e.2)
  if others.all (·.isSome) then some ((others.map (·.getD 0)).sum) else none

/-- `all_items`, resolve.py 273-275: name, candidate and points of the valid candidates. -/
def validItems (table : List (String × List (String × List String))) :
    List (String × String × Nat) :=
  table.flatMap fun e => e.2.filterMap fun c =>
    (candidatePoints table e.1 c.1 c.2).map (fun p => (e.1, c.1, p))

/-- Does `(points, id)` of `x` exceed that of `y`? (The sort key of resolve.py 279.) -/
def betterItem (x y : String × String × Nat) : Bool :=
  decide (x.2.2 > y.2.2) || (decide (x.2.2 = y.2.2) && decide (y.2.1 < x.2.1))

/-- The first element of the list sorted by `(points, id)`, largest first, resolve.py 279-283. -/
def bestItem : (String × String × Nat) → List (String × String × Nat) → String × String × Nat
  | best, [] => best
  | best, x :: xs => if betterItem x best then bestItem x xs else bestItem best xs

/-- The last loop, resolve.py 296-303: the other mappings, against the graphs of the replaced one. -/
def loopOthers (env : MapEnv) (names : QNames) (shared : List String) (done : String) :
    MQuery → List (String × MapDef) → Res MQuery
  | q, [] => .ok q
  | q, (a, m) :: rest =>
    if a = done then loopOthers env names shared done q rest
    else match checkShared [(done, shared)] with
      | .error e => .error e
      | .ok _ => match determineField env shared m with
        | .error e => .error e
        | .ok c => match replaceMapped names q a c with
          | .error e => .error e
          | .ok q' => loopOthers env names shared done q' rest

/-- The branch of resolve.py 217-303: the query has mapped names only. (Points are only counted when
there are several mappings; with one mapping the table is computed too, and may raise.) -/
def mappedOnly (env : MapEnv) (names : QNames) (q : MQuery) (ms : List (String × MapDef)) :
    Res MQuery :=
  match checkTable env ms with
  | .error e => .error e
  | .ok table => match ms with
    | [(a, m)] => match m.fields with
      | [] => .error .indexError
      | n :: _ => match env.field n with
        | .error e => .error e
        | .ok c => replaceMapped names q a c
    | _ => match validItems table with
      | [] => .error .query
      | x :: xs =>
        let best := bestItem x xs
        match env.field best.2.1 with
        | .error e => .error e
        | .ok c => match replaceMapped names q best.1 c with
          | .error e => .error e
          | .ok q' => loopOthers env names c.graphs best.1 q' ms

/-- `_resolve_mapped_fields`, resolve.py 126-303. `lookupDims` is `mapping_lookup_dimensions`. -/
def resolveMapped (env : MapEnv) (idents : String → List String) (lookupDims : List String)
    (q : MQuery) : Res MQuery :=
  match q.where_.names idents with
  | .error e => .error e
  | .ok ws => match q.having.names idents with
    | .error e => .error e
    | .ok hs => match q.orderBy.names idents with
      | .error e => .error e
      | .ok os =>
        let all := q.metrics ++ q.dimensions ++ ws ++ hs ++ os
        let names : QNames := ⟨ws, hs, os, all⟩
        let ids := firstOccurrences (all ++ lookupDims.filter (fun d => decide (d ∉ all)))
        match classify env ids with
        | .error e => .error e
        | .ok ([], _) => .ok q
        | .ok (ms, []) => mappedOnly env names q ms
        | .ok (ms, fs) =>
          match checkShared (fs.map (fun p => (p.1, p.2.graphs))) with
          | .error e => .error e
          | .ok _ =>
            loopMapped env names fs (sharedGraphs (fs.map (fun p => p.2.graphs))) q ms

end ML
