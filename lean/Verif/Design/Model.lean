import Verif.JoinGraph.Model
/-
The query designer's join order, metrics_layer/core/sql/query_design.py, and
`JoinGraph.ordered_joins`, metrics_layer/core/model/join_graph.py 111-119.

networkx is a parameter: `topo` stands for `networkx.topological_sort(networkx.line_graph(h))` and
`sp` for `networkx.shortest_path(graph, a, b, weight="weight")`. What is assumed of them is in
Verif/Design/Spec.lean. Required views are nodes of the graph, as every view of the project is
(theorem `buildGraph_nodes`), so `NodeNotFound` does not arise.
-/
set_option autoImplicit false
namespace ML

/-- An ordered pair of views: source and target of an edge. query_design.py 59-69. -/
abbrev Pair := String × String

/-- The networkx functions the designer calls. `topo` gets the edges of the subgraph and answers
`none` for `NetworkXUnfeasible`; `sp` answers `none` for `NetworkXNoPath`. query_design.py 59 and 158. -/
structure Nx where
  topo : List Pair → Option (List Pair)
  sp : Graph → String → String → Option (List String)

/-- `join_graph.subgraph(required_views)`, join_graph.py 41-42: its edges. -/
def subEdges (g : Graph) (req : List String) : List Pair :=
  (g.edges.map (·.1)).filter (fun e => req.contains e.1 && req.contains e.2)

/-- `included_in_query`, query_design.py 175-176. -/
def included : List Pair → List String
  | [] => []
  | p :: ps => [p.1, p.2] ++ ps.map (·.2)

/-- `sorted(pair) == sorted(p)` for pairs, query_design.py 178. -/
def samePair (p q : Pair) : Bool := (p.1 == q.1 && p.2 == q.2) || (p.1 == q.2 && p.2 == q.1)

/-- The loop of `_clean_view_pairs`, query_design.py 172-181; `before` is `pairs[:i]`. -/
def cleanGo (before : List Pair) : List Pair → List Pair
  | [] => []
  | p :: ps =>
    let duplicateJoin := before.any (fun q => p.2 == q.2)
    let invertedJoin := before.any (fun q => samePair p q)
    if !duplicateJoin && !invertedJoin && !(included before).contains p.2
    then p :: cleanGo (before ++ [p]) ps
    else cleanGo (before ++ [p]) ps

/-- `_clean_view_pairs`, query_design.py 172-181. -/
def cleanPairs (pairs : List Pair) : List Pair := cleanGo [] pairs

/-- The loop of `_validate_join_path` after the first pair, query_design.py 102-111. -/
def validateGo (added : List String) : List Pair → Option (List String)
  | [] => some added
  | p :: ps => if p.1 ∈ added then validateGo (added ++ [p.2]) ps else none

/-- `_validate_join_path`, query_design.py 102-113: `none` when it raises `NetworkXNoPath`, else
whether some required view is missing. -/
def validatePath (pairs : List Pair) (req : List String) : Option Bool :=
  (match pairs with
   | [] => some []
   | p :: ps => validateGo [p.1, p.2] ps).map
  (fun (added : List String) => req.any (fun v => !added.contains v))

/-- `networkx.path_weight(graph, path, "weight")`. query_design.py 161. -/
def pathWeight (g : Graph) : List String → Nat
  | a :: b :: rest =>
    (match dictGet g.edges (a, b) with
     | some i => i.weight
     | none => 0) + pathWeight g (b :: rest)
  | _ => 0

/-- Does the key `(weight, "".join(path))` of `p` come before that of `q`?; query_design.py 169. -/
def keyLt (p q : List String × Nat) : Bool :=
  decide (p.2 < q.2) || (decide (p.2 = q.2) && decide (String.join p.1 < String.join q.1))

/-- `sorted(candidates, key=...)[0]`: the first of the smallest, query_design.py 169. -/
def firstBest : List (List String × Nat) → Option (List String × Nat)
  | [] => none
  | p :: ps => match firstBest ps with
    | none => some p
    | some q => if keyLt q p then some q else some p

/-- `_shortest_path_between_two` with `permute=False`, query_design.py 149-170. -/
def shortestAmong (nx : Nx) (g : Graph) (pairs : List Pair) : Option (List String) :=
  (firstBest (pairs.filterMap (fun p => (nx.sp g p.1 p.2).map (fun q => (q, pathWeight g q))))).map
    (·.1)

/-- `zip(path, path[1:])`. query_design.py 69 and 138. -/
def pathPairs : List String → List Pair
  | a :: b :: rest => (a, b) :: pathPairs (b :: rest)
  | _ => []

/-- `[pairs[0][0]] + [p[-1] for p in pairs]`, query_design.py 129. -/
def anchorsOf : List Pair → List String
  | [] => []
  | p :: ps => p.1 :: (p :: ps).map (·.2)

/-- The loop of `_add_missing_views`, query_design.py 131-141: the extended pairs and the views
still missing. -/
def addMissingLoop (nx : Nx) (g : Graph) (anchors : List String) :
    List String → List Pair → List Pair × List String
  | [], pairs => (pairs, [])
  | v :: vs, pairs =>
    match shortestAmong nx g (anchors.map (fun a => (a, v))) with
    | some p => addMissingLoop nx g anchors vs (pairs ++ pathPairs p)
    | none =>
      let r := addMissingLoop nx g anchors vs pairs
      (r.1, v :: r.2)

/-- `_add_missing_views`, query_design.py 128-147. The recursion is bounded by `fuel`; running out
of it would be `RecursionError`, which `C17_only_join_error` shows cannot happen. -/
def addMissing (nx : Nx) (g : Graph) : Nat → List String → List Pair → Nat → Res (List Pair)
  | 0, _, _, _ => .error .recursion
  | fuel + 1, missing, pairs, n =>
    let r := addMissingLoop nx g (anchorsOf pairs) (sortStr missing) pairs
    if r.2.length = 0 then .ok r.1
    else if r.2.length = n then .error .valueError
    else addMissing nx g fuel r.2 r.1 missing.length

/-- `_greedy_build_join`, query_design.py 115-126. `networkx.single_source_dijkstra` lists the path
of the source itself first and the loop returns (or raises) in its first round, so the only path
looked at is the starting pair. -/
def greedy (nx : Nx) (g : Graph) (start : Pair) (req : List String) : Res (List Pair) :=
  let pairs := cleanPairs [start]
  let missing := req.filter (fun v => !(pairs.flatMap (fun p => [p.1, p.2])).contains v)
  if missing.length = 0 then .ok pairs
  else addMissing nx g (2 * missing.length + 2) missing pairs missing.length

/-- The sort key of the starting pairs, query_design.py 81-85, compared: is `p` at most `q`? -/
def startLe (bridges : List String) (sub : List Pair) (p q : Pair) : Bool :=
  let b := fun (x : Pair) => bridges.contains x.1 || bridges.contains x.2
  let s := fun (x : Pair) => sub.contains x
  if b p != b q then b p
  else if s p != s q then s p
  else if p.1 ≠ q.1 then decide (p.1 ≤ q.1)
  else decide (p.2 ≤ q.2)

/-- Insertion for `sorted`. query_design.py 78. -/
def insertStart (bridges : List String) (sub : List Pair) (p : Pair) : List Pair → List Pair
  | [] => [p]
  | q :: qs => if startLe bridges sub p q then p :: q :: qs else q :: insertStart bridges sub p qs

/-- `sorted_edges`, query_design.py 73-86. -/
def startEdges (g : Graph) (bridges req : List String) : List Pair :=
  ((g.edges.map (·.1)).filter (fun e => req.contains e.1 || req.contains e.2)).foldr
    (insertStart bridges (subEdges g req)) []

/-- The loop over the starting pairs, query_design.py 88-94: only `ValueError` is caught. -/
def tryStarts (nx : Nx) (g : Graph) (req : List String) : List Pair → Res (List Pair)
  | [] => .error .noPath
  | p :: ps => match greedy nx g p req with
    | .ok r => .ok r
    | .error .valueError => tryStarts nx g req ps
    | .error e => .error e

/-- The `except NetworkXUnfeasible` branch, query_design.py 65-94. -/
def fallback (nx : Nx) (g : Graph) (bridges req : List String) : Res (List Pair) :=
  match req with
  | [a, b] => match shortestAmong nx g [(a, b), (b, a)] with
    | some p => .ok (pathPairs p)
    | none => tryStarts nx g req (startEdges g bridges req)
  | _ => tryStarts nx g req (startEdges g bridges req)

/-- `determine_join_order`, query_design.py 54-94; `bridges` is `_bridge_views`. -/
def joinOrder (nx : Nx) (g : Graph) (bridges req : List String) : Res (List Pair) :=
  if req.length = 1 then .ok []
  else match nx.topo (subEdges g req) with
    | none => fallback nx g bridges req
    | some l =>
      let pairs := cleanPairs l
      if req.length > 1 then
        match validatePath pairs req with
        | none => .error .noPath
        | some true => fallback nx g bridges req
        | some false => .ok pairs
      else .ok pairs

/-- The loop of `ordered_joins`, join_graph.py 111-119. -/
def orderedGo (joined : List String) : List Pair → List Pair
  | [] => []
  | p :: ps => if p.2 ∈ joined then orderedGo (joined ++ [p.2]) ps
    else p :: orderedGo (joined ++ [p.2]) ps

/-- `ordered_joins`, join_graph.py 111-119. The `Join` objects are represented by their view
pairs; the condition and relationship are those of the edge. -/
def orderedJoins (pairs : List Pair) : List Pair := orderedGo [] pairs

/-- `joins`, query_design.py 39-52. -/
def designJoins (nx : Nx) (g : Graph) (bridges req : List String) : Res (List Pair) :=
  match joinOrder nx g bridges req with
  | .error .noPath => .error .join
  | .error e => .error e
  | .ok ps => .ok (orderedJoins ps)

/-- `base_view_name`, query_design.py 290-295. -/
def baseView (joins : List Pair) (req : List String) : Res String :=
  match joins with
  | p :: _ => .ok p.1
  | [] => match req with
    | v :: _ => .ok v
    | [] => .error .indexError

/-! ### Functional primary key -/

/-- The loop of `_derive_primary_key_view`, query_design.py 236-250; `prev` is the relationship of
the previous join and `key` the end of `base_sequence`. `none` is `Definitions.does_not_exist`. -/
def derivePkGo (prev : Option Rel) (key : String) : List (Rel × Pair) → Option String
  | [] => some key
  | (r, p) :: js =>
    if r = .manyToMany then none
    else if r = .oneToMany ∧ prev = some .manyToOne then none
    else if r = .oneToMany then derivePkGo (some r) p.2 js
    else derivePkGo (some r) key js

/-- `functional_pk`, query_design.py 195-219: the view whose primary key is reported. Each join
comes with its relationship. -/
def functionalPk (base : String) (joins : List (Rel × Pair)) : Option String :=
  if joins.length = 0 then some base
  else if joins.any (fun j => j.1 = .manyToMany) then none
  else if joins.all (fun j => j.1 = .manyToOne || j.1 = .oneToOne) then some base
  else derivePkGo none base joins

end ML
