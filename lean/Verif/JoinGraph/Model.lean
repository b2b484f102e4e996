import Verif.Dict
import Verif.Text.Model
/-
The join graph, metrics_layer/core/model/join_graph.py.

A networkx `DiGraph` is a list of nodes and a dictionary from ordered pairs to edge data, both in
insertion order. Edge data other than relationship, type, `sql_on` and weight is left out.
`project.views()` is the list of views the user may see, with lower-case names (Verif/Access).
-/
set_option autoImplicit false
namespace ML

/-- `ZenlyticJoinRelationship`, join.py 25-30. -/
inductive Rel where
  | oneToOne | manyToOne | oneToMany | manyToMany
  deriving DecidableEq, Repr

/-- The `type` of an identifier, join_graph.py 18-23, with the properties only a `join` has. A
`join` without a valid relationship, `sql_on` or `reference` raises in `View.identifiers`
(view.py 105-124) before any of this runs. -/
inductive IdKind where
  | primary
  | foreign
  | join (reference : String) (rel : Rel) (sqlOn : String) (jtype : Option String)
  | other
  deriving DecidableEq, Repr

/-- An identifier of a view. Absent `only_join` and `allowed_fanouts` are empty lists. join_graph.py 270-335. -/
structure Ident where
  name : String
  kind : IdKind
  onlyJoin : List String := []
  allowedFanouts : List String := []
  sql : Option String := none
  deriving DecidableEq, Repr

/-- A view as the join graph sees it. join_graph.py 140-155. -/
structure GView where
  name : String
  idents : List Ident := []
  deriving DecidableEq, Repr

/-- The data of an edge. join_graph.py 160-215. -/
structure JoinInfo where
  rel : Rel
  jtype : String
  sqlOn : String
  weight : Nat
  deriving DecidableEq, Repr

/-- A `networkx.DiGraph` with edge data. join_graph.py 140-155. -/
structure Graph where
  nodes : List String := []
  edges : List ((String × String) × JoinInfo) := []
  deriving DecidableEq, Repr

/-- `identifier["type"] == "join"`. join_graph.py 329. -/
def IdKind.isJoin : IdKind → Bool
  | .join .. => true
  | _ => false

/-- `_derive_relationship`, join_graph.py 378-395. -/
def deriveRel (i j : IdKind) : Res Rel :=
  match i, j with
  | .foreign, .primary => .ok .manyToOne
  | .primary, .primary => .ok .oneToOne
  | .primary, .foreign => .ok .oneToMany
  | .foreign, .foreign => .ok .manyToMany
  | _, _ => .error .query

/-- `_invert_relationship`, join_graph.py 397-405. -/
def invertRel : Rel → Rel
  | .manyToOne => .oneToMany
  | .oneToMany => .manyToOne
  | .manyToMany => .manyToMany
  | .oneToOne => .oneToOne

/-- `_edge_weight`, join_graph.py 407-415. -/
def edgeWeight : Rel → Nat
  | .manyToOne => 2
  | .oneToMany => 3
  | .manyToMany => 4
  | .oneToOne => 1

/-- `_join_preference.index`, join_graph.py 29-34. -/
def preference : Rel → Nat
  | .oneToOne => 0
  | .manyToOne => 1
  | .oneToMany => 2
  | .manyToMany => 3

/-- `_allowed_join`, join_graph.py 417-419. -/
def allowedJoin (onlyJoin : List String) (viewName : String) : Bool :=
  onlyJoin.isEmpty || onlyJoin.contains viewName

/-- `_is_fanout`, join_graph.py 421-423. -/
def isFanout : Rel → Bool
  | .oneToMany => true
  | .manyToMany => true
  | _ => false

/-- One step of the loop of `_identifier_join_clause`, join_graph.py 359-365. -/
def clauseStep (viewName : List Char) (sql : List Char) (field : List Char) : List Char :=
  let sql := if field ≠ "TABLE".toList ∧ '.' ∉ field
    then replaceAll (refText field) (refText (viewName ++ '.' :: field)) sql else sql
  if field = "TABLE".toList then replaceAll (refText field) viewName sql else sql

/-- `_identifier_join_clause`, join_graph.py 355-369. -/
def identClause (i : Ident) (viewName : String) : String :=
  match i.sql with
  | some s => String.ofList
      ((fieldsToReplace s.toList).foldl (clauseStep viewName.toList) s.toList)
  | none => "${" ++ viewName ++ "." ++ i.name ++ "}"

/-- `_identifier_to_join`, join_graph.py 346-353, once the relationship is known. -/
def identJoin (r : Rel) (i : Ident) (v : String) (j : Ident) (w : String) : JoinInfo :=
  { rel := r, jtype := "left_outer", sqlOn := identClause i v ++ "=" ++ identClause j w,
    weight := edgeWeight r }

/-- `_identifier_map()[0].get(name, [])`, join_graph.py 297-308: one entry per identifier of that
name that is not a `join`, so a view can appear twice. -/
def identifierMap (views : List GView) (name : String) : List String :=
  views.flatMap (fun v =>
    (v.idents.filter (fun i => !i.kind.isJoin && decide (i.name = name))).map (fun _ => v.name))

/-- The assignments `_reference_map` makes, in order, join_graph.py 325-344. -/
def declared (views : List GView) : List ((String × String) × JoinInfo) :=
  views.flatMap (fun v => v.idents.flatMap (fun i =>
    match i.kind with
    | .join reference r sqlOn jtype =>
      let t := jtype.getD "left_outer"
      ((v.name, reference), ⟨r, t, sqlOn, edgeWeight r⟩) ::
      (if isFanout (invertRel r) then []
       else [((reference, v.name), ⟨invertRel r, t, sqlOn, edgeWeight (invertRel r)⟩)])
    | _ => []))

/-- `_reference_map`, join_graph.py 325-344, with the two levels of the dictionary joined. -/
def referenceMap (views : List GView) : List ((String × String) × JoinInfo) :=
  (declared views).foldl (fun d p => dictSet d p.1 p.2) []

/-- `graph.add_node`. join_graph.py 152. -/
def addNode (g : Graph) (n : String) : Graph :=
  if n ∈ g.nodes then g else { g with nodes := g.nodes ++ [n] }

/-- `graph.add_edge(a, b, **info)` (join_graph.py 153, 181-188): adds missing end points and writes
the data. -/
def addEdge (g : Graph) (a b : String) (info : JoinInfo) : Graph :=
  let g := addNode (addNode g a) b
  { g with edges := dictSet g.edges (a, b) info }

/-- `graph.has_edge` and the preference test, join_graph.py 178-188. networkx's `add_edge` updates
the data of an existing edge: the `join_type` of an explicit join is not among the keys of
`join_info` (346-353), so it survives and is what `get_pypika_join_type` reads (query_base.py
55-69). -/
def addPreferred (g : Graph) (a b : String) (info : JoinInfo) : Graph :=
  match dictGet g.edges (a, b) with
  | some old => if preference old.rel > preference info.rel then
      addEdge g a b { info with jtype := old.jtype } else g
  | none => addEdge g a b info

/-- The body of the inner loop of `build` for view `v`, identifier `i` and joined view name `w`,
join_graph.py 157-188. -/
def considerJoin (views : List GView) (v : String) (i : Ident) (g : Graph) (w : String) :
    Res Graph :=
  if w ≠ v ∧ allowedJoin i.onlyJoin w = true then
    match views.find? (fun x => decide (x.name = w)) with
    | none => .error .accessDenied
    | some joinView =>
      match joinView.idents.find? (fun x => decide (x.name = i.name)) with
      | none => .error .attributeError
      | some j =>
        if !allowedJoin j.onlyJoin v then .ok g
        else match deriveRel i.kind j.kind with
          | .error e => .error e
          | .ok r =>
            if isFanout r && !i.allowedFanouts.contains w then .ok g
            else .ok (addPreferred g v w (identJoin r i v j w))
  else .ok g

/-- A loop whose body can raise. join_graph.py 140-215. -/
def foldRes {α β : Type} (f : β → α → Res β) : β → List α → Res β
  | b, [] => .ok b
  | b, a :: as => match f b a with
    | .error e => .error e
    | .ok b' => foldRes f b' as

/-- The explicit joins of a view, join_graph.py 150-153. -/
def addExplicit (refs : List ((String × String) × JoinInfo)) (g : Graph) (v : String) : Graph :=
  (refs.filter (fun p => decide (p.1.1 = v))).foldl (fun g p => addEdge g v p.1.2 p.2) g

/-- One view of the loop of `build`, join_graph.py 143-188. -/
def buildView (views : List GView) (refs : List ((String × String) × JoinInfo)) (g : Graph)
    (v : GView) : Res Graph :=
  foldRes (fun g i => foldRes (considerJoin views v.name i) g (identifierMap views i.name))
    (addExplicit refs (addNode g v.name) v.name) v.idents

/-- The loop over the views with `views_seen`, join_graph.py 142-188. -/
def buildGo (views : List GView) (refs : List ((String × String) × JoinInfo))
    (seen : List String) (g : Graph) : List GView → Res Graph
  | [] => .ok g
  | v :: vs =>
    if v.name ∈ seen then .error .query
    else match buildView views refs g v with
      | .error e => .error e
      | .ok g' => buildGo views refs (v.name :: seen) g' vs

/-- `JoinGraph.build`, join_graph.py 138-191. -/
def buildGraph (views : List GView) : Res Graph :=
  buildGo views (referenceMap views) [] {} views

/-! ### Names of join graphs -/

/-- `sorted` on strings. join_graph.py 100. -/
def insertStr (x : String) : List String → List String
  | [] => [x]
  | y :: ys => if x ≤ y then x :: y :: ys else y :: insertStr x ys

/-- `sorted` on strings, join_graph.py 95, 100. -/
def sortStr (l : List String) : List String := l.foldr insertStr []

/-- The comparison of the keys `(len(x), x[0])`: is `a` at least `b`?; join_graph.py 102. -/
def compAtLeast (a b : List String) : Bool :=
  decide (b.length < a.length) ||
  (decide (a.length = b.length) && decide (b.headD "" ≤ a.headD ""))

/-- Insertion for `sorted(..., reverse=True)`. join_graph.py 102. -/
def insertComp (x : List String) : List (List String) → List (List String)
  | [] => [x]
  | y :: ys => if compAtLeast x y then x :: y :: ys else y :: insertComp x ys

/-- `_strongly_connected_components`, join_graph.py 97-103, given what networkx returned. -/
def sortComponents (comps : List (List String)) : List (List String) :=
  (comps.map sortStr).foldr insertComp []

/-- `f"subquery_{i}"`. join_graph.py 53, 61 and 80. -/
def subqueryName (i : Nat) : String := "subquery_" ++ i.repr

/-- `list_join_graphs`, join_graph.py 50-53. -/
def listJoinGraphs (comps : List (List String)) : List String :=
  (List.range (sortComponents comps).length).map subqueryName

/-- `join_graph_hash`, join_graph.py 55-69. The memo is left out: the graph never changes. -/
def joinGraphHash (comps : List (List String)) (v : String) : Res String :=
  match (sortComponents comps).findIdx? (fun c => c.contains v) with
  | some i => .ok (subqueryName i)
  | none => .error .query

/-- One round of following edges. join_graph.py 107. -/
def expandOnce (g : Graph) (s : List String) : List String :=
  g.edges.foldl (fun s e => if e.1.1 ∈ s ∧ e.1.2 ∉ s then s ++ [e.1.2] else s) s

/-- The nodes networkx reaches from `s`. join_graph.py 107. -/
def reachGo (g : Graph) : Nat → List String → List String
  | 0, s => s
  | n + 1, s => reachGo g n (expandOnce g s)

/-- The nodes reachable from `s`. join_graph.py 107. -/
def reachSet (g : Graph) (s : List String) : List String := reachGo g (g.nodes.length + 1) s

/-- `networkx.edge_dfs(graph, source=components)`: the edges that start in a node reachable from
the sources, in some order. join_graph.py 107. -/
def edgeDfs (g : Graph) (s : List String) : List (String × String) :=
  (g.edges.map (·.1)).filter (fun e => (reachSet g s).contains e.1)

/-- `_subgraph_nodes_from_components`, join_graph.py 105-109, as a list that may repeat a node (the
code turns it into a set). -/
def subgraphNodes (g : Graph) (c : List String) : List String :=
  (edgeDfs g c).flatMap (fun e => [e.1, e.2]) ++ c

/-- `weak_join_graph_hashes`, join_graph.py 71-83. -/
def weakHashes (g : Graph) (comps : List (List String)) (v : String) : List String :=
  ((sortComponents comps).zipIdx.filter (fun p => (subgraphNodes g p.1).contains v)).map
    (fun p => subqueryName p.2)

/-- `list(set(l))` followed by `sorted`: the distinct elements in order. join_graph.py 95. -/
def sortedSet (l : List String) : List String := sortStr l.eraseDups

/-- `get_joinable_view_names`, join_graph.py 85-95. -/
def joinableViews (g : Graph) (comps : List (List String)) (v : String) : List String :=
  (sortedSet ((sortComponents comps).flatMap (fun c =>
    if (subgraphNodes g c).contains v then subgraphNodes g c else []))).filter
      (fun w => decide (w ≠ v))

/-- `networkx.strongly_connected_components`: the classes of mutual reachability, in some order. join_graph.py 98. -/
def sccGo (g : Graph) (seen : List String) : List String → List (List String)
  | [] => []
  | n :: ns =>
    if n ∈ seen then sccGo g seen ns
    else
      let c := g.nodes.filter (fun m =>
        (reachSet g [n]).contains m && (reachSet g [m]).contains n)
      c :: sccGo g (c ++ seen) ns

/-- `networkx.strongly_connected_components(graph)`. join_graph.py 98. -/
def scc (g : Graph) : List (List String) := sccGo g [] g.nodes

end ML
