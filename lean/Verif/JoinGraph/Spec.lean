import Verif.JoinGraph.Model
/-
Specification vocabulary for C12-C16.
-/
set_option autoImplicit false
namespace ML.Spec

/-- The relationship of two identifiers, from the base view to the joined view. -/
inductive RelOf : IdKind → IdKind → Rel → Prop
  | fp : RelOf .foreign .primary .manyToOne
  | pp : RelOf .primary .primary .oneToOne
  | pf : RelOf .primary .foreign .oneToMany
  | ff : RelOf .foreign .foreign .manyToMany

/-- A join along this relationship can multiply rows of the base view. -/
def FansOut (r : Rel) : Prop := r = .oneToMany ∨ r = .manyToMany

/-- Rank of a relationship, best first. -/
def rank : Rel → Nat
  | .oneToOne => 0 | .manyToOne => 1 | .oneToMany => 2 | .manyToMany => 3

/-- `only_join` lets the view through. -/
def Lets (onlyJoin : List String) (view : String) : Prop := onlyJoin = [] ∨ view ∈ onlyJoin

/-- The identifier is not an explicit join. -/
def NotJoin (k : IdKind) : Prop := ∀ view r sqlOn t, k ≠ .join view r sqlOn t

/-- The length of a join for the search of shortest paths: the better the relationship, the shorter. -/
def weightOf : Rel → Nat
  | .oneToOne => 1 | .manyToOne => 2 | .oneToMany => 3 | .manyToMany => 4

/-- `j` is the first identifier of `w` with the name `n`. -/
def FirstNamed (w : GView) (n : String) (j : Ident) : Prop :=
  ∃ pre post, w.idents = pre ++ j :: post ∧ j.name = n ∧ ∀ k ∈ pre, k.name ≠ n

/-- Identifier `i` of `v` and identifier `j` of `w` admit a join from `v` to `w` with
relationship `r`. -/
structure Shared (views : List GView) (v w : GView) (i j : Ident) (r : Rel) : Prop where
  vin : v ∈ views
  win : w ∈ views
  distinct : v.name ≠ w.name
  iin : i ∈ v.idents
  named : FirstNamed w i.name j
  usable : ∃ k ∈ w.idents, k.name = i.name ∧ NotJoin k.kind
  onlyI : Lets i.onlyJoin w.name
  onlyJ : Lets j.onlyJoin v.name
  rel : RelOf i.kind j.kind r
  fan : FansOut r → w.name ∈ i.allowedFanouts

/-- View `v` declares an explicit join to `b` with this relationship, type and condition. -/
def DeclaresJoin (v : GView) (b : String) (r : Rel) (sqlOn : String) (t : Option String) : Prop :=
  ∃ i ∈ v.idents, i.kind = .join b r sqlOn t

/-- The declarations that concern the ordered pair `(a, b)`, in the order the views and their
identifiers are listed: a declaration in `a` naming `b`, or the reverse of a declaration in `b`
naming `a` unless the reverse fans out. -/
def explicitFor (views : List GView) (a b : String) : List (Rel × String × Option String) :=
  views.flatMap (fun v => v.idents.flatMap (fun i =>
    match i.kind with
    | .join ref r sqlOn t =>
      (if v.name = a ∧ ref = b then [(r, sqlOn, t)] else []) ++
      (if ref = a ∧ v.name = b then
        (match r with
         | .oneToOne => [(Rel.oneToOne, sqlOn, t)]
         | .oneToMany => [(Rel.manyToOne, sqlOn, t)]
         | _ => [])
       else [])
    | _ => []))

/-- The edge data of a graph for an ordered pair. -/
def edgeAt (g : Graph) (a b : String) : Option JoinInfo := dictGet g.edges (a, b)

/-- There is an edge. -/
def HasEdge (g : Graph) (a b : String) : Prop := (a, b) ∈ g.edges.map (·.1)

/-- Reachability along the edges. -/
inductive Reach (g : Graph) : String → String → Prop
  | refl (a : String) : Reach g a a
  | step {a b c : String} : Reach g a b → HasEdge g b c → Reach g a c

/-- Each reaches the other. -/
def Mutual (g : Graph) (a b : String) : Prop := Reach g a b ∧ Reach g b a

/-- What networkx promises of `strongly_connected_components`: the classes of mutual
reachability, each once, in any order. -/
structure IsScc (g : Graph) (comps : List (List String)) : Prop where
  covers : ∀ n ∈ g.nodes, ∃ c ∈ comps, n ∈ c
  nodes : ∀ c ∈ comps, ∀ n ∈ c, n ∈ g.nodes
  nonempty : ∀ c ∈ comps, c ≠ []
  nodup : ∀ c ∈ comps, c.Nodup
  same : ∀ c ∈ comps, ∀ m ∈ c, ∀ n ∈ g.nodes, n ∈ c ↔ Mutual g m n
  disjoint : comps.Pairwise (fun c d => ∀ n ∈ c, n ∉ d)

/-- The graph is well formed: edges join nodes and no pair has two edges. -/
structure WF (g : Graph) : Prop where
  src : ∀ a b, HasEdge g a b → a ∈ g.nodes
  dst : ∀ a b, HasEdge g a b → b ∈ g.nodes
  nodup : g.nodes.Nodup
  edges : (g.edges.map (·.1)).Nodup

end ML.Spec
