import Verif.Design.Model
import Verif.JoinGraph.Spec
/-
Specification vocabulary for C17-C20.
-/
set_option autoImplicit false
namespace ML.Spec

instance (g : Graph) (a b : String) : Decidable (HasEdge g a b) :=
  inferInstanceAs (Decidable ((a, b) ∈ g.edges.map (·.1)))

/-- The list is a walk along edges of the graph from `a` to `b`. -/
inductive Walk (g : Graph) : String → String → List String → Prop
  | single (a : String) : Walk g a a [a]
  | cons {a b c : String} {p : List String} : HasEdge g a b → Walk g b c p → Walk g a c (a :: p)

/-- Every edge has a positive weight. -/
def PositiveWeights (g : Graph) : Prop := ∀ e ∈ g.edges, 0 < e.2.weight

/-- No view is joined to itself. -/
def NoLoops (g : Graph) : Prop := ∀ a, ¬ HasEdge g a a

/-- A topological order of the line graph of these edges: a rearrangement in which an edge that
ends where another starts comes before it (and no edge ends where it starts). -/
def IsTopo (edges l : List Pair) : Prop :=
  l.Perm edges ∧ l.Pairwise (fun p q => q.2 ≠ p.1) ∧ ∀ p ∈ l, p.2 ≠ p.1

/-- What networkx promises: `topological_sort` gives an order if there is one, and raises otherwise;
`shortest_path` gives a walk of least weight if there is a walk, and raises otherwise. -/
structure NxSpec (nx : Nx) : Prop where
  topoSome : ∀ edges l, nx.topo edges = some l → IsTopo edges l
  topoNone : ∀ edges, nx.topo edges = none → ∀ l, ¬ IsTopo edges l
  spSome : ∀ g a b p, WF g → a ∈ g.nodes → nx.sp g a b = some p →
    Walk g a b p ∧ ∀ q, Walk g a b q → pathWeight g p ≤ pathWeight g q
  spNone : ∀ g a b, WF g → a ∈ g.nodes → b ∈ g.nodes → nx.sp g a b = none → ¬ Reach g a b

/-- A well-formed FROM clause: a base view followed by joins. -/
structure FromOk (g : Graph) (req : List String) (base : String) (joins : List Pair) : Prop where
  /-- no view is joined twice -/
  once : (joins.map (·.2)).Nodup
  /-- the base view is not joined again -/
  baseOnce : base ∉ joins.map (·.2)
  /-- the left-hand view of each join is the base or was joined before -/
  left : ∀ pre j post, joins = pre ++ j :: post → j.1 = base ∨ j.1 ∈ pre.map (·.2)
  /-- each join is an edge of the join graph -/
  edges : ∀ j ∈ joins, HasEdge g j.1 j.2
  /-- every required view is there -/
  complete : ∀ v ∈ req, v = base ∨ v ∈ joins.map (·.2)

/-- Reachability along edges between views of the list. -/
inductive ReachIn (g : Graph) (req : List String) : String → String → Prop
  | refl (a : String) : ReachIn g req a a
  | step {a b c : String} : ReachIn g req a b → HasEdge g b c → c ∈ req → ReachIn g req a c

end ML.Spec
