import Verif.ParseQ.Model
import Mathlib.Data.List.Infix
import Mathlib.Data.Nat.Notation
/- What the user of a single query relies on, in terms of names, fields and clauses. -/
set_option autoImplicit false
namespace ML.Spec

/-- A requested dimension is the primary key of the view of the first metric, and grouping is not forced. -/
def RowPerKey (get : String → Res QField) (metrics dimensions : List String) (force : Bool) : Prop :=
  force = false ∧ ∃ m fm d fd, metrics.head? = some m ∧ get m = .ok fm ∧ d ∈ dimensions ∧ get d = .ok fd ∧
    fd.primaryKey = true ∧ fd.view = fm.view

/-- Every name the query mentions belongs to a field. -/
def AllKnown (get : String → Res QField) (q : QRequest) : Prop :=
  ∀ n ∈ q.metrics ++ q.dimensions ++ (q.whereNames ++ q.havingNames ++ q.orderNames), ∃ f, get n = .ok f

/-- The direction written after a field: nothing, `asc` or `desc`. -/
inductive Dir | none | asc | desc
  deriving DecidableEq, Repr

/-- The treatment of NULLs written after it: nothing, `nulls first` or `nulls last`. -/
inductive Nulls | none | first | last
  deriving DecidableEq, Repr

/-- The words after the field name. -/
def words (d : Dir) (n : Nulls) : List Char :=
  (match d with | .none => "" | .asc => " asc" | .desc => " desc").toList ++
  (match n with | .none => "" | .first => " nulls first" | .last => " nulls last").toList

/-- `c` is a clause that orders by `f` in direction `d`: spaces, the name, the words in any letter case, spaces. -/
def IsClause (f : List Char) (d : Dir) (n : Nulls) (c : List Char) : Prop :=
  ∃ (lead trail : ℕ) (ws : List Char), c = List.replicate lead ' ' ++ (f ++ (ws ++ List.replicate trail ' ')) ∧
    ws.map Char.toLower = words d n

/-- A name in which the parser finds nothing to delete: it is not empty, has neither white space nor a comma, and contains
neither `desc` nor (when the direction is not `desc`) `asc`, in any letter case. -/
def SafeName (f : List Char) (d : Dir) : Prop :=
  f ≠ [] ∧ (∀ c ∈ f, isSpace c = false ∧ c ≠ ',') ∧ ¬ "desc".toList <:+: f.map Char.toLower ∧
    (d ≠ .desc → ¬ "asc".toList <:+: f.map Char.toLower)

end ML.Spec
