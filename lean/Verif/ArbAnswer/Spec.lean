import Verif.ArbAnswer.Model
import Verif.Arb.Spec
/- What C91 says, apart from the model's functions: which lines of the later queries belong to a line of the first. -/
set_option autoImplicit false
namespace ML
namespace Spec
variable {α : Type}

/-- Line `t` of a later query belongs to line `l` of the first: for every join field both have a value, and the values are the
same (on BigQuery, the same as timestamps when the data types of the two fields differ). -/
def Belongs (env : ArbEnv) (cast : α → α) (s : SubQ) (l t : MLine α) : Prop :=
  ∀ k ∈ s.joinFields, ∃ bf jf x y, env.get k.source = .ok bf ∧ env.get k.field = .ok jf ∧
    l bf.aliasName = some x ∧ t jf.aliasName = some y ∧
    ((env.bigquery = true ∧ bf.datatype ≠ jf.datatype) ∧ cast x = cast y ∨
      ¬ (env.bigquery = true ∧ bf.datatype ≠ jf.datatype) ∧ x = y)

/-- A later query asks for a join that keeps lines without a partner. -/
def KeepsAll (s : SubQ) : Prop := s.joinType ≠ some "inner" ∧ s.joinType ≠ some "cross"

/-- What a later query gives to line `l` of the first: one of its lines that belong to it; or nothing, when there is none and
the join is not an inner one (nor a cross join). -/
def Contributes (env : ArbEnv) (cast : α → α) (tables : String → List (MLine α)) (l : MLine α) (s : SubQ) : Option (MLine α) → Prop
  | some t => t ∈ tables s.cte ∧ Belongs env cast s l t
  | none => KeepsAll s ∧ ∀ t ∈ tables s.cte, ¬ Belongs env cast s l t

/-- The value in column `c = (query, name)` when the queries contribute these lines: NULL if the query contributes none. -/
def valueIn : List SubQ → List (Option (MLine α)) → String × String → Option α
  | s :: ss, l :: ls, c => if s.cte = c.1 then (match l with | some l => l c.2 | none => none) else valueIn ss ls c
  | _, _, _ => none

/-- The line of the answer in which the queries contribute these lines: all columns under their names. -/
def lineOf (q : ArbQuery) (ls : List (Option (MLine α))) : List (String × Option α) :=
  q.columns.map (fun c => (c.2, valueIn q.subs ls c))

/-- Every later query asks for a left join (or does not say) or for an inner join. -/
def LeftOrInner (q : ArbQuery) : Prop :=
  ∀ s ∈ q.subs.tail, s.joinType = none ∨ s.joinType = some "left_outer" ∨ s.joinType = some "inner"

/-- The answer of a query has one line for each combination of values of its dimensions. -/
def OneLineEach (env : ArbEnv) (s : SubQ) (table : List (MLine α)) : Prop :=
  table.Pairwise (fun t t' => ∃ d ∈ s.dimensions, ∃ f, env.get d = .ok f ∧ t f.aliasName ≠ t' f.aliasName)

/-- Every dimension of a query is one it is joined on. -/
def JoinedOnAll (env : ArbEnv) (s : SubQ) : Prop :=
  ∀ d ∈ s.dimensions, ∀ f, env.get d = .ok f → JoinsOn env s f.aliasName

/-- The value under a name in a line of the answer. -/
def under (line : List (String × Option α)) (name : String) : Option α :=
  ((line.find? (fun p => p.1 == name)).map (·.2)).getD none

/-- A value is to come before another: a smaller one (a larger one when descending); a NULL comes last, or counts as the smallest
value on warehouses where that cannot be asked for. -/
def ComesFirst (lt : α → α → Bool) (nullsLast desc : Bool) : Option α → Option α → Prop
  | some a, some b => if desc then lt b a = true else lt a b = true
  | some _, none => nullsLast = true ∨ desc = true
  | none, some _ => nullsLast = false ∧ desc = false
  | none, none => False

/-- A line is to come before another: it does so in one of the columns to order by, and in none before it does one come first. -/
def LineFirst (lt : α → α → Bool) (nullsLast : Bool) (keys : List (String × Bool)) (x y : List (String × Option α)) : Prop :=
  ∃ pre k post, keys = pre ++ k :: post ∧ ComesFirst lt nullsLast k.2 (under x k.1) (under y k.1) ∧
    ∀ k' ∈ pre, ¬ ComesFirst lt nullsLast k'.2 (under x k'.1) (under y k'.1) ∧ ¬ ComesFirst lt nullsLast k'.2 (under y k'.1) (under x k'.1)

end Spec
end ML
