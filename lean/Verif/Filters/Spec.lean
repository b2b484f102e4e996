import Verif.Filters.Model
/-
Specification vocabulary for filters (C03, C04, C27, C28): SQL's three-valued logic, the SQL
grammar for AND/OR with its usual precedence, and the meaning of the JSON filter language.
-/
set_option autoImplicit false
namespace ML.Spec

/-- SQL truth values. -/
inductive TV where
  | t | f | u
  deriving DecidableEq, Repr

def TV.and : TV → TV → TV
  | .f, _ => .f
  | _, .f => .f
  | .t, .t => .t
  | _, _ => .u

def TV.or : TV → TV → TV
  | .t, _ => .t
  | _, .t => .t
  | .f, .f => .f
  | _, _ => .u

def TV.conj (l : List TV) : TV := l.foldr TV.and .t
def TV.disj (l : List TV) : TV := l.foldr TV.or .f

/-- Boolean expressions. -/
inductive Expr where
  | atom (i : Nat)
  | and (a b : Expr)
  | or (a b : Expr)
  deriving DecidableEq, Repr

/-- SQL evaluation of an expression, given the truth value of each comparison on a row. -/
def Expr.eval (val : Nat → TV) : Expr → TV
  | .atom i => val i
  | .and a b => (a.eval val).and (b.eval val)
  | .or a b => (a.eval val).or (b.eval val)

mutual
/-- How a database reads `or-expression := and-expression [OR or-expression]`; `n` bounds the
recursion depth. Returns the expression and the remaining tokens. -/
def readOr : Nat → List Tok → Option (Expr × List Tok)
  | 0, _ => none
  | n + 1, ts =>
    match readAnd n ts with
    | none => none
    | some (a, .or :: r) =>
      match readOr n r with
      | none => none
      | some (b, r') => some (.or a b, r')
    | some (a, r) => some (a, r)
/-- `and-expression := factor [AND and-expression]`. -/
def readAnd : Nat → List Tok → Option (Expr × List Tok)
  | 0, _ => none
  | n + 1, ts =>
    match readFactor n ts with
    | none => none
    | some (a, .and :: r) =>
      match readAnd n r with
      | none => none
      | some (b, r') => some (.and a b, r')
    | some (a, r) => some (a, r)
/-- `factor := comparison | ( or-expression )`. -/
def readFactor : Nat → List Tok → Option (Expr × List Tok)
  | 0, _ => none
  | _ + 1, .atom i :: r => some (.atom i, r)
  | n + 1, .lp :: r =>
    match readOr n r with
    | some (e, .rp :: r') => some (e, r')
    | _ => none
  | _ + 1, _ => none
end

/-- The whole text reads as the expression `e`. -/
def Reads (ts : List Tok) (e : Expr) : Prop := ∃ n, readOr n ts = some (e, [])

/-- The text reads as one operand of AND: it has no OR outside parentheses. -/
def ReadsAsOperand (ts : List Tok) (e : Expr) : Prop := ∃ n, readAnd n ts = some (e, [])

mutual
/-- The meaning of a JSON filter: `OR` is disjunction, `AND` or no operator conjunction; a leaf is
the conjunction of its comparisons. -/
def meaning (val : Nat → TV) : FObj → TV
  | .leaf l => TV.conj ((l.first :: l.rest).map val)
  | .group op cs => if op = some "OR" then TV.disj (meanings val cs) else TV.conj (meanings val cs)
  | .list _ => .u
  | .other => .u
def meanings (val : Nat → TV) : List FObj → List TV
  | [] => []
  | c :: cs => meaning val c :: meanings val cs
end

mutual
/-- A JSON filter the API documents: dictionaries only, groups not empty, operator AND, OR or
absent. -/
def WellFormedFilter : FObj → Prop
  | .leaf _ => True
  | .group op cs => cs ≠ [] ∧ (op = none ∨ op = some "AND" ∨ op = some "OR") ∧ WellFormedFilters cs
  | .list _ => False
  | .other => False
def WellFormedFilters : List FObj → Prop
  | [] => True
  | c :: cs => WellFormedFilter c ∧ WellFormedFilters cs
end

mutual
/-- The leaves of a filter object, in document order. -/
def leaves : FObj → List Leaf
  | .leaf l => [l]
  | .group _ cs => leavesList cs
  | .list cs => leavesList cs
  | .other => []
def leavesList : List FObj → List Leaf
  | [] => []
  | c :: cs => leaves c ++ leavesList cs
end

/-- The leaf `l` occurs somewhere inside the filter object. -/
inductive Inside (l : Leaf) : FObj → Prop
  | here : Inside l (.leaf l)
  | group (op : Option String) (cs : List FObj) (c : FObj) : c ∈ cs → Inside l c →
      Inside l (.group op cs)
  | list (cs : List FObj) (c : FObj) : c ∈ cs → Inside l c → Inside l (.list cs)

end ML.Spec
