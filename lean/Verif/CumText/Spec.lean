import Verif.CumText.Model
import Verif.Expr.Spec
/-
What a condition of a cumulative metric says, and what the warehouse makes of a conjunction.
-/
set_option autoImplicit false
namespace ML.Spec

/-- The operators of a text that stand outside its parentheses and CASEs. -/
def looseOps (ps : List Piece) : List (List Char) :=
  match readParts [] [] [] (pieceTokens .idle ps) with
  | none => []
  | some is => (operands none is).filterMap (fun s => match s with | .o p => some p | .x _ => none)

/-- What is true to the warehouse; a conjunction is true if both its sides are (NULL is not true). -/
structure Truth (D : Type) (I : Interp D) where
  holds : D → Prop
  conj : ∀ a b, holds (I.bin "and".toList a b) ↔ holds a ∧ holds b

/-- A name that is one word of SQL: letters, digits, underscores and dots, and no word of the grammar. -/
def PlainColumn (t : List Char) : Prop := aloneText t = some (.atom t) ∧ '{' ∉ t

/-- The column of the metric's rows that a name in its condition stands for: that of the field, at the granularity of the query unless the metric says
otherwise. -/
def whereColumn (m : CumTexts) (group : List Char) (f : WhereField) : List Char :=
  "subquery_".toList ++ m.label ++ ".".toList ++
    (if f.kind ≠ .dimension ∧ m.updateTimeframe ≠ some false then { f with group := group } else f).label

/-- Fields are found as projects find them: a time by the name of one of its groups. -/
def FindsGroups (get : List Char → Res WhereField) : Prop :=
  ∀ n f g h, get n = .ok f → f.kind = .time → get (f.view ++ '.' :: f.name ++ '_' :: g) = .ok h → h = { f with group := g }

end ML.Spec
