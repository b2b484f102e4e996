import Verif.Cases.Model
import Verif.Expr.Spec
/-
What the author of a dimension with cases or tiers relies on (C77).
-/
set_option autoImplicit false
namespace ML.Spec

/-- The expression of a condition: what the text is to the warehouse, no `when`, `then` or `else` in it outside parentheses and other CASEs. -/
def condText (t : List Char) : Option SExp :=
  match readParts [] [] [] (exprTokens t) with
  | none => none
  | some is => if is = [] ∨ .comma ∈ is ∨ is.any caseWord = true then none else readOne is

/-- The text with single quotes for double quotes: authors write strings either way. -/
def asStrings : List Char → List Char
  | [] => []
  | '"' :: r => '\'' :: asStrings r
  | c :: r => c :: asStrings r

/-- The values of the arguments of a call. -/
def argValues {D : Type} (I : Interp D) : List D → D
  | [] => I.nil
  | a :: as => I.cons a (argValues I as)

/-- The name of a CASE with so many branches, and perhaps an ELSE. -/
def caseName (branches : ℕ) (withElse : Bool) : List Char :=
  "case".toList ++ (List.replicate branches " when then".toList).flatten ++ (if withElse then " else".toList else [])

/-- The warehouse knows CASE: its value is that of the first branch whose condition is true, else that of ELSE, else NULL. -/
def KnowsCase {D : Type} (I : Interp D) (true? : D → Bool) (null : D) : Prop :=
  ∀ (branches : List (D × D)) (els : Option D),
    I.call (caseName branches.length els.isSome) (argValues I (branches.flatMap (fun b => [b.1, b.2]) ++ els.toList)) =
      match branches.find? (fun b => true? b.1) with
      | some b => b.2
      | none => els.getD null

/-- The label of the first case that holds, else the label for all others. -/
def firstLabel (holds : SExp → Bool) (cases : List (SExp × List Char)) (others : Option (List Char)) : Option (List Char) :=
  match cases.find? (fun c => holds c.1) with
  | some c => some c.2
  | none => others

/-- Numbers are compared as numbers: a comparison is true of two numbers as it should be, and never of NULL; AND is true if both sides are. -/
structure KnowsNumbers {D : Type} (I : Interp D) (true? : D → Bool) (number : D → Option ℚ) : Prop where
  less : ∀ a b, true? (I.bin "<".toList a b) = match number a, number b with | some x, some y => decide (x < y) | _, _ => false
  atLeast : ∀ a b, true? (I.bin ">=".toList a b) = match number a, number b with | some x, some y => decide (y ≤ x) | _, _ => false
  both : ∀ a b, true? (I.bin "and".toList a b) = (true? a && true? b)

/-- The text is read as this number: it is one operand, or a minus in front of one. -/
def WrittenNumber {D : Type} (I : Interp D) (env : List Char → D) (number : D → Option ℚ) (t : List Char) (q : ℚ) : Prop :=
  (∃ e, aloneText t = some e ∧ number (e.value I env) = some q) ∨
  (∃ r e, t = '-' :: r ∧ aloneText r = some e ∧ number (I.un "neg".toList (e.value I env)) = some q)

/-- The boundaries a tier names. -/
def boundsOf : TierWhen → List ℚ
  | .below b => [b]
  | .between a b => [a, b]
  | .atLeast a => [a]

end ML.Spec
