import Verif.FilterStr.Model
/-
Specification vocabulary for C23, C25, C26 and C51.
-/
set_option autoImplicit false
namespace ML.Spec

/-! ### What a comparison says about a text -/

/-- SQL's LIKE: `%` stands for any text, `_` for any character. -/
def like : List Char → List Char → Bool
  | [], x => x = []
  | c :: p, x =>
    if c = '%' then x.tails.any (like p)
    else match x with
      | [] => false
      | y :: ys => (c = '_' || c = y) && like p ys

/-- Lower case. -/
def low (s : List Char) : List Char := s.map Char.toLower

/-- Does a (non-null) text satisfy the comparison? `none` for comparisons that are not about text. -/
def holds (c : Comparison) (x : List Char) : Option Bool :=
  match c.expr, c.value with
  | .equalTo, .text v => some (x = v)
  | .notEqualTo, .text v => some (x ≠ v)
  | .containsCI, .text v => some (like (low ('%' :: v ++ ['%'])) (low x))
  | .doesNotContainCI, .text v => some (!like (low ('%' :: v ++ ['%'])) (low x))
  | .startsWithCI, .text v => some (like (low (v ++ ['%'])) (low x))
  | .doesNotStartWithCI, .text v => some (!like (low (v ++ ['%'])) (low x))
  | .endsWithCI, .text v => some (like (low ('%' :: v)) (low x))
  | .doesNotEndWithCI, .text v => some (!like (low ('%' :: v)) (low x))
  | .isIn, .texts l => some (x ∈ l)
  | .isNotIn, .texts l => some (x ∉ l)
  | .isNull, .none => some false
  | .isNotNull, .none => some true
  | _, _ => none

/-- No wildcards. -/
def NoWildcard (v : List Char) : Prop := '%' ∉ v ∧ '_' ∉ v

/-! ### Classes of strings -/

/-- The text is this word, or begins with it and a space. -/
def BeginsWith (w s : List Char) : Prop := s = w ∨ w ++ [' '] <+: s

/-- Nothing special: not empty, no null or boolean word, no date phrase, none of the words that
introduce a day, no comma list. -/
structure Ordinary (ws : WeekState) (now : DateTime) (s : List Char) : Prop where
  nonempty : s ≠ []
  words : s ∉ ["NULL".toList, "-NULL".toList, "TRUE".toList, "FALSE".toList]
  noDate : parseDateCondition ws now s = .ok none
  noDay : ∀ w ∈ ["after".toList, "before".toList, "on".toList, "not on".toList], ¬ BeginsWith w s
  noComma : ¬ [',', ' '] <:+: s

/-- Does not begin with a comparison sign or a minus. -/
def Unsigned (s : List Char) : Prop :=
  (∀ c ∈ ['=', '<', '>', '-'], s.head? ≠ some c) ∧ ¬ ['!', '='] <+: s

/-! ### SQL string literals -/

/-- Read the rest of a string literal: a doubled quote stands for a quote, a single one ends it. What
follows is returned. -/
def readLiteral : List Char → Option (List Char × List Char)
  | [] => none
  | '\'' :: '\'' :: cs => (readLiteral cs).map (fun r => ('\'' :: r.1, r.2))
  | '\'' :: cs => some ([], cs)
  | c :: cs => (readLiteral cs).map (fun r => (c :: r.1, r.2))

/-- The same for warehouses that also take a backslash as an escape. -/
def readLiteralBackslash : List Char → Option (List Char × List Char)
  | [] => none
  | '\\' :: c :: cs => (readLiteralBackslash cs).map (fun r => (c :: r.1, r.2))
  | '\'' :: '\'' :: cs => (readLiteralBackslash cs).map (fun r => ('\'' :: r.1, r.2))
  | '\'' :: cs => some ([], cs)
  | c :: cs => (readLiteralBackslash cs).map (fun r => (c :: r.1, r.2))

/-- Read the rest of a parenthesised list of string literals, after the opening parenthesis. -/
def readTexts : ℕ → List Char → Option (List (List Char) × List Char)
  | 0, _ => none
  | n + 1, '\'' :: cs =>
    match readLiteral cs with
    | some (v, ',' :: rest) => (readTexts n rest).map (fun r => (v :: r.1, r.2))
    | some (v, ')' :: rest) => some ([v], rest)
    | _ => none
  | _, _ => none

/-! ### Filtered rows -/

/-- The row satisfies every filter that has a field and a value: every comparison the value stands for is
true of it (neither false nor unknown). -/
def RowMatches {ρ : Type} (num : ToNumeric) (now : DateTime) (truth : ρ → String → Comparison → Option Bool)
    (filters : List MeasureFilter) (r : ρ) : Prop :=
  ∀ f ∈ filters, ∀ field v cs, f.field = some field → f.value = some v →
    (filterDict num now f.week v defaultWeek).1 = .ok cs → ∀ c ∈ cs, truth r field c = some true

open Classical in
/-- The rows that satisfy every filter. -/
noncomputable def satisfying {ρ : Type} (num : ToNumeric) (now : DateTime)
    (truth : ρ → String → Comparison → Option Bool) (filters : List MeasureFilter) (rows : List ρ) : List ρ :=
  rows.filter (fun r => RowMatches num now truth filters r)

end ML.Spec
