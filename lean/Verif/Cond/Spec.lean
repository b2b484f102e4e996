import Verif.Cond.Model
import Verif.Filters.Spec
import Verif.FilterStr.Spec
/-
Specification vocabulary for C74: the truth of a comparison in SQL, and what a condition's expression says in words.
-/
set_option autoImplicit false
namespace ML.Spec

/-- The truth value of a statement that is not unknown. -/
def TV.ofBool (b : Bool) : TV := if b then .t else .f

/-- Negation; unknown stays unknown. -/
def TV.not : TV → TV
  | .t => .f
  | .f => .t
  | .u => .u

/-- What a constant is on a row; SQL has the value it has there. -/
def RowSql.cell (w : RowSql) : CVal → Cell
  | .none => .null
  | .bool b => .bool b
  | .num q => .num q
  | .text s => .text s
  | .list _ => .null
  | .time t => .time t
  | .sql s => w.ev s

/-- An element of a list of constants. -/
def itemCell : CItem → Cell
  | .text s => .text s
  | .num q => .num q
  | .bool b => .bool b

/-- A comparison of two values: unknown if one is null. -/
def cmpTruth (w : RowSql) (x y : Cell) (p : Ordering → Bool) : TV :=
  if x = .null ∨ y = .null then .u else TV.ofBool (p (w.order x y))

/-- `x LIKE pattern`. -/
def liked (w : RowSql) (x : Cell) (pattern : List Char) : TV :=
  if x = .null then .u else TV.ofBool (like pattern (w.shown x))

/-- `LOWER(x) LIKE LOWER(pattern)`. -/
def likedLow (w : RowSql) (x : Cell) (pattern : List Char) : TV :=
  if x = .null then .u else TV.ofBool (like (low pattern) (low (w.shown x)))

/-- `x IN (…)`; what is not a list in parentheses is not SQL, and taken as unknown. -/
def among (w : RowSql) (x : Cell) : CVal → TV
  | .list [] => .f
  | .list l => if x = .null then .u else TV.ofBool (l.any (fun i => w.order x (itemCell i) = .eq))
  | _ => .u

/-- A value used as a condition. -/
def asCondition : Cell → TV
  | .bool b => TV.ofBool b
  | _ => .u

/-- The truth of a comparison on a row: SQL's rules. -/
def truth (sh : Shows) (w : RowSql) (a : Atom) : TV :=
  let x := w.ev a.col
  let y := RowSql.cell w a.value
  let s := a.value.shown sh
  match a.expr with
  | .lessThan => cmpTruth w x y (· = .lt)
  | .lessOrEqual => cmpTruth w x y (· ≠ .gt)
  | .equalTo => cmpTruth w x y (· = .eq)
  | .notEqualTo => cmpTruth w x y (· ≠ .eq)
  | .greaterOrEqual => cmpTruth w x y (· ≠ .lt)
  | .greaterThan => cmpTruth w x y (· = .gt)
  | .like => if y = .null then .u else liked w x (w.shown y)
  | .contains => liked w x ('%' :: s ++ ['%'])
  | .doesNotContain => (liked w x ('%' :: s ++ ['%'])).not
  | .containsCI => likedLow w x ('%' :: s ++ ['%'])
  | .doesNotContainCI => (likedLow w x ('%' :: s ++ ['%'])).not
  | .startsWith => liked w x (s ++ ['%'])
  | .endsWith => liked w x ('%' :: s)
  | .doesNotStartWith => (liked w x (s ++ ['%'])).not
  | .doesNotEndWith => (liked w x ('%' :: s)).not
  | .startsWithCI => likedLow w x (s ++ ['%'])
  | .endsWithCI => likedLow w x ('%' :: s)
  | .doesNotStartWithCI => (likedLow w x (s ++ ['%'])).not
  | .doesNotEndWithCI => (likedLow w x ('%' :: s)).not
  | .isNull => TV.ofBool (x = .null)
  | .isNotNull => TV.ofBool (x ≠ .null)
  | .isIn => among w x a.value
  | .isNotIn => (among w x a.value).not
  | .booleanTrue => asCondition x
  | .booleanFalse => (asCondition x).not
  | .unknown | .matches => .u

/-- The truth of comparisons that all have to hold. -/
def truths (sh : Shows) (w : RowSql) (as : List Atom) : TV := TV.conj (as.map (truth sh w))

/-! ### What the expressions say -/

/-- The expressions that compare with one value. -/
def orderNames : List String :=
  ["equal_to", "not_equal_to", "less_than", "less_or_equal_than", "greater_than", "greater_or_equal_than"]

/-- What they say of two values that are there. -/
def Ordered (w : RowSql) (name : String) (x y : Cell) : Prop :=
  (name = "equal_to" ∧ w.order x y = .eq) ∨ (name = "not_equal_to" ∧ w.order x y ≠ .eq) ∨
  (name = "less_than" ∧ w.order x y = .lt) ∨ (name = "less_or_equal_than" ∧ w.order x y ≠ .gt) ∨
  (name = "greater_than" ∧ w.order x y = .gt) ∨ (name = "greater_or_equal_than" ∧ w.order x y ≠ .lt)

/-- The expressions that look for a text. -/
def textNames : List String :=
  ["contains", "does_not_contain", "contains_case_insensitive", "does_not_contain_case_insensitive",
   "starts_with", "does_not_start_with", "starts_with_case_insensitive", "does_not_start_with_case_insensitive",
   "ends_with", "does_not_end_with", "ends_with_case_insensitive", "does_not_end_with_case_insensitive"]

/-- What they say of the text that is there, `x`, and the text asked for, `v`. -/
def TextHas (name : String) (v x : List Char) : Prop :=
  (name = "contains" ∧ v <:+: x) ∨ (name = "does_not_contain" ∧ ¬ v <:+: x) ∨
  (name = "contains_case_insensitive" ∧ low v <:+: low x) ∨
  (name = "does_not_contain_case_insensitive" ∧ ¬ low v <:+: low x) ∨
  (name = "starts_with" ∧ v <+: x) ∨ (name = "does_not_start_with" ∧ ¬ v <+: x) ∨
  (name = "starts_with_case_insensitive" ∧ low v <+: low x) ∨
  (name = "does_not_start_with_case_insensitive" ∧ ¬ low v <+: low x) ∨
  (name = "ends_with" ∧ v <:+ x) ∨ (name = "does_not_end_with" ∧ ¬ v <:+ x) ∨
  (name = "ends_with_case_insensitive" ∧ low v <:+ low x) ∨
  (name = "does_not_end_with_case_insensitive" ∧ ¬ low v <:+ low x)

/-- Every name of an expression a condition can use. -/
def knownNames : List String :=
  orderNames ++ textNames ++ ["like", "isin", "isnotin", "is_null", "is_not_null", "boolean_true", "boolean_false", "matches"]

/-- The comparison is true when `p` holds of a value that is there, false when it does not, and unknown when there is none. -/
def Says (tv : TV) (x : Cell) (p : Prop) : Prop :=
  (tv = .t ↔ x ≠ .null ∧ p) ∧ (tv = .f ↔ x ≠ .null ∧ ¬ p) ∧ (tv = .u ↔ x = .null)

/-- A constant: one value that is there. -/
def Constant (v : CVal) : Prop := (∃ b, v = .bool b) ∨ (∃ q, v = .num q) ∨ (∃ s, v = .text s) ∨ ∃ t, v = .time t

/-- The text is the name of a field, with its view: it has a point in it and the field's SQL can be had. -/
def NamesField (sc : Scene) (s t : List Char) : Prop :=
  '.' ∈ s ∧ ∃ f pk, sc.find s = .ok f ∧ sc.pk = .ok pk ∧ f.sql pk = .ok t

/-- The value is taken as it is: no name of a field, and no datetime that has to be cast. -/
def TakenAsIs (sc : Scene) (v : CVal) : Prop :=
  (∀ s, v = .text s → ¬ ∃ t, NamesField sc s t) ∧ (∀ t, v = .time t → sc.queryType ≠ "BIGQUERY" ∧ sc.queryType ≠ "TRINO")

/-- A condition on a field, with this expression and this value. -/
def onField (k : List Char) (name : String) (v : Option CVal) : Cond := ⟨some k, none, some name, v⟩

/-- The field is there and has this SQL. -/
structure HasSql (sc : Scene) (k : List Char) (f : AskedField) (col : List Char) : Prop where
  found : sc.find k = .ok f
  sql : ∃ pk, sc.pk = .ok pk ∧ f.sql pk = .ok col

end ML.Spec
