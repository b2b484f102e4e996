import Verif.Dates.Model
import Verif.SymAgg.Model
/-
Filter values written as strings: `/repo/metrics_layer/core/model/filter.py`, `Filter._filter_dict`,
`translate_looker_filters_to_sql` and `sql_query`; and the `sql` of a measure with filters
(`/repo/metrics_layer/core/model/field.py`).
-/
set_option autoImplicit false
namespace ML

/-- A filter value as it is written in the configuration or in a query (filter.py 349). Simplification:
floats and dictionaries are left out. -/
inductive FVal where
  | null
  | bool (b : Bool)
  | int (n : ℤ)
  | str (s : List Char)
  | literal (s : List Char)      -- pypika's LiteralValue
  | list (vs : List (List Char)) -- a list of strings, or any value that cannot be hashed
  deriving DecidableEq, Repr

/-- `MetricsLayerFilterExpressionType` (filter.py 37-64). -/
inductive Expression where
  | unknown | lessThan | lessOrEqual | equalTo | notEqualTo | greaterOrEqual | greaterThan | like
  | contains | doesNotContain | containsCI | doesNotContainCI
  | startsWith | endsWith | doesNotStartWith | doesNotEndWith
  | startsWithCI | endsWithCI | doesNotStartWithCI | doesNotEndWithCI
  | isNull | isNotNull | isIn | isNotIn | booleanTrue | booleanFalse | matches
  deriving DecidableEq, Repr

/-- The value a comparison is made with (`cleaned_value`, filter.py 375-468). -/
inductive Operand where
  | none
  | bool (b : Bool)
  | text (s : List Char)
  | num (q : ℚ)
  | texts (l : List (List Char))
  | time (t : DateTime)
  | literal (s : List Char)
  deriving DecidableEq

/-- One comparison: the dictionary with "expression" and "value" (filter.py 400, 470). -/
structure Comparison where
  expr : Expression
  value : Operand
  deriving DecidableEq

/-- `s.split(", ")`. filter.py 419-429. -/
def splitComma : List Char → List (List Char)
  | [] => [[]]
  | ',' :: ' ' :: cs => [] :: splitComma cs
  | c :: cs =>
    match splitComma cs with
    | [] => [[c]]
    | p :: ps => (c :: p) :: ps

/-- `str(value).split(" ")[0]` (filter.py 371). -/
def firstWord (s : List Char) : List Char := (splitChars ' ' s).headD []

/-- `" ".join(str(value).split(" ")[:2])` (filter.py 372). -/
def firstTwoWords (s : List Char) : List Char :=
  match splitChars ' ' s with
  | a :: b :: _ => a ++ ' ' :: b
  | l => l.headD []

/-- `category[0] == "-"`: an empty text has no first character. filter.py 420 and 424. -/
def startsNegative (c : List Char) : Res Bool :=
  match c with
  | [] => .error .indexError
  | x :: _ => .ok (x = '-')

/-- `all(category[0] == "-" …)`: stops at the first that is not (filter.py 420). -/
def allNegative : List (List Char) → Res Bool
  | [] => .ok true
  | c :: cs =>
    match startsNegative c with
    | .error e => .error e
    | .ok false => .ok false
    | .ok true => allNegative cs

/-- `any(category[0] == "-" …)`: stops at the first that is (filter.py 424). -/
def anyNegative : List (List Char) → Res Bool
  | [] => .ok false
  | c :: cs =>
    match startsNegative c with
    | .error e => .error e
    | .ok true => .ok true
    | .ok false => anyNegative cs

/-- The comma-separated branch (filter.py 418-429). -/
def listComparison (parts : List (List Char)) : Res Comparison :=
  match allNegative parts with
  | .error e => .error e
  | .ok true => .ok ⟨.isNotIn, .texts (parts.map (fun c => strip (c.drop 1)))⟩
  | .ok false =>
    match anyNegative parts with
    | .error e => .error e
    | .ok true => .error .query
    | .ok false => .ok ⟨.isIn, .texts (parts.map strip)⟩

/-- `_symbol_to_filter_type_lookup` for two characters (filter.py 357-361, 432-434). -/
def twoSymbols (s : List Char) : Option (Expression × List Char) :=
  match s with
  | '<' :: '=' :: r => some (.lessOrEqual, r)
  | '>' :: '=' :: r => some (.greaterOrEqual, r)
  | '<' :: '>' :: r => some (.notEqualTo, r)
  | '!' :: '=' :: r => some (.notEqualTo, r)
  | _ => none

/-- `_symbol_to_filter_type_lookup` for one character (filter.py 363-365, 437-439). -/
def oneSymbol (s : List Char) : Option (Expression × List Char) :=
  match s with
  | '=' :: r => some (.equalTo, r)
  | '>' :: r => some (.greaterThan, r)
  | '<' :: r => some (.lessThan, r)
  | _ => none

/-- `value[-1] == "%"`. filter.py 443-463. -/
def endsPercent (s : List Char) : Bool := s.getLast? = some '%'

/-- `value[0] == "%"`. filter.py 457-460. -/
def startsPercent (s : List Char) : Bool := s.head? = some '%'

/-- A string that begins with "-" (filter.py 441-454); `r` is the text after the "-". -/
def negatedComparison (r : List Char) : Res Comparison :=
  match r with
  | [] => .error .indexError
  | _ =>
    if startsPercent r && endsPercent ('-' :: r) then .ok ⟨.doesNotContainCI, .text (r.drop 1).dropLast⟩
    else if startsPercent r then .ok ⟨.doesNotEndWithCI, .text (r.drop 1)⟩
    else if endsPercent ('-' :: r) then .ok ⟨.doesNotStartWithCI, .text r.dropLast⟩
    else .ok ⟨.notEqualTo, .text r⟩

/-- Any other string (filter.py 456-468). -/
def plainComparison (s : List Char) : Comparison :=
  if startsPercent s && endsPercent s then ⟨.containsCI, .text (s.drop 1).dropLast⟩
  else if startsPercent s then ⟨.endsWithCI, .text (s.drop 1)⟩
  else if endsPercent s then ⟨.startsWithCI, .text s.dropLast⟩
  else ⟨.equalTo, .text s⟩

/-- `pd.to_numeric` on a text: an external function, given as a parameter; failing is a ValueError
(filter.py 434, 439). -/
abbrev ToNumeric := List Char → Option ℚ

/-- A numeric comparison (filter.py 431-439). -/
def numericComparison (num : ToNumeric) (e : Expression) (r : List Char) : Res Comparison :=
  match num r with
  | none => .error .valueError
  | some q => .ok ⟨e, .num q⟩

/-- `_filter_dict` after the date phrase has been looked for (filter.py 371-470), on a string that is
not empty. `date` is the date condition found. -/
def stringComparison (num : ToNumeric) (date : Option Window) (s : List Char) : Res (List Comparison) :=
  if s = "NULL".toList then .ok [⟨.isNull, .none⟩]
  else if s = "-NULL".toList then .ok [⟨.isNotNull, .none⟩]
  else if s = "TRUE".toList then .ok [⟨.equalTo, .bool true⟩]
  else if s = "FALSE".toList then .ok [⟨.equalTo, .bool false⟩]
  else match date with
  | some w => .ok (w.map (fun b => ⟨match b.1 with | .ge => .greaterOrEqual | .le => .lessOrEqual, .time b.2⟩))
  | none =>
    if firstWord s ∈ ["after".toList, "before".toList, "on".toList] ∨ firstTwoWords s = "not on".toList then
      match parseDateString ((splitChars ' ' s).getLastD []) with
      | .error e => .error e
      | .ok t =>
        .ok [⟨if firstWord s = "after".toList then .greaterOrEqual
          else if firstWord s = "before".toList then .lessOrEqual
          else if firstWord s = "on".toList then .equalTo else .notEqualTo, .time t⟩]
    else if (splitComma s).length > 1 then (listComparison (splitComma s)).map ([·])
    else match twoSymbols s with
    | some (e, r) => (numericComparison num e r).map ([·])
    | none =>
      match oneSymbol s with
      | some (e, r) => (numericComparison num e r).map ([·])
      | none =>
        match s with
        | '-' :: r => (negatedComparison r).map ([·])
        | _ => .ok [plainComparison s]

/-- The values that are not strings (filter.py 371-470). A text that holds a date phrase is looked for in
`str(value)` first; for these values the outcome does not depend on what is found. A literal with
" until " in it has no `split` (see `filterDict`). Simplification: lists whose text makes the search for a
date phrase itself fail are left out; any other list is not hashable (filter.py 389). -/
def otherComparison (v : FVal) : Res (List Comparison) :=
  match v with
  | .null => .ok [⟨.isNull, .none⟩]
  | .bool b => .ok [⟨.equalTo, .bool b⟩]
  | .int n => if n = 1 then .ok [⟨.equalTo, .bool true⟩] else if n = 0 then .ok [⟨.equalTo, .bool false⟩]
    else .error .attributeError
  | .literal s => .ok [⟨.equalTo, .literal s⟩]
  | .list _ => .error .typeError
  | .str _ => .error .other

/-- The week settings outside of any parse: `_reset_week_start_day` (filter.py 158-161). -/
def defaultWeek : WeekState := ⟨0, 6⟩

/-- `Filter._set_week_start_day` overwrites both settings (filter.py 151-156). -/
def setWeek (week : Option String) (_ : WeekState) : WeekState := weekStateFor week

/-- `Filter._reset_week_start_day` (filter.py 158-161). -/
def resetWeek (_ : WeekState) : WeekState := defaultWeek

/-- `Filter._filter_dict` with pendulum's process-wide week settings as state (filter.py 348-470): the
settings are made before and reset after the date phrase is looked for, unless that raises. The empty
string gives no comparison (`{}`). -/
def filterDict (num : ToNumeric) (now : DateTime) (week : Option String) (v : FVal) (st : WeekState) :
    Res (List Comparison) × WeekState :=
  match v with
  | .str [] => (.ok [], st)
  | .str s =>
    let st := setWeek week st
    match parseDateCondition st now s with
    | .error e => (.error e, st)
    | .ok date => (stringComparison num date s, resetWeek st)
  | .literal s =>
    let st := setWeek week st
    if containsSub " until ".toList s then (.error .attributeError, st)
    else (otherComparison (.literal s), resetWeek st)
  | v => (otherComparison v, resetWeek (setWeek week st))

/-- Parsing one filter value after another in one process, each for its own model and at its own time
(filter.py 348-470): the week settings are handed on. -/
def parseAll (num : ToNumeric) : List (DateTime × Option String × FVal) → WeekState →
    List (Res (List Comparison)) × WeekState
  | [], st => ([], st)
  | (now, week, v) :: rest, st =>
    let r := filterDict num now week v st
    let rs := parseAll num rest r.2
    (r.1 :: rs.1, rs.2)

/-! ### SQL text -/

/-- Pypika's `ValueWrapper` for a string: quotes are doubled. Used by filter.py, `sql_query`, 532-600. -/
def quote (s : List Char) : List Char := '\'' :: (s.flatMap (fun c => if c = '\'' then ['\'', '\''] else [c])) ++ ['\'']

/-- Two digits. Used by filter.py, `sql_query`, 532-600. -/
def twoDigits (n : ℤ) : List Char := (if n < 10 then ['0'] else []) ++ (toString n).toList

/-- `_date_to_string` (filter.py 482-484), for years with four digits. -/
def dateText (t : DateTime) : List Char :=
  (toString t.date.year).toList ++ '-' :: twoDigits t.date.month ++ '-' :: twoDigits t.date.day ++
    'T' :: twoDigits (t.sec / 3600) ++ ':' :: twoDigits (t.sec / 60 % 60) ++ ':' :: twoDigits (t.sec % 60)

/-- Pypika's text of a value. Numbers are printed by `numText`. Used by filter.py, `sql_query`, 532-600. -/
def Operand.sql (numText : ℚ → List Char) : Operand → List Char
  | .none => "null".toList
  | .bool b => if b then "true".toList else "false".toList
  | .text s => quote s
  | .num q => numText q
  | .texts l => '(' :: (List.intercalate [','] (l.map quote)) ++ [')']
  | .time t => quote (dateText t)
  | .literal s => s

/-- The text inside an operand, put into a pattern (`f"%{value}%"`, filter.py 548-571). -/
def Operand.inner : Operand → List Char
  | .text s => s
  | _ => []

/-- `Filter.sql_query` as text (filter.py 531-583), for the field text `f`. Simplification: the
conversion of list elements of number fields (filter.py 534-539) is left out. -/
def sqlQuery (numText : ℚ → List Char) (f : List Char) (c : Comparison) : Res (List Char) :=
  let v := c.value.sql numText
  let lowerOf (s : List Char) := "LOWER(".toList ++ s ++ [')']
  match c.expr with
  | .lessThan => .ok (f ++ '<' :: v)
  | .lessOrEqual => .ok (f ++ "<=".toList ++ v)
  | .equalTo => .ok (f ++ '=' :: v)
  | .notEqualTo => .ok (f ++ "<>".toList ++ v)
  | .greaterOrEqual => .ok (f ++ ">=".toList ++ v)
  | .greaterThan => .ok (f ++ '>' :: v)
  | .like => .ok (f ++ " LIKE ".toList ++ v)
  | .contains => .ok (f ++ " LIKE ".toList ++ quote ('%' :: c.value.inner ++ ['%']))
  | .doesNotContain => .ok (f ++ " NOT LIKE ".toList ++ quote ('%' :: c.value.inner ++ ['%']))
  | .containsCI => .ok (lowerOf f ++ " LIKE ".toList ++ lowerOf (quote ('%' :: c.value.inner ++ ['%'])))
  | .doesNotContainCI => .ok (lowerOf f ++ " NOT LIKE ".toList ++ lowerOf (quote ('%' :: c.value.inner ++ ['%'])))
  | .startsWith => .ok (f ++ " LIKE ".toList ++ quote (c.value.inner ++ ['%']))
  | .endsWith => .ok (f ++ " LIKE ".toList ++ quote ('%' :: c.value.inner))
  | .doesNotStartWith => .ok (f ++ " NOT LIKE ".toList ++ quote (c.value.inner ++ ['%']))
  | .doesNotEndWith => .ok (f ++ " NOT LIKE ".toList ++ quote ('%' :: c.value.inner))
  | .startsWithCI => .ok (lowerOf f ++ " LIKE ".toList ++ lowerOf (quote (c.value.inner ++ ['%'])))
  | .endsWithCI => .ok (lowerOf f ++ " LIKE ".toList ++ lowerOf (quote ('%' :: c.value.inner)))
  | .doesNotStartWithCI => .ok (lowerOf f ++ " NOT LIKE ".toList ++ lowerOf (quote (c.value.inner ++ ['%'])))
  | .doesNotEndWithCI => .ok (lowerOf f ++ " NOT LIKE ".toList ++ lowerOf (quote ('%' :: c.value.inner)))
  | .isNull => .ok (f ++ " IS NULL".toList)
  | .isNotNull => .ok ("NOT ".toList ++ f ++ " IS NULL".toList)
  | .isIn => .ok (f ++ " IN ".toList ++ v)
  | .isNotIn => .ok ("NOT ".toList ++ f ++ " IN ".toList ++ v)
  | .booleanTrue => .ok f
  | .booleanFalse => .ok ("NOT ".toList ++ f)
  | .unknown | .matches => .error .query

/-! ### Filtered measures -/

/-- A filter of a measure: a dictionary that may lack either key (filter.py 490-493). -/
structure MeasureFilter where
  field : Option String
  value : Option FVal
  week : Option String   -- "week_start_day"; "timezone" is part of `now`
  deriving DecidableEq

/-- The comparisons of the filters of a measure in order, each with the field it is about
(filter.py 490-519). A filter that lacks a key is skipped, and so is one with an empty string. The week
settings left behind by one filter do not matter to the next (`C25_no_influence`), so they are not passed
on. -/
def filterConditions (num : ToNumeric) (now : DateTime) :
    List MeasureFilter → Res (List (String × Comparison))
  | [] => .ok []
  | f :: fs =>
    match f.field, f.value with
    | some field, some value =>
      match (filterDict num now f.week value defaultWeek).1 with
      | .error e => .error e
      | .ok cs =>
        match filterConditions num now fs with
        | .error e => .error e
        | .ok rest => .ok (cs.map (fun c => (field, c)) ++ rest)
    | _, _ => filterConditions num now fs

/-- The result of `translate_looker_filters_to_sql` (filter.py 486-529): a CASE expression. -/
structure CaseSql where
  conditions : List (String × Comparison)
  sql : String
  elseZero : Bool
  deriving DecidableEq

/-- `translate_looker_filters_to_sql` (filter.py 486-529). -/
def translateFilters (num : ToNumeric) (now : DateTime) (sql : String)
    (filters : List MeasureFilter) (elseZero : Bool) : Res CaseSql :=
  match filterConditions num now filters with
  | .error e => .error e
  | .ok cs => .ok ⟨cs, sql, elseZero⟩

/-- The text of each condition (filter.py 514-519). -/
def conditionTexts (numText : ℚ → List Char) : List (String × Comparison) → Res (List (List Char))
  | [] => .ok []
  | (f, c) :: cs =>
    match sqlQuery numText ("${".toList ++ f.toList ++ ['}']) c with
    | .error e => .error e
    | .ok t =>
      match conditionTexts numText cs with
      | .error e => .error e
      | .ok ts => .ok (t :: ts)

/-- The text of the CASE expression (filter.py 488, 521-529). -/
def CaseSql.text (numText : ℚ → List Char) (c : CaseSql) : Res (List Char) :=
  match conditionTexts numText c.conditions with
  | .error e => .error e
  | .ok ts => .ok ("case when ".toList ++ List.intercalate " and ".toList ts ++ " then ".toList ++ c.sql.toList ++
      (if c.elseZero then " else 0 end".toList else " end".toList))

/-- SQL's three-valued AND: `none` is unknown. Used for " and " (filter.py 522). -/
def sqlAnd : Option Bool → Option Bool → Option Bool
  | some false, _ => some false
  | _, some false => some false
  | some true, some true => some true
  | _, _ => none

/-- SQL value of the CASE expression on a row (filter.py 521-529), for an engine that gives the truth of
each comparison and the value of the text. -/
def CaseSql.eval {ρ : Type} (truth : ρ → String → Comparison → Option Bool) (value : ρ → String → Val)
    (c : CaseSql) (row : ρ) : Val :=
  if (c.conditions.map (fun x => truth row x.1 x.2)).foldl sqlAnd (some true) = some true then value row c.sql
  else if c.elseZero then some 0 else none

end ML
