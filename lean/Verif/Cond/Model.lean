import Verif.FilterStr.Model
/-
One condition of a query's `where` or `having`: `MetricsLayerFilter` on a dictionary without "conditions"
(`/repo/metrics_layer/core/sql/query_filter.py`) and `Filter.sql_query` (`/repo/metrics_layer/core/model/filter.py`).
-/
set_option autoImplicit false
namespace ML

/-- An element of a list of values, filter.py 534-539. Simplification: nulls, dates and lists inside lists are left out. -/
inductive CItem where
  | text (s : List Char)
  | num (q : ℚ)
  | bool (b : Bool)
  deriving DecidableEq

/-- The value of a condition, query_filter.py 107-152; `sql` is pypika's LiteralValue. Simplification: dictionaries and dates without a
time are left out. -/
inductive CVal where
  | none
  | bool (b : Bool)
  | num (q : ℚ)
  | text (s : List Char)
  | list (items : List CItem)
  | time (t : DateTime)
  | sql (s : List Char)
  deriving DecidableEq

/-- A condition as it is passed: the keys it has, query_filter.py 79-117. Simplification: a key given as null is as good as absent, except
for "value". -/
structure Cond where
  field : Option (List Char)
  literal : Option (List Char)
  expression : Option String
  value : Option CVal
  deriving DecidableEq

/-- Python's `str` of numbers and lists, used in f-strings at query_filter.py 22-25 and filter.py 548-571. -/
structure Shows where
  num : ℚ → List Char
  list : List CItem → List Char

/-- A field as a condition sees it, query_filter.py 127-152, for the query type of the design: the SQL depends on the functional primary
key. -/
structure AskedField where
  type : String
  datatype : Option (List Char)
  sql : Option String → Res (List Char)

/-- What a condition asks of the design, query_filter.py 119-140: the query type, the look-up of fields, the functional primary key, the
week's start, the time in the project's time zone, and the SQL of a literal filter (238-245). -/
structure Scene where
  queryType : String
  find : List Char → Res AskedField
  pk : Res (Option String)
  week : Option String
  now : DateTime
  literalSql : List Char → Res (List Char)

/-- The expressions that need no value, query_filter.py 113. -/
def noValue : List String := ["is_null", "is_not_null", "boolean_true", "boolean_false", "converted", "dropped_off"]

/-- `Definitions.needs_datetime_cast`, definitions.py 26. -/
def castTypes : List String := ["BIGQUERY", "TRINO"]

/-- `MetricsLayerFilterExpressionType.parse`, filter.py 37-77. -/
def parseExpression (s : String) : Expression :=
  match s with
  | "less_than" => .lessThan
  | "less_or_equal_than" => .lessOrEqual
  | "equal_to" => .equalTo
  | "not_equal_to" => .notEqualTo
  | "greater_or_equal_than" => .greaterOrEqual
  | "greater_than" => .greaterThan
  | "like" => .like
  | "contains" => .contains
  | "does_not_contain" => .doesNotContain
  | "contains_case_insensitive" => .containsCI
  | "does_not_contain_case_insensitive" => .doesNotContainCI
  | "starts_with" => .startsWith
  | "ends_with" => .endsWith
  | "does_not_start_with" => .doesNotStartWith
  | "does_not_end_with" => .doesNotEndWith
  | "starts_with_case_insensitive" => .startsWithCI
  | "ends_with_case_insensitive" => .endsWithCI
  | "does_not_start_with_case_insensitive" => .doesNotStartWithCI
  | "does_not_end_with_case_insensitive" => .doesNotEndWithCI
  | "is_null" => .isNull
  | "is_not_null" => .isNotNull
  | "isin" => .isIn
  | "isnotin" => .isNotIn
  | "boolean_true" => .booleanTrue
  | "boolean_false" => .booleanFalse
  | "matches" => .matches
  | _ => .unknown

/-- `str` of a datetime, query_filter.py 22-25, for years with four digits and without a time zone. -/
def timeShown (t : DateTime) : List Char :=
  (toString t.date.year).toList ++ '-' :: twoDigits t.date.month ++ '-' :: twoDigits t.date.day ++
    ' ' :: twoDigits (t.sec / 3600) ++ ':' :: twoDigits (t.sec / 60 % 60) ++ ':' :: twoDigits (t.sec % 60)

/-- `str(value)`, filter.py 548-571 and query_filter.py 22-25. -/
def CVal.shown (sh : Shows) : CVal → List Char
  | .none => "None".toList
  | .bool b => if b then "True".toList else "False".toList
  | .num q => sh.num q
  | .text s => s
  | .list l => sh.list l
  | .time t => timeShown t
  | .sql s => s

/-- `str(value).lower() == "true"`, query_filter.py 103. -/
def CVal.isTrue : CVal → Bool
  | .bool b => b
  | .text s => s.map Char.toLower = "true".toList
  | .sql s => s.map Char.toLower = "true".toList
  | _ => false

/-- `word in str(item)` for an element of a list and the words `True` and `False`, query_filter.py 148-152: the quotes and escapes of
`repr` have no capital letters. -/
def CItem.mentions (word : List Char) : CItem → Bool
  | .text s => containsSub word s
  | .num _ => false
  | .bool b => word = (if b then "True".toList else "False".toList)

/-- `word in str(value)` for the words `True` and `False`, query_filter.py 148-152: numbers and dates do not have them in their text. -/
def CVal.mentions (word : List Char) : CVal → Bool
  | .none => false
  | .bool b => word = (if b then "True".toList else "False".toList)
  | .num _ => false
  | .text s => containsSub word s
  | .list l => l.any (CItem.mentions word)
  | .time _ => false
  | .sql s => containsSub word s

/-- `datatype_cast`, query_filter.py 22-25: a field without a data type has no `upper`. -/
def datatypeCast (f : AskedField) (shown : List Char) : Res (List Char) :=
  match f.datatype with
  | none => .error .attributeError
  | some d =>
    if d.map Char.toUpper = "DATE".toList then .ok ("CAST(CAST('".toList ++ shown ++ "' AS TIMESTAMP) AS DATE)".toList)
    else .ok ("CAST('".toList ++ shown ++ "' AS ".toList ++ d.map Char.toUpper ++ [')'])

/-- A text with a point in it that names a field becomes the field's SQL, query_filter.py 131-141: whatever is raised on the way, the
text is kept. -/
def refValue (sc : Scene) : CVal → CVal
  | .text s =>
    if '.' ∈ s then
      match sc.find s with
      | .error _ => .text s
      | .ok f =>
        match sc.pk with
        | .error _ => .text s
        | .ok pk =>
          match f.sql pk with
          | .error _ => .text s
          | .ok t => .sql t
    else .text s
  | v => v

/-- The cast of datetimes, query_filter.py 143-146. -/
def castValue (sc : Scene) (f : AskedField) : Option CVal → Res (Option CVal)
  | none => if sc.queryType ∈ castTypes then .error .keyError else .ok none
  | some (.time t) =>
    if sc.queryType ∈ castTypes then
      match datatypeCast f (timeShown t) with
      | .error e => .error e
      | .ok s => .ok (some (.sql s))
    else .ok (some (.time t))
  | some v => .ok (some v)

/-- The expression of a condition on a `yesno` field, query_filter.py 148-152. -/
def yesNo (f : AskedField) (e : String) (v : Option CVal) : Res String :=
  if f.type = "yesno" then
    match v with
    | none => .error .keyError
    | some v =>
      if v.mentions "True".toList then .ok "boolean_true"
      else if v.mentions "False".toList then .ok "boolean_false"
      else .ok e
  else .ok e

/-- `MetricsLayerFilter.validate` with a design, after the checks that need none, query_filter.py 119-152: the field, and the dictionary
as it is left behind. A ParseError of the look-up would be answered with a look-up of an attribute that is not there yet, without end. -/
def Cond.resolve (sc : Scene) (c : Cond) (k : List Char) (e : String) : Res (AskedField × Cond) :=
  match sc.find k with
  | .error .parse => .error .recursion
  | .error err => .error err
  | .ok f =>
    match castValue sc f (c.value.map (refValue sc)) with
    | .error err => .error err
    | .ok v =>
      match yesNo f e v with
      | .error err => .error err
      | .ok e' => .ok (f, { c with value := v, expression := some e' })

/-- There is no value, query_filter.py 114. -/
def Cond.noneGiven (c : Cond) : Bool := c.value = none || c.value = some .none

/-- A value that stands for itself, without a field, query_filter.py 107-109. -/
def Cond.isBoolean (c : Cond) : Bool :=
  c.field = none && (match c.value with | some v => v.isTrue | none => false)

/-- `MetricsLayerFilter.validate` on a dictionary without "conditions", query_filter.py 79-152; `none` for the field if there is none. -/
def Cond.validate (sc : Option Scene) (c : Cond) : Res (Option AskedField × Cond) :=
  let c' : Cond := if c.isBoolean then { c with value := some (.bool true) } else c
  if c.field = none ∧ c.literal = none ∧ c.isBoolean = false then .error .parse
  else if c.field = none ∧ c.literal ≠ none ∧ c.literal ≠ some [] then .ok (none, c')
  else
    match c.expression with
    | none => .error .keyError
    | some e =>
      if e = "UNKNOWN" then .error .notImplemented
      else if c'.noneGiven ∧ e ∉ noValue then .error .parse
      else
        match sc with
        | none => .ok (none, c')
        | some sc =>
          if c.isBoolean then .ok (none, c')
          else
            match c.field with
            | none => .error .typeError
            | some k =>
              match c'.resolve sc k e with
              | .error err => .error err
              | .ok r => .ok (some r.1, r.2)

/-! ### The comparison -/

/-- One comparison in SQL: the SQL of the field, what is compared and with what, filter.py 531-583. -/
structure Atom where
  col : List Char
  expr : Expression
  value : CVal
  deriving DecidableEq

/-- `pd.to_numeric` of an element, filter.py 539: a text that is no number is a ValueError. -/
def CItem.toNumber (num : ToNumeric) : CItem → Res CItem
  | .text s =>
    match num s with
    | none => .error .valueError
    | some q => .ok (.num q)
  | i => .ok i

/-- The loop over the elements, filter.py 539. -/
def toNumbers (num : ToNumeric) : List CItem → Res (List CItem)
  | [] => .ok []
  | i :: is =>
    match i.toNumber num with
    | .error e => .error e
    | .ok j =>
      match toNumbers num is with
      | .error e => .error e
      | .ok js => .ok (j :: js)

/-- The values of `isin` and `isnotin`, filter.py 534-539 and 573-574: on a number field a text is a list of characters, and what has no
elements is a TypeError; otherwise what is neither a list nor SQL has no text. -/
def listValue (num : ToNumeric) (numeric : Bool) (v : CVal) : Res CVal :=
  if numeric then
    match v with
    | .list l => (toNumbers num l).map .list
    | .text s => (toNumbers num (s.map (fun c => .text [c]))).map .list
    | _ => .error .typeError
  else
    match v with
    | .list l => .ok (.list l)
    | .sql s => .ok (.sql s)
    | _ => .error .attributeError

/-- `Filter.sql_query`, filter.py 531-583. -/
def mkAtom (num : ToNumeric) (type : String) (col : List Char) (e : Expression) (v : CVal) : Res Atom :=
  match e with
  | .unknown | .matches => .error .query
  | .isIn | .isNotIn =>
    match listValue num (type == "number") v with
    | .error err => .error err
    | .ok v' => .ok ⟨col, e, v'⟩
  | _ => .ok ⟨col, e, v⟩

/-- The value as `Filter` takes it, query_filter.py 255-260. A number that is neither 0 nor 1 and a datetime end alike: they have no
`split` (filter.py 419). -/
def CVal.toFVal : CVal → FVal
  | .none => .null
  | .bool b => .bool b
  | .num q => if q = 0 then .int 0 else if q = 1 then .int 1 else .int 2
  | .text s => .str s
  | .list _ => .list []
  | .time _ => .int 2
  | .sql s => .literal s

/-- What a value written as a string is compared with, query_filter.py 262-267. -/
def Operand.toCVal : Operand → CVal
  | .none => .none
  | .bool b => .bool b
  | .text s => .text s
  | .num q => .num q
  | .texts l => .list (l.map .text)
  | .time t => .text (dateText t)
  | .literal s => .sql s

/-- One of the comparisons a string stands for, query_filter.py 262-267. -/
def matchAtom (sh : Shows) (num : ToNumeric) (sc : Scene) (f : AskedField) (col : List Char) (c : Comparison) : Res Atom :=
  if sc.queryType ∈ castTypes then
    match datatypeCast f (c.value.toCVal.shown sh) with
    | .error e => .error e
    | .ok s => mkAtom num f.type col c.expr (.sql s)
  else mkAtom num f.type col c.expr c.value.toCVal

/-- The loop over them, query_filter.py 261-267. -/
def matchAtoms (sh : Shows) (num : ToNumeric) (sc : Scene) (f : AskedField) (col : List Char) : List Comparison → Res (List Atom)
  | [] => .ok []
  | c :: cs =>
    match matchAtom sh num sc f col c with
    | .error e => .error e
    | .ok a =>
      match matchAtoms sh num sc f col cs with
      | .error e => .error e
      | .ok as => .ok (a :: as)

/-- `MetricsLayerFilter.criterion` on a field of the design, query_filter.py 247-273; `v` and `e` are what validation left. The empty
string stands for no comparison: its dictionary has no "expression". -/
def Cond.criterion (sh : Shows) (num : ToNumeric) (sc : Scene) (f : AskedField) (e : String) (v : CVal) (col : List Char) : Res (List Atom) :=
  if e = "matches" then
    match (filterDict num sc.now sc.week v.toFVal defaultWeek).1 with
    | .error err => .error err
    | .ok [] =>
      if sc.queryType ∈ castTypes ∧ f.datatype = none then .error .attributeError else .error .keyError
    | .ok (c :: cs) => matchAtoms sh num sc f col (c :: cs)
  else (mkAtom num f.type col (parseExpression e) v).map ([·])

/-- The SQL of a condition: the text of a literal filter, or comparisons that all have to hold. query_filter.py 195-212. -/
inductive CondSql where
  | literal (s : List Char)
  | all (atoms : List Atom)
  deriving DecidableEq

/-- `MetricsLayerFilter(definition, design, …)` and `sql_query()`, query_filter.py 41-64 and 195-212, with the dictionary left behind. A
condition that has a literal is the literal. -/
def Cond.sql (sh : Shows) (num : ToNumeric) (sc : Scene) (c : Cond) : Res (CondSql × Cond) :=
  match c.validate (some sc) with
  | .error e => .error e
  | .ok (f, c') =>
    match c.literal with
    | some s =>
      match sc.literalSql s with
      | .error e => .error e
      | .ok t => .ok (.literal t, c')
    | none =>
      match sc.pk with
      | .error e => .error e
      | .ok pk =>
        match f with
        | none => .error .attributeError
        | some f =>
          match f.sql pk with
          | .error e => .error e
          | .ok col =>
            match Cond.criterion sh num sc f (c'.expression.getD "") (c'.value.getD .none) col with
            | .error e => .error e
            | .ok as => .ok (.all as, c')

/-- The condition on a result that is already there, `sql_query(alias_query=True)` without a design, query_filter.py 195-207 and 247-273,
query_base.py 18-37: `col` is the column of the field. -/
def Cond.aliasSql (num : ToNumeric) (c : Cond) (col : List Char → Res (List Char)) : Res CondSql :=
  match c.validate none with
  | .error e => .error e
  | .ok (_, c') =>
    if c.literal ≠ none then .error .attributeError
    else
      match c.field with
      | none => .error .typeError
      | some k =>
        match col k with
        | .error e => .error e
        | .ok t =>
          if c'.expression = some "matches" then .error .attributeError
          else (mkAtom num "unknown" t (parseExpression (c'.expression.getD "")) (c'.value.getD .none)).map (fun a => .all [a])

/-! ### Text -/

/-- Pypika's text of an element of a list, filter.py 573-574. -/
def CItem.sql (sh : Shows) : CItem → List Char
  | .text s => quote s
  | .num q => sh.num q
  | .bool b => if b then "true".toList else "false".toList

/-- Pypika's text of a value, filter.py 541-576. Simplification: a list outside of `isin` and `isnotin` is written in brackets; some
warehouses have ARRAY before them. -/
def CVal.sql' (sh : Shows) : CVal → List Char
  | .none => "null".toList
  | .bool b => if b then "true".toList else "false".toList
  | .num q => sh.num q
  | .text s => quote s
  | .list l => '[' :: List.intercalate [','] (l.map (CItem.sql sh)) ++ [']']
  | .time t => quote (dateText t)
  | .sql s => s

/-- The values after IN, filter.py 573-574. -/
def CVal.tuple (sh : Shows) : CVal → List Char
  | .list l => '(' :: List.intercalate [','] (l.map (CItem.sql sh)) ++ [')']
  | v => v.sql' sh

/-- The text of a comparison, filter.py 540-578. -/
def Atom.text (sh : Shows) (a : Atom) : List Char :=
  let v := a.value.sql' sh
  let f := a.col
  let s := a.value.shown sh
  let lowerOf (s : List Char) := "LOWER(".toList ++ s ++ [')']
  match a.expr with
  | .lessThan => f ++ '<' :: v
  | .lessOrEqual => f ++ "<=".toList ++ v
  | .equalTo => f ++ '=' :: v
  | .notEqualTo => f ++ "<>".toList ++ v
  | .greaterOrEqual => f ++ ">=".toList ++ v
  | .greaterThan => f ++ '>' :: v
  | .like => f ++ " LIKE ".toList ++ v
  | .contains => f ++ " LIKE ".toList ++ quote ('%' :: s ++ ['%'])
  | .doesNotContain => f ++ " NOT LIKE ".toList ++ quote ('%' :: s ++ ['%'])
  | .containsCI => lowerOf f ++ " LIKE ".toList ++ lowerOf (quote ('%' :: s ++ ['%']))
  | .doesNotContainCI => lowerOf f ++ " NOT LIKE ".toList ++ lowerOf (quote ('%' :: s ++ ['%']))
  | .startsWith => f ++ " LIKE ".toList ++ quote (s ++ ['%'])
  | .endsWith => f ++ " LIKE ".toList ++ quote ('%' :: s)
  | .doesNotStartWith => f ++ " NOT LIKE ".toList ++ quote (s ++ ['%'])
  | .doesNotEndWith => f ++ " NOT LIKE ".toList ++ quote ('%' :: s)
  | .startsWithCI => lowerOf f ++ " LIKE ".toList ++ lowerOf (quote (s ++ ['%']))
  | .endsWithCI => lowerOf f ++ " LIKE ".toList ++ lowerOf (quote ('%' :: s))
  | .doesNotStartWithCI => lowerOf f ++ " NOT LIKE ".toList ++ lowerOf (quote (s ++ ['%']))
  | .doesNotEndWithCI => lowerOf f ++ " NOT LIKE ".toList ++ lowerOf (quote ('%' :: s))
  | .isNull => f ++ " IS NULL".toList
  | .isNotNull => "NOT ".toList ++ f ++ " IS NULL".toList
  | .isIn => f ++ " IN ".toList ++ a.value.tuple sh
  | .isNotIn => "NOT ".toList ++ f ++ " IN ".toList ++ a.value.tuple sh
  | .booleanTrue => f
  | .booleanFalse => "NOT ".toList ++ f
  | .unknown | .matches => []

/-! ### Meaning -/

/-- What SQL computes on a row, for the columns and values of filter.py 531-583. -/
inductive Cell where
  | null
  | text (s : List Char)
  | num (q : ℚ)
  | bool (b : Bool)
  | time (t : DateTime)
  deriving DecidableEq

/-- A warehouse on one row: the value of SQL text, how values that are not null compare, and the text LIKE sees. Used for the SQL of
filter.py 531-583. -/
structure RowSql where
  ev : List Char → Cell
  order : Cell → Cell → Ordering
  shown : Cell → List Char

end ML
