import Verif.Usable.Model
import Verif.Text.Model
import Verif.Names.Model
import Verif.Dict
import Verif.Tiers.Model
/-
What validating a field reports: `/repo/metrics_layer/core/model/field.py` 1470-2504 (`_error`, `collect_errors`,
`collect_sql_errors`) with the properties it reads (180-316, 352-478, 2646-2673, 2700-2741),
`/repo/metrics_layer/core/model/view.py` 633-676 (access grants) and `/repo/metrics_layer/core/model/base.py` 14-74.
-/
set_option autoImplicit false
namespace ML

/-- A value of a field's YAML definition, as the loader gives it. The definitions checked by field.py 1481-2478. -/
inductive Yaml
  | null
  | bool (b : Bool)
  | int (n : ℤ)
  | float (q : ℚ)
  | str (s : String)
  | list (l : List Yaml)
  | dict (l : List (String × Yaml))

/-- A field's `_definition`, field.py 142-160. The keys are texts. -/
abbrev FDef := List (String × Yaml)

/-- Python's truth value, as used all over field.py 1481-2478. -/
def Yaml.truthy : Yaml → Bool
  | .null => false
  | .bool b => b
  | .int n => decide (n ≠ 0)
  | .float q => decide (q ≠ 0)
  | .str s => decide (s ≠ "")
  | .list l => !l.isEmpty
  | .dict l => !l.isEmpty

/-- The truth value of `_definition.get(k)`, field.py 435, 453. -/
def truthyOpt : Option Yaml → Bool
  | none => false
  | some v => v.truthy

/-- `isinstance(x, str)`, field.py 1518. -/
def Yaml.isStr : Yaml → Bool
  | .str _ => true
  | _ => false

/-- `isinstance(x, bool)`, field.py 1538. -/
def Yaml.isBool : Yaml → Bool
  | .bool _ => true
  | _ => false

/-- `isinstance(x, int)`, field.py 1897: Python's booleans are integers. -/
def Yaml.isInt : Yaml → Bool
  | .int _ => true
  | .bool _ => true
  | _ => false

/-- `isinstance(x, list)`, field.py 1616. -/
def Yaml.isList : Yaml → Bool
  | .list _ => true
  | _ => false

/-- `isinstance(x, dict)`, field.py 1693. -/
def Yaml.isDict : Yaml → Bool
  | .dict _ => true
  | _ => false

/-- The text of a value, if it is one. Comparing `str(x)` with a list of words none of which is the `str` of a number, a
boolean, null, a list or a dictionary, field.py 1604, 1753: only a text can be equal to such a word. -/
def Yaml.text? : Yaml → Option String
  | .str s => some s
  | _ => none

/-- `self._definition.get(k)` when it is a text, field.py 243-315. -/
def textAt (d : FDef) (k : String) : Option String :=
  match dictGet d k with
  | some (.str s) => some s
  | _ => none

/-- What the validation of one field can report: one constructor per kind of message of field.py 1481-2504 and 2700-2741. A `key` is the
property the message is about. -/
inductive FieldProblem
  /-- 1484-1485 -/
  | badName
  /-- 1486-1497 -/
  | reservedName
  /-- 1499-1508 -/
  | badFieldType
  /-- 1510-1516 -/
  | noType
  /-- the value of the property is not of the required type -/
  | wrongKind (key : String)
  /-- 1560-1573, 1586-1600 -/
  | tooLong (key : String)
  /-- 1602-1614 -/
  | badFormat
  /-- an element of a list is not of the required type, or not one of the words allowed -/
  | badItem (key : String)
  /-- 1650-1660 -/
  | filterNotDict
  /-- 1666-1675 -/
  | filterSelf
  /-- 2706-2709 -/
  | filterNoField
  /-- 2711-2722 -/
  | filterUnknown (field : String)
  /-- 2723-2726 -/
  | filterNoValue
  /-- 2727-2739 -/
  | filterBadValue
  /-- 1687-1695 -/
  | filterKey (key : String)
  /-- view.py 662-674 -/
  | noGrant (name : String)
  /-- 1733-1746 -/
  | dateNotTime
  /-- 1747-1753 -/
  | dateUnreachable
  /-- 1757-1766, 1934-1943, 2123-2132 -/
  | badType
  /-- 1767-1784 -/
  | needsSearchable
  /-- 1810-1819: a warning -/
  | caseDeprecated
  /-- 2482-2488 -/
  | selfRef
  /-- 2490-2496 -/
  | template
  /-- 2497-2503 -/
  | badRef (name : String)
  /-- 1857-1871 -/
  | drillUnknown (name : String)
  /-- a required property is not there -/
  | missing (key : String)
  /-- the property may not be given for such a field -/
  | forbidden (key : String)
  /-- the list has no elements -/
  | emptyList (key : String)
  /-- 2029-2039 -/
  | badDatatype
  /-- 2143-2150 -/
  | noDateMerged
  /-- 2152-2160: a warning -/
  | noDate
  /-- 2226-2236 -/
  | notMeasure
  /-- 2237-2247 -/
  | measureUnreachable
  /-- 2299-2311 -/
  | distinctUnknown (name : String)
  /-- 2344-2359 -/
  | windowNotTime
  /-- 2360-2370 -/
  | windowUnknown
  /-- 2371-2380 -/
  | windowChoice
  /-- a property of the non additive dimension has a value of the wrong type -/
  | windowKind (key : String)
  /-- 2421-2436 -/
  | windowGroupingKind (name : String)
  /-- 2437-2447 -/
  | windowGroupingUnknown (name : String)
  /-- 2448-2462 -/
  | windowKey (key : String)
  /-- 2464-2476 -/
  | unknownKey (key : String)
deriving DecidableEq, Repr

/-- What the validation reads besides the definition: field.py 1481-2504 and 243-315. The values of `get`, `getText`, `getByName`,
`grant`, `drill`, `filterSql` and `caseSql` are those of project.py and filter.py. -/
structure CheckEnv where
  /-- the view's name -/
  view : String
  /-- the view's `default_date`, when it is given; a text -/
  defaultDate : Option String
  /-- `get_field_with_view_info` -/
  get : UGet
  /-- the depth of references Python's stack has room for -/
  depth : ℕ
  /-- `project.get_field` on a text -/
  getText : String → Res UField
  /-- `project.get_field_by_name` -/
  getByName : String → Res UField
  /-- `project.get_access_grant` finds the name -/
  grant : String → Bool
  /-- the SQL of the view's primary key, when there is one -/
  pkSql : Option Yaml
  /-- `Filter(field_filter).filter_dict()` raises nothing -/
  filterOk : FDef → Bool
  /-- `Filter.translate_looker_filters_to_sql`: the SQL, the filters, the qualified non additive dimension -/
  filterSql : Yaml → List FDef → Option FDef → Res String
  /-- `_translate_looker_case_to_sql` -/
  caseSql : Yaml → Res String
  /-- `_translate_looker_tier_to_sql` on a list with elements -/
  tierSql : Yaml → List Yaml → String
  /-- Python's `str` in `f"({sql})"` -/
  shown : Yaml → String
  /-- `Set({"fields": drill_fields, ...}).field_names()` -/
  drill : List Yaml → Res (List String)

/-- `_clean_sql_for_case`, field.py 2646-2651: references are lower-cased. -/
def cleanSql (s : String) : String :=
  String.ofList ((fieldsToReplace s.toList).foldl (fun acc n =>
    if n = "TABLE".toList then acc else replaceAll (refText n) (refText (n.map Char.toLower)) acc) s.toList)

/-- The value of `canon_date`: nothing, a text, or the raw value of the definition. field.py 434-441; the AttributeError
of `replace` on anything but a text makes `__getattr__` (base.py 14-15) answer with the raw value. -/
inductive CanonVal
  | none
  | text (s : String)
  | raw
deriving DecidableEq, Repr

/-- `canon_date`, field.py 434-441. -/
def canonVal (env : CheckEnv) (d : FDef) : CanonVal :=
  match dictGet d "canon_date" with
  | some (.str s) => if s ≠ "" then .text (qualifyRef env.view (dropBraces s)) else viewDate
  | some v => if v.truthy then .raw else viewDate
  | none => viewDate
where
  /-- The view's default date, field.py 439-441. -/
  viewDate : CanonVal := match env.defaultDate with
    | some t => if t ≠ "" then .text (qualifyRef env.view t) else .none
    | none => .none

/-- The value of `non_additive_dimension`: nothing (or an empty value), something that is not a dictionary, or a dictionary with its
names qualified. field.py 451-470. -/
inductive NonAddVal
  | absent
  | other
  | dict (d : FDef)

/-- The elements of `window_groupings`, qualified, field.py 459-467. `"." not in 5` is a TypeError; lists and dictionaries as
elements, for which it is not, are modelled alike. -/
def qualifyAll (view : String) : List Yaml → Res (List Yaml)
  | [] => .ok []
  | .str s :: l =>
    match qualifyAll view l with
    | .error e => .error e
    | .ok r => .ok (.str (qualifyRef view s) :: r)
  | _ :: _ => .error .typeError

/-- The groupings of a non additive dimension, qualified in place, field.py 457-467. -/
def qualifyGroupings (view : String) (d : FDef) : Res FDef :=
  match dictGet d "window_groupings" with
  | some (.list l) =>
    if l.isEmpty then .ok d
    else
      match qualifyAll view l with
      | .error e => .error e
      | .ok r => .ok (dictSet d "window_groupings" (.list r))
  | _ => .ok d

/-- `non_additive_dimension`, field.py 451-470. A dictionary without a name is a KeyError, a name that is not a text a TypeError. -/
def nonAdditive (env : CheckEnv) (d : FDef) : Res NonAddVal :=
  match dictGet d "non_additive_dimension" with
  | none => .ok .absent
  | some (.dict q) =>
    if q.isEmpty then .ok .absent
    else
      match dictGet q "name" with
      | none => .error .keyError
      | some (.str s) =>
        match qualifyGroupings env.view (dictSet q "name" (.str (qualifyRef env.view s))) with
        | .error e => .error e
        | .ok r => .ok (.dict r)
      | some _ => .error .typeError
  | some v => if v.truthy then .ok .other else .ok .absent

/-- `[f for f in definition.get("filters", []) if f.get("field") != self.name]`, field.py 272. -/
def filtersToApply (name : String) : List Yaml → Res (List FDef)
  | [] => .ok []
  | .dict f :: l =>
    match filtersToApply name l with
    | .error e => .error e
    | .ok r => .ok (if textAt f "field" = some name then r else f :: r)
  | _ :: _ => .error .attributeError

/-- The same over any value: null, numbers and booleans cannot be looped over, the keys of a dictionary and the characters of a text
have no `get`. field.py 272. -/
def filtersOf (name : String) : Option Yaml → Res (List FDef)
  | none => .ok []
  | some (.list l) => filtersToApply name l
  | some (.str s) => if s = "" then .ok [] else .error .attributeError
  | some (.dict l) => if l.isEmpty then .ok [] else .error .attributeError
  | some _ => .error .typeError

/-- The SQL with the filters put around it, field.py 263-300. -/
def filteredSql (env : CheckEnv) (name : String) (d : FDef) (v : Yaml) : Res Yaml :=
  match (if truthyOpt (dictGet d "filters") then .ok true else match nonAdditive env d with
    | .error e => .error e
    | .ok .absent => .ok false
    | .ok _ => .ok true : Res Bool) with
  | .error e => .error e
  | .ok false => .ok v
  | .ok true =>
    if v.text? = some "*" then .error .query
    else
      match filtersOf name (dictGet d "filters") with
      | .error e => .error e
      | .ok fs =>
        match nonAdditive env d with
        | .error e => .error e
        | .ok .absent => (env.filterSql v fs none).map .str
        | .ok .other => .error .attributeError
        | .ok (.dict q) =>
          match dictGet q "window_choice" with
          | none => .error .keyError
          | some _ => (env.filterSql v fs (some q)).map .str

/-- The tiers put around the SQL, field.py 301-307. `tiers[0]` of an empty list is an IndexError. -/
def tieredSql (env : CheckEnv) (d : FDef) (v : Yaml) : Res Yaml :=
  if textAt d "type" = some "tier" then
    match dictGet d "tiers" with
    | some (.list l) => if l.isEmpty then .error .indexError else .ok (.str (env.tierSql v l))
    | _ => .ok v
  else .ok v

/-- Parentheses around a yesno and lower-case references, field.py 309-314. -/
def finishSql (env : CheckEnv) (d : FDef) (v : Yaml) : Yaml :=
  let w : Yaml := if textAt d "type" = some "yesno" then .str ("(" ++ env.shown v ++ ")") else v
  match w with
  | .str s => .str (cleanSql s)
  | _ => w

/-- The SQL before anything is put around it, field.py 247-261. -/
def startSql (env : CheckEnv) (d : FDef) : Res (Option Yaml) :=
  match dictGet d "sql" with
  | some v => .ok (some v)
  | none =>
    match dictGet d "case" with
    | some c => (env.caseSql c).map (fun s => some (.str s))
    | none =>
      if textAt d "field_type" = some "measure" ∧ textAt d "type" = some "count" then .ok (some (env.pkSql.getD (.str "*")))
      else .ok none

/-- The body of the property `sql`, field.py 243-315. -/
def sqlBody (env : CheckEnv) (name : String) (d : FDef) : Res (Option Yaml) :=
  match startSql env d with
  | .error e => .error e
  | .ok none => .ok none
  | .ok (some v) =>
    match filteredSql env name d v with
    | .error e => .error e
    | .ok w =>
      match tieredSql env d w with
      | .error e => .error e
      | .ok x => .ok (some (finishSql env d x))

/-- The property `sql` as an attribute: an AttributeError in its body makes `__getattr__` (base.py 14-15) answer with the raw value of the
definition. field.py 240-315. -/
def fieldSql (env : CheckEnv) (name : String) (d : FDef) : Res (Option Yaml) :=
  match sqlBody env name d with
  | .error .attributeError => .ok (dictGet d "sql")
  | r => r

/-- What the resolution of references reads of a text, field.py 2506-2548. -/
def sqlNames (s : String) : SqlNames :=
  ⟨(fieldsToReplace s.toList).map String.ofList, containsSub "{%".toList s.toList⟩

/-- A text of the definition with its references, `none` when it is missing, empty or not a text. field.py 2506-2548. -/
def namesOfValue : Option Yaml → Option SqlNames
  | some (.str s) => if s = "" then none else some (sqlNames s)
  | _ => none

/-- The role of a field type, field.py 91-95; any other type is treated like a dimension by the code modelled in `Usable`. -/
def roleOf (t : String) : FRole :=
  if t = "measure" then .measure else if t = "dimension_group" then .group else .dimension

/-- `sql_start` and `sql_end`, field.py 317-327. -/
def cleanText (d : FDef) (k : String) : Option Yaml :=
  match dictGet d k with
  | some (.str s) => some (.str (cleanSql s))
  | v => v

/-- The field as the resolution of references sees it, field.py 2506-2548. -/
def checkedField (env : CheckEnv) (name : String) (d : FDef) (sql : Option Yaml) : UField where
  view := env.view
  alias_ := name
  role := roleOf ((textAt d "field_type").getD "")
  type := (textAt d "type").getD ""
  sql := namesOfValue sql
  sqlStart := namesOfValue (cleanText d "sql_start")
  sqlEnd := namesOfValue (cleanText d "sql_end")
  measure := textAt d "measure"

/-- One check after the other; an exception ends the validation. field.py 1481-2478. -/
def seqChecks {π : Type} : List (Res (List π)) → Res (List π)
  | [] => .ok []
  | .error e :: _ => .error e
  | .ok ps :: l =>
    match seqChecks l with
    | .error e => .error e
    | .ok qs => .ok (ps ++ qs)

/-- A check repeated for the elements of a list. field.py 1649-1695. -/
def forEach {α π : Type} (f : α → Res (List π)) (l : List α) : Res (List π) := seqChecks (l.map f)

/-- `if k in definition and not ok: report`, field.py 1518-1558. -/
def wants {π : Type} (d : FDef) (k : String) (ok : Yaml → Bool) (p : π) : List π :=
  match dictGet d k with
  | none => []
  | some v => if ok v then [] else [p]

/-- A property that must be a list of elements of one kind, field.py 1616-1637. -/
def wantsList (d : FDef) (k : String) (ok : Yaml → Bool) : List FieldProblem :=
  match dictGet d k with
  | none => []
  | some (.list l) => l.flatMap (fun v => if ok v then [] else [.badItem k])
  | some _ => [.wrongKind k]

/-- The words of `special_mapping_values`, definitions: mapped dates and the like that are not names of fields. field.py 1486-1497. -/
def reservedNames : List String :=
  ["date", "day_of_year", "week_of_year", "week", "month_of_year", "month", "quarter", "year"]

/-- VALID_TIMEFRAMES, field.py 21-50. -/
def validTimeframes : List String :=
  ["raw", "time", "second", "minute", "hour", "date", "week", "month", "quarter", "year", "fiscal_month", "fiscal_quarter",
   "fiscal_year", "week_index", "week_of_year", "week_of_month", "month_of_year", "month_of_year_index", "fiscal_month_index",
   "fiscal_month_of_year_index", "month_name", "month_index", "quarter_of_year", "fiscal_quarter_of_year", "hour_of_day",
   "day_of_week", "day_of_month", "day_of_year"]

/-- VALID_INTERVALS, field.py 51-60. -/
def validIntervals : List String := ["second", "minute", "hour", "day", "week", "month", "quarter", "year"]

/-- VALID_VALUE_FORMAT_NAMES, field.py 61-86. -/
def validFormats : List String :=
  ["decimal_0", "decimal_1", "decimal_2", "decimal_pct_0", "decimal_pct_1", "decimal_pct_2", "percent_0", "percent_1",
   "percent_2", "eur", "eur_0", "eur_1", "eur_2", "usd", "usd_0", "usd_1", "usd_2", "string", "image_from_url", "date", "week",
   "month", "quarter", "year"]

/-- `str(x) in options`, field.py 1604. -/
def Yaml.oneOf (options : List String) (v : Yaml) : Bool :=
  match v.text? with
  | some s => options.contains s
  | none => false

/-- `str(self.type) in options`, field.py 1757, 1934, 2123. -/
def typeIn (options : List String) (d : FDef) : Bool :=
  match textAt d "type" with
  | some t => options.contains t
  | none => false

/-- The name, field.py 1484-1497. `re.match` on anything but a text is a TypeError, raised by the caller. -/
def nameChecks (name fieldType : String) : List FieldProblem :=
  if !validName name then [.badName]
  else if reservedNames.contains name && decide (fieldType ≠ "dimension_group") then [.reservedName] else []

/-- The length of a description, field.py 1559-1573 and 1585-1600. -/
def lengthCheck (d : FDef) (k : String) : List FieldProblem :=
  match dictGet d k with
  | some (.str s) => if s.length > 512 then [.tooLong k] else []
  | _ => []

/-- Field type, type, label, group label, hidden, descriptions, format and synonyms, field.py 1499-1637. The label of a field with a label
prefix is a text whatever it is made of (field.py 347-348). -/
def plainChecks (d : FDef) (fieldType : String) : List FieldProblem :=
  (if ["dimension", "dimension_group", "measure"].contains fieldType then [] else [.badFieldType]) ++
  (if (dictGet d "type").isSome then [] else [.noType]) ++
  wants d "label" (fun v => v.isStr || truthyOpt (dictGet d "label_prefix")) (.wrongKind "label") ++
  wants d "group_label" Yaml.isStr (.wrongKind "group_label") ++
  wants d "hidden" Yaml.isBool (.wrongKind "hidden") ++
  wants d "description" Yaml.isStr (.wrongKind "description") ++ lengthCheck d "description" ++
  wants d "zoe_description" Yaml.isStr (.wrongKind "zoe_description") ++ lengthCheck d "zoe_description" ++
  wants d "value_format_name" (Yaml.oneOf validFormats) .badFormat ++
  wantsList d "synonyms" Yaml.isStr

/-- A filter with its field qualified, field.py 1663-1664: the definition is changed. -/
def qualifyFilter (view : String) : Yaml → Yaml
  | .dict f =>
    match dictGet f "field" with
    | some (.str s) => .dict (dictSet f "field" (.str (qualifyRef view s)))
    | _ => .dict f
  | v => v

/-- The definition after its filters have been checked, field.py 1649-1664. -/
def qualifyFilters (view : String) (d : FDef) : FDef :=
  match dictGet d "filters" with
  | some (.list l) => dictSet d "filters" (.list (l.map (qualifyFilter view)))
  | _ => d

/-- `project.get_field` on a value, project.py 500-506: anything but a text is a TypeError. -/
def getValue (env : CheckEnv) : Yaml → Res UField
  | .str s => env.getText s
  | _ => .error .typeError

/-- A report when a look-up says the field does not exist; other exceptions are not caught. field.py 2711-2722. -/
def missingField {α π : Type} (r : Res α) (p : π) : Res (List π) :=
  match r with
  | .ok _ => .ok []
  | .error .accessDenied => .ok [p]
  | .error e => .error e

/-- The field of a filter, field.py 2705-2722. -/
def filterFieldCheck (env : CheckEnv) (f : FDef) : Res (List FieldProblem) :=
  match dictGet f "field" with
  | none => .ok [.filterNoField]
  | some v => missingField (getValue env v) (.filterUnknown (v.text?.getD ""))

/-- The value of a filter, field.py 2723-2739. -/
def filterValueCheck (env : CheckEnv) (f : FDef) : List FieldProblem :=
  match dictGet f "value" with
  | none => [.filterNoValue]
  | some (.str _) => []
  | some _ => if env.filterOk f then [] else [.filterBadValue]

/-- The keys of a filter, field.py 1687-1695 with base.py 51-66. -/
def unknownKeys {π : Type} (valid : List String) (p : String → π) (d : FDef) : List π :=
  (d.map (·.1)).flatMap (fun k => if valid.contains k then [] else [p k])

/-- One filter, its field already qualified. field.py 1649-1695. -/
def filterCheck (env : CheckEnv) (name : String) : Yaml → Res (List FieldProblem)
  | .dict f =>
    seqChecks
      [.ok (if textAt f "field" = some (env.view ++ "." ++ name) then [.filterSelf] else []),
       filterFieldCheck env f,
       .ok (filterValueCheck env f),
       .ok (unknownKeys ["field", "value"] .filterKey f)]
  | _ => .ok [.filterNotDict]

/-- The filters, field.py 1639-1695; an empty value is as good as an empty list (field.py 362-367). -/
def filterChecks (env : CheckEnv) (name : String) (d : FDef) : Res (List FieldProblem) :=
  match dictGet d "filters" with
  | some (.list l) => forEach (filterCheck env name) (l.map (qualifyFilter env.view))
  | some v => if v.truthy then .ok [.wrongKind "filters"] else .ok []
  | none => .ok []

/-- The access grants, view.py 633-676. -/
def grantChecks (env : CheckEnv) (d : FDef) : List FieldProblem :=
  match dictGet d "required_access_grants" with
  | none => []
  | some (.list l) => l.flatMap (fun v => match v with
    | .str g => if env.grant g then [] else [.noGrant g]
    | _ => [.badItem "required_access_grants"])
  | some _ => [.wrongKind "required_access_grants"]

/-- The default date of the view as it is compared, field.py 1718-1721. -/
def viewDateText (env : CheckEnv) : String :=
  qualifyRef env.view (env.defaultDate.getD "None")

/-- `canon_date`, field.py 1723-1753. -/
def dateChecks (env : CheckEnv) (d : FDef) : Res (List FieldProblem) :=
  match canonVal env d with
  | .none => .ok []
  | .raw => .ok [.wrongKind "canon_date"]
  | .text c =>
    if c = viewDateText env then .ok []
    else
      match env.getByName c with
      | .ok g => .ok (if g.role ≠ .group ∨ g.type ≠ "time" then [.dateNotTime] else [])
      | .error .accessDenied => .ok [.dateUnreachable]
      | .error .query => .ok [.dateUnreachable]
      | .error e => .error e

/-- What is said about the references found, field.py 2489-2503. -/
def refProblems : Option (List URef) → List FieldProblem
  | none => [.template]
  | some rs => rs.flatMap (fun r => match r with
    | .text s => [.badRef s]
    | _ => [])

/-- `collect_sql_errors`, field.py 2480-2504, on a text; `self.sql` has been read already. -/
def sqlChecks (env : CheckEnv) (name : String) (d : FDef) (self : Option Yaml) (sql : String) : Res (List FieldProblem) :=
  match fieldRefs env.get env.depth (checkedField env name d self) with
  | .error e => .error e
  | .ok refs => .ok ((if sql = "${" ++ name ++ "}" then [.selfRef] else []) ++ refProblems refs)

/-- `elif self.sql is not None: collect_sql_errors(self.sql, ...)`, field.py 1820-1821. A SQL text of the definition stays a text. -/
def ownSqlChecks (env : CheckEnv) (name : String) (d : FDef) : Res (List FieldProblem) :=
  match fieldSql env name d with
  | .error e => .error e
  | .ok (some (.str s)) => sqlChecks env name d (some (.str s)) s
  | .ok _ => .ok []

/-- `self.drill_fields`: the expanded set, the raw list after an AttributeError (base.py 14-15). field.py 443-449, 1857. -/
def drillNames (env : CheckEnv) (l : List Yaml) : Res (List Yaml) :=
  match env.drill l with
  | .ok ns => .ok (ns.map .str)
  | .error .attributeError => .ok l
  | .error e => .error e

/-- `drill_fields`, field.py 1846-1871. -/
def drillChecks (env : CheckEnv) (d : FDef) : Res (List FieldProblem) :=
  match dictGet d "drill_fields" with
  | none => .ok []
  | some (.list l) =>
    if l.isEmpty then .ok []
    else
      match drillNames env l with
      | .error e => .error e
      | .ok vs => forEach (fun v => missingField (getValue env v) (.drillUnknown (v.text?.getD ""))) vs
  | some _ => .ok [.wrongKind "drill_fields"]

/-- The SQL of a dimension, field.py 1797-1821. -/
def dimensionSqlChecks (env : CheckEnv) (name : String) (d : FDef) : Res (List FieldProblem) :=
  if (dictGet d "case").isSome then .ok [.caseDeprecated]
  else if (textAt d "sql").isSome then ownSqlChecks env name d
  else .ok [.wrongKind "sql"]

/-- The tiers of a dimension, field.py 1882-1916. -/
def tierChecks (d : FDef) : List FieldProblem :=
  if textAt d "type" = some "tier" then
    match dictGet d "tiers" with
    | none => [.missing "tiers"]
    | some (.list l) => l.flatMap (fun v => if v.isInt then [] else [.badItem "tiers"])
    | some _ => [.wrongKind "tiers"]
  else []

/-- The checks of a dimension, field.py 1755-1930. -/
def dimensionChecks (env : CheckEnv) (name : String) (d : FDef) : List (Res (List FieldProblem)) :=
  [.ok (if typeIn ["string", "yesno", "number", "tier"] d then [] else [.badType]),
   .ok (if textAt d "type" = some "string" ∧ truthyOpt (dictGet d "hidden") = false ∧ (dictGet d "searchable").isSome = false
    then [.needsSearchable] else []),
   .ok (wants d "primary_key" Yaml.isBool (.wrongKind "primary_key")),
   dimensionSqlChecks env name d,
   .ok (wantsList d "tags" Yaml.isStr),
   drillChecks env d,
   .ok (wants d "searchable" Yaml.isBool (.wrongKind "searchable")),
   .ok (tierChecks d),
   .ok (wants d "link" Yaml.isStr (.wrongKind "link"))]

/-- A list of words that must be there and have elements, field.py 1957-1993, 2055-2093. An absent one is a KeyError in the report
itself. -/
def wordChecks (d : FDef) (k : String) (words : List String) : Res (List FieldProblem) :=
  match dictGet d k with
  | none => .error .keyError
  | some (.list l) =>
    .ok ((if l.isEmpty then [.emptyList k] else []) ++ l.flatMap (fun v => if v.oneOf words then [] else [.badItem k]))
  | some _ => .ok [.wrongKind k]

/-- The SQL of a time group, field.py 1994-2008. An absent one is a KeyError in the report itself. -/
def timeSqlChecks (env : CheckEnv) (name : String) (d : FDef) : Res (List FieldProblem) :=
  match dictGet d "sql" with
  | none => .error .keyError
  | some (.str _) => ownSqlChecks env name d
  | some _ => .ok [.wrongKind "sql"]

/-- The checks of a time group, field.py 1944-2041. -/
def timeChecks (env : CheckEnv) (name : String) (d : FDef) : List (Res (List FieldProblem)) :=
  [.ok (if (dictGet d "intervals").isSome then [.forbidden "intervals"] else []),
   wordChecks d "timeframes" validTimeframes,
   timeSqlChecks env name d,
   .ok (wants d "convert_tz" Yaml.isBool (.wrongKind "convert_tz")),
   .ok (wants d "convert_timezone" Yaml.isBool (.wrongKind "convert_timezone")),
   .ok (wants d "datatype" (Yaml.oneOf ["timestamp", "date", "datetime"]) .badDatatype)]

/-- One end of a duration, field.py 2105-2120. -/
def endChecks (env : CheckEnv) (name : String) (d : FDef) (k : String) : Res (List FieldProblem) :=
  match dictGet d k with
  | some (.str s) =>
    match fieldSql env name d with
    | .error e => .error e
    | .ok self => sqlChecks env name d self (cleanSql s)
  | _ => .ok [.wrongKind k]

/-- The checks of a duration, field.py 2043-2120. -/
def durationChecks (env : CheckEnv) (name : String) (d : FDef) : List (Res (List FieldProblem)) :=
  [.ok (if (dictGet d "timeframes").isSome then [.forbidden "timeframes"] else []),
   wordChecks d "intervals" validIntervals,
   .ok (if (dictGet d "sql").isSome then [.forbidden "sql"] else []),
   endChecks env name d "sql_start",
   endChecks env name d "sql_end"]

/-- The checks of a dimension group, field.py 1932-2120. -/
def groupChecks (env : CheckEnv) (name : String) (d : FDef) : List (Res (List FieldProblem)) :=
  [.ok (if typeIn ["time", "duration"] d then [] else [.badType]),
   .ok (wants d "primary_key" Yaml.isBool (.wrongKind "primary_key"))] ++
  (if textAt d "type" = some "time" then timeChecks env name d else []) ++
  (if textAt d "type" = some "duration" then durationChecks env name d else [])

/-- The dates of the measures a number refers to, field.py 397-404. -/
def numberDates (rs : List URef) : List (Option String) :=
  rs.filterMap (fun r => match r with
    | .field g => if g.role = .measure ∧ g.type ≠ "cumulative" then some g.canonDate else none
    | _ => none)

/-- `is_merged_result`, field.py 390-407, as a truth value. -/
def mergedMetric (env : CheckEnv) (name : String) (d : FDef) : Res Bool :=
  match dictGet d "is_merged_result" with
  | some v => .ok v.truthy
  | none =>
    if textAt d "type" = some "number" ∧ textAt d "field_type" = some "measure" then
      match fieldSql env name d with
      | .error e => .error e
      | .ok s =>
        match sqlRefs env.get env.depth (checkedField env name d s) with
        | .error .attributeError => .ok false
        | .error e => .error e
        | .ok rs => .ok (decide ((numberDates rs).dedup.length > 1))
    else .ok false

/-- A measure without a date, field.py 2142-2161. -/
def measureDateChecks (env : CheckEnv) (name : String) (d : FDef) : Res (List FieldProblem) :=
  match canonVal env d with
  | .none =>
    match mergedMetric env name d with
    | .error e => .error e
    | .ok b => .ok [if b then .noDateMerged else .noDate]
  | _ => .ok []

/-- The SQL of a measure, field.py 2162-2185. The SQL of a cumulative metric is read although nothing is said about it. -/
def measureSqlChecks (env : CheckEnv) (name : String) (d : FDef) : Res (List FieldProblem) :=
  if textAt d "type" = some "cumulative" then
    match fieldSql env name d with
    | .error e => .error e
    | .ok _ => .ok []
  else
    match dictGet d "sql" with
    | none => .ok [.missing "sql"]
    | some (.str _) => ownSqlChecks env name d
    | some _ => .ok [.wrongKind "sql"]

/-- The measure of a cumulative metric, field.py 2198-2247, with 355-360. A truthy measure that is not a text raises in the look-up; what
`__getattr__` answers then has no `field_type`. -/
def cumMeasureChecks (env : CheckEnv) (d : FDef) : Res (List FieldProblem) :=
  match dictGet d "measure" with
  | none => .ok [.missing "measure", .measureUnreachable]
  | some (.str m) =>
    if m = "" then .ok [.measureUnreachable]
    else
      match env.get env.view m with
      | .ok g => .ok (if g.role ≠ .measure then [.notMeasure] else [])
      | .error .accessDenied => .ok [.measureUnreachable]
      | .error .query => .ok [.measureUnreachable]
      | .error e => .error e
  | some v =>
    if v.truthy then .error (if v.isList then .typeError else .attributeError)
    else .ok [.wrongKind "measure", .measureUnreachable]

/-- The checks of a cumulative metric, field.py 2197-2275. -/
def cumulativeChecks (env : CheckEnv) (d : FDef) : List (Res (List FieldProblem)) :=
  if textAt d "type" = some "cumulative" then
    [cumMeasureChecks env d,
     .ok (wants d "cumulative_where" Yaml.isStr (.wrongKind "cumulative_where")),
     .ok (wants d "update_where_timeframe" Yaml.isBool (.wrongKind "update_where_timeframe"))]
  else []

/-- `sql_distinct_key`, field.py 2276-2311. -/
def distinctChecks (env : CheckEnv) (d : FDef) : Res (List FieldProblem) :=
  if truthyOpt (dictGet d "sql_distinct_key") = false then
    .ok (if typeIn ["sum_distinct", "average_distinct"] d then [.missing "sql_distinct_key"] else [])
  else
    match textAt d "sql_distinct_key" with
    | none => .ok [.wrongKind "sql_distinct_key"]
    | some s =>
      forEach (fun n => if n = "TABLE" then .ok [] else missingField (env.get env.view n) (.distinctUnknown n))
        ((fieldsToReplace s.toList).map String.ofList)

/-- The date of a non additive dimension, field.py 2342-2370. -/
def windowDateChecks (env : CheckEnv) (name : String) : Res (List FieldProblem) :=
  match env.get env.view name with
  | .ok g => .ok (if g.role ≠ .group ∨ g.type ≠ "time" then [.windowNotTime] else [])
  | .error .accessDenied => .ok [.windowUnknown]
  | .error e => .error e

/-- `window_choice`, field.py 2371-2380: a missing one is a KeyError in the report itself. -/
def windowChoiceChecks (q : FDef) : Res (List FieldProblem) :=
  match dictGet q "window_choice" with
  | none => .error .keyError
  | some v => .ok (if v.oneOf ["max", "min"] then [] else [.windowChoice])

/-- A grouping of a non additive dimension, field.py 2418-2447. -/
def windowGroupingCheck (env : CheckEnv) (v : Yaml) : Res (List FieldProblem) :=
  match v with
  | .str g =>
    match env.get env.view g with
    | .ok r => .ok (if r.role = .measure then [.windowGroupingKind g] else [])
    | .error .accessDenied => .ok [.windowGroupingUnknown g]
    | .error e => .error e
  | _ => .error .typeError

/-- The groupings, field.py 2404-2447. -/
def windowGroupingChecks (env : CheckEnv) (q : FDef) : Res (List FieldProblem) :=
  match dictGet q "window_groupings" with
  | none => .ok []
  | some (.list l) => forEach (windowGroupingCheck env) l
  | some _ => .ok [.windowKind "window_groupings"]

/-- The checks of a non additive dimension with a name, qualified. field.py 2341-2462. -/
def windowChecks (env : CheckEnv) (q : FDef) : Res (List FieldProblem) :=
  seqChecks
    [windowDateChecks env ((textAt q "name").getD ""),
     windowChoiceChecks q,
     .ok (wants q "window_aware_of_query_dimensions" Yaml.isBool (.windowKind "window_aware_of_query_dimensions")),
     .ok (wants q "nulls_are_equal" Yaml.isBool (.windowKind "nulls_are_equal")),
     windowGroupingChecks env q,
     .ok (unknownKeys ["name", "window_choice", "window_aware_of_query_dimensions", "nulls_are_equal", "window_groupings"]
       .windowKey q)]

/-- `non_additive_dimension`, field.py 2313-2462. The report about a missing name shows the property, which raises. -/
def nonAdditiveChecks (env : CheckEnv) (d : FDef) : Res (List FieldProblem) :=
  match dictGet d "non_additive_dimension" with
  | none => .ok []
  | some (.dict q) =>
    if q.isEmpty then .ok [.missing "non_additive_dimension.name"]
    else
      match nonAdditive env d with
      | .error e => .error e
      | .ok (.dict r) => windowChecks env r
      | .ok _ => .ok []
  | some _ => .ok [.wrongKind "non_additive_dimension"]

/-- The types of measures, field.py 124-136. -/
def measureTypes : List String :=
  ["count", "count_distinct", "sum", "sum_distinct", "average", "average_distinct", "median", "max", "min", "number", "cumulative"]

/-- The checks of a measure, field.py 2122-2462. -/
def measureChecks (env : CheckEnv) (name : String) (d : FDef) : List (Res (List FieldProblem)) :=
  [.ok (if typeIn measureTypes d then [] else [.badType]),
   .ok (if (dictGet d "primary_key").isSome then [.forbidden "primary_key"] else []),
   measureDateChecks env name d,
   measureSqlChecks env name d,
   .ok (wants d "is_merged_result" Yaml.isBool (.wrongKind "is_merged_result"))] ++
  cumulativeChecks env d ++
  [distinctChecks env d, nonAdditiveChecks env d]

/-- The properties every field may have, field.py 182-198, and the internal one, field.py 141. -/
def sharedKeys : List String :=
  ["name", "field_type", "type", "label", "group_label", "description", "zoe_description", "hidden", "value_format_name",
   "synonyms", "required_access_grants", "label_prefix", "filters", "sql", "extra", "is_personal_field"]

/-- `valid_properties`, field.py 199-236. -/
def validKeys (fieldType : String) : List String :=
  sharedKeys ++
  (if fieldType = "dimension" then
    ["primary_key", "tags", "drill_fields", "searchable", "tiers", "link", "canon_date", "case"]
   else if fieldType = "dimension_group" then
    ["primary_key", "searchable", "tags", "drill_fields", "timeframes", "intervals", "sql_start", "sql_end", "convert_tz",
     "convert_timezone", "datatype", "link"]
   else if fieldType = "measure" then
    ["sql_distinct_key", "non_additive_dimension", "canon_date", "measure", "is_merged_result", "cumulative_where",
     "update_where_timeframe"]
   else [])

/-- The checks of the kind of field, field.py 1755-2462. -/
def kindChecks (env : CheckEnv) (name fieldType : String) (d : FDef) : List (Res (List FieldProblem)) :=
  if fieldType = "dimension" then dimensionChecks env name d
  else if fieldType = "dimension_group" then groupChecks env name d
  else if fieldType = "measure" then measureChecks env name d
  else []

/-- The messages of `collect_errors` before the prefix of personal fields, field.py 1481-2470. The definition has a name and a field type
(field.py 840-850); `str(field_type)` of anything but a text is no field type, shown here as an empty text. -/
def fieldProblems (env : CheckEnv) (d : FDef) : Res (List FieldProblem) :=
  match dictGet d "name" with
  | some (.str name) =>
    let fieldType := (textAt d "field_type").getD ""
    let d' := qualifyFilters env.view d
    seqChecks ([.ok (nameChecks name fieldType), .ok (plainChecks d fieldType), filterChecks env name d,
      .ok (wants d "extra" Yaml.isDict (.wrongKind "extra")), .ok (grantChecks env d), dateChecks env d] ++
      kindChecks env name fieldType d' ++ [.ok (unknownKeys (validKeys fieldType) .unknownKey d)])
  | _ => .error .typeError

/-- The messages that begin with `Warning:`, field.py 1482, 1813 and 2153. -/
def FieldProblem.isWarning : FieldProblem → Bool
  | .caseDeprecated => true
  | .noDate => true
  | _ => false

/-- A message: how many times it begins with `Warning:`, and what it says. field.py 1470-1479 and 2471-2477. -/
structure FieldReport where
  warnings : ℕ
  problem : FieldProblem
deriving DecidableEq, Repr

/-- `collect_errors`, field.py 1481-2478. `warning_prefix not in e` asks for a key of the message's dictionary and always holds. -/
def collectErrors (env : CheckEnv) (d : FDef) : Res (List FieldReport) :=
  match fieldProblems env d with
  | .error e => .error e
  | .ok ps => .ok (ps.map (fun p =>
      ⟨(if p.isWarning then 1 else 0) + (if truthyOpt (dictGet d "is_personal_field") then 1 else 0), p⟩))

end ML
