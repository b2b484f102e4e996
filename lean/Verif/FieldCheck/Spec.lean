import Verif.FieldCheck.Model
/-
Specification vocabulary for C62: the problems a field definition has, one rule per line, in terms of what is written in the
definition and of which fields exist.
-/
set_option autoImplicit false
namespace ML.Spec

/-- The definition gives the property this value. -/
def Given (d : FDef) (k : String) (v : Yaml) : Prop := dictGet d k = some v

/-- The definition gives the property some value. -/
def HasKey (d : FDef) (k : String) : Prop := ∃ v, Given d k v

/-- The definition gives the property a text. -/
def GivesText (d : FDef) (k : String) : Prop := ∃ s, Given d k (.str s)

/-- The property has a value, and it is not of the wanted kind. -/
def GivenNot (d : FDef) (k : String) (kind : Yaml → Prop) : Prop := ∃ v, Given d k v ∧ ¬ kind v

/-- The property is a list with an element that is not of the wanted kind. -/
def HasItemNot (d : FDef) (k : String) (kind : Yaml → Prop) : Prop := ∃ l, Given d k (.list l) ∧ ∃ v ∈ l, ¬ kind v

/-- A text. -/
def Text (v : Yaml) : Prop := ∃ s, v = .str s
/-- True or false. -/
def Flag (v : Yaml) : Prop := ∃ b, v = .bool b
/-- A list. -/
def Listed (v : Yaml) : Prop := ∃ l, v = .list l
/-- A dictionary. -/
def Dictionary (v : Yaml) : Prop := ∃ l, v = .dict l
/-- A whole number; Python counts true and false as such. -/
def Whole (v : Yaml) : Prop := (∃ n, v = .int n) ∨ ∃ b, v = .bool b
/-- One of the words. -/
def Word (ws : List String) (v : Yaml) : Prop := ∃ s ∈ ws, v = .str s

/-- A value that counts as nothing: null, false, zero, or an empty text, list or dictionary. -/
inductive Nothing : Yaml → Prop
  | null : Nothing .null
  | no : Nothing (.bool false)
  | zero : Nothing (.int 0)
  | zero' : Nothing (.float 0)
  | text : Nothing (.str "")
  | list : Nothing (.list [])
  | dict : Nothing (.dict [])

/-- The property has a value that does not count as nothing. -/
def IsSet (d : FDef) (k : String) : Prop := ∃ v, Given d k v ∧ ¬ Nothing v

/-- The name with the view in front, unless it has one. -/
def Qualified (view name full : String) : Prop :=
  ('.' ∈ name.toList ∧ full = name) ∨ ('.' ∉ name.toList ∧ full = view ++ "." ++ name)

/-- The field does not exist, or may not be seen. -/
def Unknown {α : Type} (r : Res α) : Prop := r = .error .accessDenied

/-- The field is not a dimension group of type time. -/
def NotTime (g : UField) : Prop := g.role ≠ .group ∨ g.type ≠ "time"

/-- The names in `${...}` that are looked up: of both ends of a duration, of the SQL otherwise. -/
def readNames (f : UField) : List String :=
  match f.sqlStart, f.sqlEnd with
  | some s, some t => if f.type = "duration" then s.names ++ t.names else (f.sql.map (·.names)).getD []
  | _, _ => (f.sql.map (·.names)).getD []

/-- The text is a template (contains `{%`). -/
def Templated (f : UField) : Prop := ∃ s, f.sql = some s ∧ s.template = true

/-- A name in the SQL of the field, or of the fields of type number it refers to, that leads to no field. -/
inductive DeadRef (get : UGet) : UField → String → Prop
  | here {f : UField} {n : String} : n ∈ readNames f → n ≠ "TABLE" → Unknown (get f.view n) → DeadRef get f n
  | through {f g : UField} {m n : String} : m ∈ readNames f → m ≠ "TABLE" → get f.view m = .ok g → g.type = "number" →
      ¬ Templated g → DeadRef get g n → DeadRef get f n

/-- The field's own SQL, as validation sees it: the filters have been given their views. -/
def ownSql (env : CheckEnv) (name : String) (d : FDef) : Res (Option Yaml) := fieldSql env name (qualifyFilters env.view d)

/-- What is wrong with a SQL text of the field: it is a reference to the field itself, it is a template, or it refers to something
that does not exist. -/
inductive SqlProblem (env : CheckEnv) (name : String) (d : FDef) (self : Option Yaml) (sql : String) : FieldProblem → Prop
  | self : sql = "${" ++ name ++ "}" → SqlProblem env name d self sql .selfRef
  | template : Templated (checkedField env name d self) → SqlProblem env name d self sql .template
  | dead {n} : ¬ Templated (checkedField env name d self) → ¬ Given d "type" (.str "cumulative") → DeadRef env.get (checkedField env name d self) n →
      SqlProblem env name d self sql (.badRef n)

/-- The date of the field: its own, with its view, or that of the view. -/
inductive DateIs (env : CheckEnv) (d : FDef) : String → Prop
  | own {s full} : Given d "canon_date" (.str s) → s ≠ "" → Qualified env.view (dropBraces s) full → DateIs env d full
  | view {t full} : ¬ IsSet d "canon_date" → env.defaultDate = some t → t ≠ "" → Qualified env.view t full → DateIs env d full

/-- The names of formats for numbers, texts and dates. -/
def formats : List String :=
  ["decimal_0", "decimal_1", "decimal_2", "decimal_pct_0", "decimal_pct_1", "decimal_pct_2", "percent_0", "percent_1", "percent_2",
   "eur", "eur_0", "eur_1", "eur_2", "usd", "usd_0", "usd_1", "usd_2", "string", "image_from_url", "date", "week", "month", "quarter", "year"]

/-- The timeframes of a time dimension group. -/
def timeframeNames : List String :=
  ["raw", "time", "second", "minute", "hour", "date", "week", "month", "quarter", "year", "fiscal_month", "fiscal_quarter",
   "fiscal_year", "week_index", "week_of_year", "week_of_month", "month_of_year", "month_of_year_index", "fiscal_month_index",
   "fiscal_month_of_year_index", "month_name", "month_index", "quarter_of_year", "fiscal_quarter_of_year", "hour_of_day",
   "day_of_week", "day_of_month", "day_of_year"]

/-- The intervals of a duration. -/
def intervalNames : List String := ["second", "minute", "hour", "day", "week", "month", "quarter", "year"]

/-- The properties a field of the type may have. -/
inductive PropertyOf : String → String → Prop
  | all {ft k} : k ∈ ["name", "field_type", "type", "label", "group_label", "description", "zoe_description", "hidden", "value_format_name",
      "synonyms", "required_access_grants", "label_prefix", "filters", "sql", "extra", "is_personal_field"] → PropertyOf ft k
  | dimension {k} : k ∈ ["primary_key", "tags", "drill_fields", "searchable", "tiers", "link", "canon_date", "case"] →
      PropertyOf "dimension" k
  | group {k} : k ∈ ["primary_key", "searchable", "tags", "drill_fields", "timeframes", "intervals", "sql_start", "sql_end", "convert_tz",
      "convert_timezone", "datatype", "link"] → PropertyOf "dimension_group" k
  | measure {k} : k ∈ ["sql_distinct_key", "non_additive_dimension", "canon_date", "measure", "is_merged_result", "cumulative_where",
      "update_where_timeframe"] → PropertyOf "measure" k

/-- Problems every kind of field can have. -/
inductive PlainProblem (env : CheckEnv) (name ft : String) (d : FDef) : FieldProblem → Prop
  | name : ¬ (name.toList ≠ [] ∧ ∀ c ∈ name.toList, ('a' ≤ c ∧ c ≤ 'z') ∨ ('A' ≤ c ∧ c ≤ 'Z') ∨ ('0' ≤ c ∧ c ≤ '9') ∨ c = '_') →
      PlainProblem env name ft d .badName
  | reserved : name ∈ ["date", "week", "month", "quarter", "year", "day_of_year", "week_of_year", "month_of_year"] →
      ft ≠ "dimension_group" → PlainProblem env name ft d .reservedName
  | fieldType : ft ∉ ["dimension", "dimension_group", "measure"] → PlainProblem env name ft d .badFieldType
  | type : ¬ HasKey d "type" → PlainProblem env name ft d .noType
  | label : GivenNot d "label" Text → ¬ IsSet d "label_prefix" → PlainProblem env name ft d (.wrongKind "label")
  | text {k} : k ∈ ["group_label", "description", "zoe_description"] → GivenNot d k Text → PlainProblem env name ft d (.wrongKind k)
  | hidden : GivenNot d "hidden" Flag → PlainProblem env name ft d (.wrongKind "hidden")
  | long {k s} : k ∈ ["description", "zoe_description"] → Given d k (.str s) → 512 < s.length →
      PlainProblem env name ft d (.tooLong k)
  | format : GivenNot d "value_format_name" (Word formats) → PlainProblem env name ft d .badFormat
  | list {k} : k ∈ ["synonyms", "required_access_grants"] → GivenNot d k Listed → PlainProblem env name ft d (.wrongKind k)
  | item {k} : k ∈ ["synonyms", "required_access_grants"] → HasItemNot d k Text → PlainProblem env name ft d (.badItem k)
  | grant {l g} : Given d "required_access_grants" (.list l) → Yaml.str g ∈ l → env.grant g = false →
      PlainProblem env name ft d (.noGrant g)
  | extra : GivenNot d "extra" Dictionary → PlainProblem env name ft d (.wrongKind "extra")
  | dateKind : IsSet d "canon_date" → ¬ GivesText d "canon_date" → PlainProblem env name ft d (.wrongKind "canon_date")
  | dateUnknown {c} : DateIs env d c → ¬ Qualified env.view (env.defaultDate.getD "None") c →
      (Unknown (env.getByName c) ∨ env.getByName c = .error .query) → PlainProblem env name ft d .dateUnreachable
  | dateNotTime {c g} : DateIs env d c → ¬ Qualified env.view (env.defaultDate.getD "None") c → env.getByName c = .ok g → NotTime g →
      PlainProblem env name ft d .dateNotTime
  | key {k} : HasKey d k → ¬ PropertyOf ft k → PlainProblem env name ft d (.unknownKey k)

/-- The field of the filter, with its view. -/
inductive FilterOn (env : CheckEnv) (f : FDef) : String → Prop
  | mk {s full} : Given f "field" (.str s) → Qualified env.view s full → FilterOn env f full

/-- Problems of the filters of a field. -/
inductive FilterProblem (env : CheckEnv) (name : String) (d : FDef) : FieldProblem → Prop
  | kind : IsSet d "filters" → GivenNot d "filters" Listed → FilterProblem env name d (.wrongKind "filters")
  | notDict : HasItemNot d "filters" Dictionary → FilterProblem env name d .filterNotDict
  | self {l f} : Given d "filters" (.list l) → Yaml.dict f ∈ l → FilterOn env f (env.view ++ "." ++ name) →
      FilterProblem env name d .filterSelf
  | noField {l f} : Given d "filters" (.list l) → Yaml.dict f ∈ l → ¬ HasKey f "field" → FilterProblem env name d .filterNoField
  | unknown {l f n} : Given d "filters" (.list l) → Yaml.dict f ∈ l → FilterOn env f n → Unknown (env.getText n) →
      FilterProblem env name d (.filterUnknown n)
  | noValue {l f} : Given d "filters" (.list l) → Yaml.dict f ∈ l → ¬ HasKey f "value" → FilterProblem env name d .filterNoValue
  | value {l f f'} : Given d "filters" (.list l) → Yaml.dict f ∈ l → GivenNot f "value" Text → qualifyFilter env.view (.dict f) = .dict f' →
      env.filterOk f' = false → FilterProblem env name d .filterBadValue
  | key {l f k} : Given d "filters" (.list l) → Yaml.dict f ∈ l → HasKey f k → k ∉ ["field", "value"] →
      FilterProblem env name d (.filterKey k)

/-- Problems of a dimension. -/
inductive DimensionProblem (env : CheckEnv) (name : String) (d : FDef) : FieldProblem → Prop
  | type : (∀ v, Given d "type" v → ¬ Word ["string", "number", "yesno", "tier"] v) → DimensionProblem env name d .badType
  | searchable : Given d "type" (.str "string") → ¬ IsSet d "hidden" → ¬ HasKey d "searchable" →
      DimensionProblem env name d .needsSearchable
  | flag {k} : k ∈ ["primary_key", "searchable"] → GivenNot d k Flag → DimensionProblem env name d (.wrongKind k)
  | link : GivenNot d "link" Text → DimensionProblem env name d (.wrongKind "link")
  | noSql : ¬ GivesText d "sql" → ¬ HasKey d "case" → DimensionProblem env name d (.wrongKind "sql")
  | case : HasKey d "case" → DimensionProblem env name d .caseDeprecated
  | sql {s p} : GivesText d "sql" → ¬ HasKey d "case" → ownSql env name d = .ok (some (.str s)) →
      SqlProblem env name d (some (.str s)) s p → DimensionProblem env name d p
  | tags : GivenNot d "tags" Listed → DimensionProblem env name d (.wrongKind "tags")
  | tag : HasItemNot d "tags" Text → DimensionProblem env name d (.badItem "tags")
  | drillKind : GivenNot d "drill_fields" Listed → DimensionProblem env name d (.wrongKind "drill_fields")
  | drill {l ns n} : Given d "drill_fields" (.list l) → l ≠ [] → env.drill l = .ok ns → n ∈ ns → Unknown (env.getText n) →
      DimensionProblem env name d (.drillUnknown n)
  | drillRaw {l n} : Given d "drill_fields" (.list l) → env.drill l = .error .attributeError → Yaml.str n ∈ l →
      Unknown (env.getText n) → DimensionProblem env name d (.drillUnknown n)
  | noTiers : Given d "type" (.str "tier") → ¬ HasKey d "tiers" → DimensionProblem env name d (.missing "tiers")
  | tiers : Given d "type" (.str "tier") → GivenNot d "tiers" Listed → DimensionProblem env name d (.wrongKind "tiers")
  | tier : Given d "type" (.str "tier") → HasItemNot d "tiers" Whole → DimensionProblem env name d (.badItem "tiers")

/-- Problems of a dimension group. -/
inductive GroupProblem (env : CheckEnv) (name : String) (d : FDef) : FieldProblem → Prop
  | type : (∀ v, Given d "type" v → ¬ Word ["time", "duration"] v) → GroupProblem env name d .badType
  | primaryKey : GivenNot d "primary_key" Flag → GroupProblem env name d (.wrongKind "primary_key")
  | intervals : Given d "type" (.str "time") → HasKey d "intervals" → GroupProblem env name d (.forbidden "intervals")
  | timeframes : Given d "type" (.str "duration") → HasKey d "timeframes" → GroupProblem env name d (.forbidden "timeframes")
  | noSql : Given d "type" (.str "duration") → HasKey d "sql" → GroupProblem env name d (.forbidden "sql")
  | words {t k} : (t, k) ∈ [("time", "timeframes"), ("duration", "intervals")] → Given d "type" (.str t) → GivenNot d k Listed →
      GroupProblem env name d (.wrongKind k)
  | empty {t k} : (t, k) ∈ [("time", "timeframes"), ("duration", "intervals")] → Given d "type" (.str t) → Given d k (.list []) →
      GroupProblem env name d (.emptyList k)
  | timeframe : Given d "type" (.str "time") → HasItemNot d "timeframes" (Word timeframeNames) →
      GroupProblem env name d (.badItem "timeframes")
  | interval : Given d "type" (.str "duration") → HasItemNot d "intervals" (Word intervalNames) →
      GroupProblem env name d (.badItem "intervals")
  | sqlKind : Given d "type" (.str "time") → GivenNot d "sql" Text → GroupProblem env name d (.wrongKind "sql")
  | sql {s p} : Given d "type" (.str "time") → GivesText d "sql" → ownSql env name d = .ok (some (.str s)) →
      SqlProblem env name d (some (.str s)) s p → GroupProblem env name d p
  | flag {k} : k ∈ ["convert_tz", "convert_timezone"] → Given d "type" (.str "time") → GivenNot d k Flag →
      GroupProblem env name d (.wrongKind k)
  | datatype : Given d "type" (.str "time") → GivenNot d "datatype" (Word ["date", "datetime", "timestamp"]) →
      GroupProblem env name d .badDatatype
  | endKind {k} : k ∈ ["sql_start", "sql_end"] → Given d "type" (.str "duration") → ¬ GivesText d k →
      GroupProblem env name d (.wrongKind k)
  | endSql {k t s p} : k ∈ ["sql_start", "sql_end"] → Given d "type" (.str "duration") → Given d k (.str t) → ownSql env name d = .ok s →
      SqlProblem env name d s (cleanSql t) p → GroupProblem env name d p

/-- The metric combines metrics with different dates, or is declared to. -/
inductive MergedMetric (env : CheckEnv) (name : String) (d : FDef) : Prop
  | declared : IsSet d "is_merged_result" → MergedMetric env name d
  | dates {s rs g h} : ¬ HasKey d "is_merged_result" → Given d "type" (.str "number") → Given d "field_type" (.str "measure") →
      ownSql env name d = .ok s → sqlRefs env.get env.depth (checkedField env name d s) = .ok rs →
      URef.field g ∈ rs → URef.field h ∈ rs → g.role = .measure → h.role = .measure → g.type ≠ "cumulative" →
      h.type ≠ "cumulative" → g.canonDate ≠ h.canonDate → MergedMetric env name d

/-- Problems of the non additive dimension of a measure. -/
inductive WindowProblem (env : CheckEnv) (q : FDef) : FieldProblem → Prop
  | unknown {s n} : Given q "name" (.str s) → Qualified env.view s n → Unknown (env.get env.view n) → WindowProblem env q .windowUnknown
  | notTime {s n g} : Given q "name" (.str s) → Qualified env.view s n → env.get env.view n = .ok g → NotTime g →
      WindowProblem env q .windowNotTime
  | choice : GivenNot q "window_choice" (Word ["min", "max"]) → WindowProblem env q .windowChoice
  | flag {k} : k ∈ ["window_aware_of_query_dimensions", "nulls_are_equal"] → GivenNot q k Flag → WindowProblem env q (.windowKind k)
  | groupings : GivenNot q "window_groupings" Listed → WindowProblem env q (.windowKind "window_groupings")
  | groupingUnknown {l s n} : Given q "window_groupings" (.list l) → Yaml.str s ∈ l → Qualified env.view s n →
      Unknown (env.get env.view n) → WindowProblem env q (.windowGroupingUnknown n)
  | groupingKind {l s n g} : Given q "window_groupings" (.list l) → Yaml.str s ∈ l → Qualified env.view s n →
      env.get env.view n = .ok g → g.role = .measure → WindowProblem env q (.windowGroupingKind n)
  | key {k} : HasKey q k →
      k ∉ ["name", "window_choice", "window_groupings", "window_aware_of_query_dimensions", "nulls_are_equal"] →
      WindowProblem env q (.windowKey k)

/-- Problems of a measure. -/
inductive MeasureProblem (env : CheckEnv) (name : String) (d : FDef) : FieldProblem → Prop
  | type : (∀ v, Given d "type" v → ¬ Word ["count", "count_distinct", "sum", "sum_distinct", "average", "average_distinct",
      "median", "max", "min", "number", "cumulative"] v) → MeasureProblem env name d .badType
  | primaryKey : HasKey d "primary_key" → MeasureProblem env name d (.forbidden "primary_key")
  | noDateMerged : ¬ IsSet d "canon_date" → (∀ c, ¬ DateIs env d c) → MergedMetric env name d →
      MeasureProblem env name d .noDateMerged
  | noDate : ¬ IsSet d "canon_date" → (∀ c, ¬ DateIs env d c) → ¬ MergedMetric env name d →
      MeasureProblem env name d .noDate
  | noSql : ¬ Given d "type" (.str "cumulative") → ¬ HasKey d "sql" → MeasureProblem env name d (.missing "sql")
  | sqlKind : ¬ Given d "type" (.str "cumulative") → GivenNot d "sql" Text → MeasureProblem env name d (.wrongKind "sql")
  | sql {s p} : ¬ Given d "type" (.str "cumulative") → GivesText d "sql" → ownSql env name d = .ok (some (.str s)) →
      SqlProblem env name d (some (.str s)) s p → MeasureProblem env name d p
  | merged : GivenNot d "is_merged_result" Flag → MeasureProblem env name d (.wrongKind "is_merged_result")
  | noMeasure : Given d "type" (.str "cumulative") → ¬ HasKey d "measure" → MeasureProblem env name d (.missing "measure")
  | measureKind : Given d "type" (.str "cumulative") → GivenNot d "measure" Text → MeasureProblem env name d (.wrongKind "measure")
  | measureUnset : Given d "type" (.str "cumulative") → ¬ IsSet d "measure" → MeasureProblem env name d .measureUnreachable
  | measureUnknown {m} : Given d "type" (.str "cumulative") → Given d "measure" (.str m) → m ≠ "" →
      (Unknown (env.get env.view m) ∨ env.get env.view m = .error .query) → MeasureProblem env name d .measureUnreachable
  | notMeasure {m g} : Given d "type" (.str "cumulative") → Given d "measure" (.str m) → m ≠ "" → env.get env.view m = .ok g →
      g.role ≠ .measure → MeasureProblem env name d .notMeasure
  | whereKind : Given d "type" (.str "cumulative") → GivenNot d "cumulative_where" Text →
      MeasureProblem env name d (.wrongKind "cumulative_where")
  | updateKind : Given d "type" (.str "cumulative") → GivenNot d "update_where_timeframe" Flag →
      MeasureProblem env name d (.wrongKind "update_where_timeframe")
  | noDistinct {t} : t ∈ ["sum_distinct", "average_distinct"] → Given d "type" (.str t) → ¬ IsSet d "sql_distinct_key" →
      MeasureProblem env name d (.missing "sql_distinct_key")
  | distinctKind : IsSet d "sql_distinct_key" → GivenNot d "sql_distinct_key" Text → MeasureProblem env name d (.wrongKind "sql_distinct_key")
  | distinct {s n} : Given d "sql_distinct_key" (.str s) → n.toList ∈ fieldsToReplace s.toList → n ≠ "TABLE" →
      Unknown (env.get env.view n) → MeasureProblem env name d (.distinctUnknown n)
  | windowKind : GivenNot d "non_additive_dimension" Dictionary → MeasureProblem env name d (.wrongKind "non_additive_dimension")
  | windowEmpty : Given d "non_additive_dimension" (.dict []) → MeasureProblem env name d (.missing "non_additive_dimension.name")
  | window {q p} : Given d "non_additive_dimension" (.dict q) → q ≠ [] → WindowProblem env q p → MeasureProblem env name d p

/-- The problems of a field of the given name and kind. -/
inductive HasProblem (env : CheckEnv) (name ft : String) (d : FDef) : FieldProblem → Prop
  | plain {p} : PlainProblem env name ft d p → HasProblem env name ft d p
  | filter {p} : FilterProblem env name d p → HasProblem env name ft d p
  | dimension {p} : ft = "dimension" → DimensionProblem env name d p → HasProblem env name ft d p
  | group {p} : ft = "dimension_group" → GroupProblem env name d p → HasProblem env name ft d p
  | measure {p} : ft = "measure" → MeasureProblem env name d p → HasProblem env name ft d p

/-- Looking up a field either finds it or says that it does not exist. -/
structure LooksUp (env : CheckEnv) : Prop where
  get : ∀ v n e, env.get v n = .error e → e = .accessDenied
  getText : ∀ n e, env.getText n = .error e → e = .accessDenied
  getByName : ∀ n e, env.getByName n = .error e → e = .accessDenied ∨ e = .query

/-- The field's own SQL cannot be made, or its references cannot be followed. -/
def SqlRaises (env : CheckEnv) (name : String) (d : FDef) : Prop :=
  (∃ e, ownSql env name d = .error e) ∨
  ∃ s e, ownSql env name d = .ok (some (.str s)) ∧ fieldRefs env.get env.depth (checkedField env name d (some (.str s))) = .error e

/-- The same when the references are those of the ends of a duration. -/
def EndRaises (env : CheckEnv) (name : String) (d : FDef) : Prop :=
  (∃ e, ownSql env name d = .error e) ∨
  ∃ s e, ownSql env name d = .ok s ∧ fieldRefs env.get env.depth (checkedField env name d s) = .error e

/-- A non additive dimension that validation cannot read. -/
inductive WindowRaises (q : FDef) : Prop
  | noName : ¬ HasKey q "name" → WindowRaises q
  | nameKind : GivenNot q "name" Text → WindowRaises q
  | noChoice : ¬ HasKey q "window_choice" → WindowRaises q
  | grouping : HasItemNot q "window_groupings" Text → WindowRaises q

/-- The definitions for which validating ends with an exception instead of a report. -/
inductive Raises (env : CheckEnv) (name ft : String) (d : FDef) : Prop
  | filterField {l f} : Given d "filters" (.list l) → Yaml.dict f ∈ l → GivenNot f "field" Text → Raises env name ft d
  | sql : ft = "dimension" → GivesText d "sql" → ¬ HasKey d "case" → SqlRaises env name d → Raises env name ft d
  | drill {l e} : ft = "dimension" → Given d "drill_fields" (.list l) → l ≠ [] → env.drill l = .error e → e ≠ .attributeError →
      Raises env name ft d
  | drillItem {l} : ft = "dimension" → Given d "drill_fields" (.list l) → env.drill l = .error .attributeError →
      HasItemNot d "drill_fields" Text → Raises env name ft d
  | noTimeframes : ft = "dimension_group" → Given d "type" (.str "time") → ¬ HasKey d "timeframes" → Raises env name ft d
  | noTimeSql : ft = "dimension_group" → Given d "type" (.str "time") → ¬ HasKey d "sql" → Raises env name ft d
  | timeSql : ft = "dimension_group" → Given d "type" (.str "time") → GivesText d "sql" → SqlRaises env name d → Raises env name ft d
  | noIntervals : ft = "dimension_group" → Given d "type" (.str "duration") → ¬ HasKey d "intervals" → Raises env name ft d
  | endSql {k} : k ∈ ["sql_start", "sql_end"] → ft = "dimension_group" → Given d "type" (.str "duration") → GivesText d k →
      EndRaises env name d → Raises env name ft d
  | measureSql : ft = "measure" → ¬ Given d "type" (.str "cumulative") → GivesText d "sql" → SqlRaises env name d → Raises env name ft d
  | cumulativeSql {e} : ft = "measure" → Given d "type" (.str "cumulative") → ownSql env name d = .error e → Raises env name ft d
  | merged : ft = "measure" → ¬ IsSet d "canon_date" → (∀ c, ¬ DateIs env d c) → ¬ HasKey d "is_merged_result" →
      Given d "type" (.str "number") → Given d "field_type" (.str "measure") →
      ((∃ e, ownSql env name d = .error e) ∨ ∃ s e, ownSql env name d = .ok s ∧
        sqlRefs env.get env.depth (checkedField env name d s) = .error e ∧ e ≠ .attributeError) → Raises env name ft d
  | measureKind {v} : ft = "measure" → Given d "type" (.str "cumulative") → Given d "measure" v → ¬ Text v → ¬ Nothing v →
      Raises env name ft d
  | window {q} : ft = "measure" → Given d "non_additive_dimension" (.dict q) → q ≠ [] → WindowRaises q → Raises env name ft d

/-- Validating the definition reports nothing, or only that a measure has no date. -/
def NothingReported (env : CheckEnv) (d : FDef) : Prop :=
  ∃ rs, collectErrors env d = .ok rs ∧ ∀ r ∈ rs, r.problem = .noDate

/-- The field is that of a definition about which validation reports nothing. Validation does not look at the SQL of cumulative metrics,
nor at the ends of a time group, which count when its SQL is empty; such definitions are left out. -/
structure Validated (get : UGet) (g : UField) (env : CheckEnv) (name : String) (d : FDef) : Prop where
  lookUp : env.get = get
  view : g.view = env.view
  named : Given d "name" (.str name)
  clean : NothingReported env d
  sql : ∃ s, ownSql env name d = .ok s ∧ g.sql = (checkedField env name d s).sql ∧ g.sqlStart = (checkedField env name d s).sqlStart ∧
    g.sqlEnd = (checkedField env name d s).sqlEnd
  cumulative : Given d "type" (.str "cumulative") → ¬ HasKey d "sql"
  time : Given d "type" (.str "time") → ¬ ∃ s, ownSql env name d = .ok s ∧ namesOfValue s = none

end ML.Spec
