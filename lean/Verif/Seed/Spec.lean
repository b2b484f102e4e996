import Verif.Seed.Model

/-!
# What a seeded project is

Which data types are times, numbers and booleans in each warehouse, what a field says of its column, and what a view says of its table.
-/

set_option autoImplicit false

namespace ML
namespace Spec

/-- The data types that are times, with what they become. -/
def timeTypes : Wh → List (String × String)
  | .snowflake => [("DATE", "date"), ("DATETIME", "timestamp"), ("TIMESTAMP", "timestamp"), ("TIMESTAMP_TZ", "timestamp"),
      ("TIMESTAMP_NTZ", "timestamp"), ("TIMESTAMP_LTZ", "timestamp")]
  | .redshift => [("DATE", "date"), ("TIME", "timestamp"), ("TIMETZ", "timestamp"), ("TIMESTAMP", "timestamp"), ("TIMESTAMPTZ", "timestamp")]
  | .postgres | .duckDb => [("date", "date"), ("timestamp without time zone", "timestamp"), ("timestamp with time zone", "timestamp")]
  | .bigquery => [("DATE", "date"), ("DATETIME", "timestamp"), ("TIMESTAMP", "timestamp")]
  | .druid => [("DATE", "date"), ("TIMESTAMP", "timestamp")]
  | .sqlServer | .azureSynapse => [("date", "date"), ("datetime2", "datetime"), ("smalldatetime", "datetime"), ("datetime", "datetime"),
      ("time", "datetime")]
  | .databricks => [("DATE", "date"), ("TIME", "timestamp"), ("TIMESTAMP", "timestamp"), ("TIMESTAMP_NTZ", "timestamp")]
  | .trino => [("date", "date"), ("timestamp", "timestamp"), ("timestamp(p)", "timestamp"), ("timestamp with time zone", "timestamp"),
      ("timestamp(p) with time zone", "timestamp")]
  | .unknown => []

/-- The data types that are numbers. -/
def numberTypes : Wh → List String
  | .snowflake => ["FIXED", "FLOAT", "REAL", "NUMBER"]
  | .redshift => ["DOUBLE PRECISION", "DOUBLE", "PRECISION", "REAL", "DECIMAL", "BIGINT"]
  | .postgres | .duckDb => ["bigint", "integer", "smallint", "real", "double precision", "numeric", "float", "money"]
  | .bigquery => ["FLOAT64", "INT64", "NUMERIC"]
  | .druid => ["DECIMAL", "FLOAT", "REAL", "DOUBLE", "TINYINT", "SMALLINT", "INTEGER", "BIGINT"]
  | .sqlServer | .azureSynapse => ["float", "real", "bigint", "numeric", "smallint", "decimal", "smallmoney", "int", "tinyint", "money"]
  | .databricks => ["DOUBLE", "FLOAT", "DECIMAL", "LONG", "INT", "SMALLINT", "BIGINT", "TINYINT"]
  | .trino => ["tinyint", "smallint", "integer", "int", "bigint", "real", "double", "decimal"]
  | .unknown => []

/-- The data type that is a boolean. -/
def yesnoType : Wh → String
  | .snowflake | .redshift | .druid | .databricks => "BOOLEAN"
  | .postgres | .duckDb | .trino => "boolean"
  | .sqlServer | .azureSynapse => "bit"
  | .bigquery => "BOOL"
  | .unknown => ""

/-- A dimension: the type of a column that is no time. -/
def plainType (w : Wh) (dtype : String) : String :=
  if dtype ∈ numberTypes w then "number" else if dtype = yesnoType w then "yesno" else "string"

/-- The column as it is written in SQL: in quotes, but for BigQuery and Databricks. -/
def columnIn (w : Wh) (c : String) : String := if w = .bigquery ∨ w = .databricks then c else "\"" ++ c ++ "\""

/-- A field says what there is to say of a column. Its name is `cleanName` of the column, which `C68_name` describes. -/
def SeededAs (w : Wh) (r : ColRow) (f : SeedField) : Prop :=
  f.name = cleanName r.column ∧ f.sql = "${TABLE}." ++ columnIn w r.column ∧
  f.description = (if w = .snowflake ∨ w = .databricks then r.comment else none) ∧
  match dictGet (timeTypes w) r.dtype with
  | some t => f.fieldType = "dimension_group" ∧ f.type = "time" ∧ f.datatype = some t ∧
      f.timeframes = ["raw", "date", "day_of_year", "week", "week_of_year", "month", "month_of_year", "quarter", "year"]
  | none => f.fieldType = "dimension" ∧ f.type = plainType w r.dtype ∧ f.datatype = none ∧ f.timeframes = []

/-- The columns of a table whatever the case of its name, in order. -/
def columnsOf (rows : List ColRow) (t : String) : List ColRow := rows.filter fun r => lower r.table = lower t

/-- The rows of the chosen schema and table; all rows when none was chosen. -/
def inChoice (schema table : Option String) (rows : List ColRow) : List ColRow :=
  rows.filter fun r => (∀ c, schema = some c → c ≠ "" → lower r.schema = lower c) ∧ (∀ t, table = some t → t ≠ "" → lower r.table = lower t)

/-- Each of the texts once, in the order in which they first come. -/
def FirstOf (l u : List String) : Prop :=
  u.Nodup ∧ (∀ x, x ∈ u ↔ x ∈ l) ∧ ∀ x y, x ∈ u → y ∈ u → (u.idxOf x ≤ u.idxOf y ↔ l.idxOf x ≤ l.idxOf y)

/-- The name of a table in SQL. -/
def tableIn (s : Seeder) (schema table : String) : String :=
  if s.wh = .bigquery then "`" ++ s.database.getD "None" ++ "." ++ schema ++ "." ++ table ++ "`"
  else if s.notDefault = true ∧ s.wh ≠ .druid ∧ s.wh ≠ .trino then s.database.getD "None" ++ "." ++ schema ++ "." ++ table
  else schema ++ "." ++ table

/-- The name of the first group of times among the fields. -/
def FirstDate (fields : List SeedField) : Option String → Prop
  | none => ∀ f ∈ fields, f.fieldType ≠ "dimension_group"
  | some n => ∃ pre f post, fields = pre ++ f :: post ∧ f.fieldType = "dimension_group" ∧ f.name = n ∧
      ∀ g ∈ pre, g.fieldType ≠ "dimension_group"

/-- The listed tables of the chosen schema and table; all of them when none was chosen. -/
def tabsInChoice (schema table : Option String) (tabs : List TabRow) : List TabRow :=
  tabs.filter fun r => (∀ c, schema = some c → c ≠ "" → lower r.schema = lower c) ∧ (∀ t, table = some t → t ≠ "" → lower r.table = lower t)

/-- The description of the view of a table: the comment of the first listed table of the name, when it has one; nothing when none is listed. -/
def DescribedBy (tabs : List TabRow) (t : String) (d : Option String) : Prop :=
  (tabs = [] → d = none) ∧
  (tabs ≠ [] → ∃ pre tab post, tabs = pre ++ tab :: post ∧ lower tab.table = lower t ∧ (∀ x ∈ pre, lower x.table ≠ lower t) ∧
    ∀ text, d = some text ↔ (tab.comment = some text ∧ text ≠ ""))

/-- A view says what there is to say of a table. -/
def ViewOf (s : Seeder) (model : String) (rows : List ColRow) (tabs : List TabRow) (t : String) (v : SeedView) : Prop :=
  v.name = cleanName t ∧ v.modelName = model ∧ List.Forall₂ (SeededAs s.wh) (columnsOf rows t) v.fields ∧ FirstDate v.fields v.defaultDate ∧
  DescribedBy tabs t v.description ∧
  ∃ r rest, columnsOf rows t = r :: rest ∧ v.sqlTableName = tableIn s r.schema t

/-- The characters of a name. -/
def nameChar (c : Char) : Prop := ('a' ≤ c ∧ c ≤ 'z') ∨ ('0' ≤ c ∧ c ≤ '9') ∨ c = '_'

/-- The column is a text for the project. -/
def IsText (w : Wh) (r : ColRow) : Prop := dictGet (timeTypes w) r.dtype = none ∧ plainType w r.dtype = "string"

/-- The columns that are texts, in order. -/
def textColumns (w : Wh) (rows : List ColRow) : List String :=
  (rows.filter fun r => dictGet (timeTypes w) r.dtype = none ∧ plainType w r.dtype = "string").map (·.column)

/-- The count of a column: it comes under the name of the column, in any case. -/
def CountOf (c : String) (p : String × Nat) : Prop := lower p.1 = lower (c ++ "_cardinality")

/-- What is asked of a column: its catalog, schema, table, name and type, and its comment where the warehouse keeps one. -/
def askedOf (w : Wh) : String :=
  if w = .druid ∨ w = .trino then "TABLE_CATALOG, TABLE_SCHEMA, TABLE_NAME, COLUMN_NAME, DATA_TYPE"
  else if w = .snowflake ∨ w = .databricks then "table_catalog, table_schema, table_name, column_name, data_type, comment as comment"
  else "table_catalog, table_schema, table_name, column_name, data_type"

/-- The choice of a schema and a table in SQL. -/
def whereText (schema table : Option String) : String :=
  match schema, table with
  | some c, some t => " WHERE TABLE_SCHEMA = '" ++ c ++ "' AND TABLE_NAME = '" ++ t ++ "'"
  | some c, none => " WHERE TABLE_SCHEMA = '" ++ c ++ "'"
  | none, _ => ""

/-- The count of the different values of a column between the quotes of the warehouse, as a column named after it. -/
def countIn (w : Wh) (c : String) : String :=
  match w with
  | .redshift | .postgres => "COUNT(DISTINCT \"" ++ c ++ "\" ) as \"" ++ c ++ "_cardinality\""
  | .sqlServer | .azureSynapse => "COUNT(DISTINCT cast(\"" ++ c ++ "\" as VARCHAR(MAX))) as \"" ++ c ++ "_cardinality\""
  | .bigquery => "APPROX_COUNT_DISTINCT( TO_JSON_STRING(`" ++ c ++ "`) ) as `" ++ c ++ "_cardinality`"
  | .databricks => "APPROX_COUNT_DISTINCT( `" ++ c ++ "` ) as `" ++ c ++ "_cardinality`"
  | .trino => "APPROX_DISTINCT( \"" ++ c ++ "\" ) as \"" ++ c ++ "_cardinality\""
  | _ => "APPROX_COUNT_DISTINCT( \"" ++ c ++ "\" ) as \"" ++ c ++ "_cardinality\""

end Spec
end ML
