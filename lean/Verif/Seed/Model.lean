import Verif.Dict
import Mathlib.Data.List.Basic

/-!
# Seeding a project from a database

Model of `metrics_layer/cli/seeding.py`. The warehouse is a parameter: a function from the text of a query to the rows it returns. Rows of the
information schema are records with the columns the code reads. Files are not written here (see the area Dump).
-/

set_option autoImplicit false

namespace ML

/-- The types of connections, definitions.py 2-11. -/
inductive Wh
  | snowflake | bigquery | redshift | postgres | druid | sqlServer | duckDb | databricks | azureSynapse | trino
  /-- Any other text. -/
  | unknown
  deriving DecidableEq, Repr

/-- `_snowflake_type_lookup`, seeding.py 45-64. -/
def snowflakeTypes : List (String × String) :=
  [("DATE", "date"), ("DATETIME", "timestamp"), ("TIMESTAMP_TZ", "timestamp"), ("TIMESTAMP_NTZ", "timestamp"),
    ("TIMESTAMP_LTZ", "timestamp"), ("TIMESTAMP", "timestamp"), ("BOOLEAN", "yesno"), ("FIXED", "number"), ("FLOAT", "number"),
    ("REAL", "number"), ("TEXT", "string"), ("VARCHAR", "string"), ("CHAR", "string"), ("CHARACTER", "string"), ("STRING", "string"),
    ("BINARY", "string"), ("VARBINARY", "string"), ("NUMBER", "number")]

/-- `_redshift_type_lookup`, seeding.py 66-81. -/
def redshiftTypes : List (String × String) :=
  [("TIME", "timestamp"), ("TIMETZ", "timestamp"), ("TIMESTAMP", "timestamp"), ("TIMESTAMPTZ", "timestamp"), ("DATE", "date"),
    ("CHAR", "string"), ("VARCHAR", "string"), ("BOOLEAN", "yesno"), ("DOUBLE PRECISION", "number"), ("DOUBLE", "number"),
    ("PRECISION", "number"), ("REAL", "number"), ("DECIMAL", "number"), ("BIGINT", "number")]

/-- `_databricks_type_lookup`, seeding.py 82-97. -/
def databricksTypes : List (String × String) :=
  [("TIME", "timestamp"), ("TIMESTAMP", "timestamp"), ("TIMESTAMP_NTZ", "timestamp"), ("DATE", "date"), ("STRING", "string"),
    ("BOOLEAN", "yesno"), ("DOUBLE", "number"), ("FLOAT", "number"), ("DECIMAL", "number"), ("LONG", "number"), ("INT", "number"),
    ("SMALLINT", "number"), ("BIGINT", "number"), ("TINYINT", "number")]

/-- `_druid_type_lookup`, seeding.py 98-112. -/
def druidTypes : List (String × String) :=
  [("CHAR", "string"), ("VARCHAR", "string"), ("DECIMAL", "number"), ("FLOAT", "number"), ("REAL", "number"), ("DOUBLE", "number"),
    ("BOOLEAN", "yesno"), ("TINYINT", "number"), ("SMALLINT", "number"), ("INTEGER", "number"), ("BIGINT", "number"),
    ("TIMESTAMP", "timestamp"), ("DATE", "date")]

/-- `_postgres_type_lookup`, seeding.py 114-128. -/
def postgresTypes : List (String × String) :=
  [("date", "date"), ("timestamp without time zone", "timestamp"), ("timestamp with time zone", "timestamp"), ("text", "string"),
    ("boolean", "yesno"), ("bigint", "number"), ("integer", "number"), ("smallint", "number"), ("real", "number"),
    ("double precision", "number"), ("numeric", "number"), ("float", "number"), ("money", "number")]

/-- `_sql_server_type_lookup`, seeding.py 129-149. -/
def sqlServerTypes : List (String × String) :=
  [("float", "number"), ("real", "number"), ("bigint", "number"), ("numeric", "number"), ("smallint", "number"), ("decimal", "number"),
    ("smallmoney", "number"), ("int", "number"), ("tinyint", "number"), ("money", "number"), ("char", "string"), ("varchar", "string"),
    ("text", "string"), ("date", "date"), ("datetime2", "datetime"), ("smalldatetime", "datetime"), ("datetime", "datetime"),
    ("time", "datetime"), ("bit", "yesno")]

/-- `_bigquery_type_lookup`, seeding.py 150-159. -/
def bigqueryTypes : List (String × String) :=
  [("DATE", "date"), ("DATETIME", "timestamp"), ("TIMESTAMP", "timestamp"), ("BOOL", "yesno"), ("FLOAT64", "number"), ("INT64", "number"),
    ("NUMERIC", "number"), ("STRING", "string")]

/-- `_trino_type_lookup`, seeding.py 160-179. -/
def trinoTypes : List (String × String) :=
  [("boolean", "yesno"), ("tinyint", "number"), ("smallint", "number"), ("integer", "number"), ("int", "number"), ("bigint", "number"),
    ("real", "number"), ("double", "number"), ("decimal", "number"), ("varchar", "string"), ("char", "string"), ("varbinary", "string"),
    ("json", "string"), ("date", "date"), ("timestamp", "timestamp"), ("timestamp(p)", "timestamp"),
    ("timestamp with time zone", "timestamp"), ("timestamp(p) with time zone", "timestamp")]

/-- The lookup of a type of connection, seeding.py 352-369. -/
def typesOf : Wh → Option (List (String × String))
  | .snowflake => some snowflakeTypes
  | .redshift => some redshiftTypes
  | .postgres | .duckDb => some postgresTypes
  | .bigquery => some bigqueryTypes
  | .druid => some druidTypes
  | .sqlServer | .azureSynapse => some sqlServerTypes
  | .databricks => some databricksTypes
  | .trino => some trinoTypes
  | .unknown => none

/-- `metrics_layer_type`, seeding.py 352-369. -/
def layerType (w : Wh) (dtype : String) : Res String :=
  match typesOf w with
  | none => .error .notImplemented
  | some l => .ok ((dictGet l dtype).getD "string")

/-- One row of the columns of the information schema, seeding.py 185-187, 345-348. -/
structure ColRow where
  schema : String
  table : String
  column : String
  dtype : String
  comment : Option String := none
  deriving DecidableEq, Repr

/-- One row of the tables of the information schema, seeding.py 189-192. -/
structure TabRow where
  schema : String
  table : String
  comment : Option String := none
  deriving DecidableEq, Repr

/-- The attributes of a `SeedMetricsLayer`, seeding.py 14-43. -/
structure Seeder where
  wh : Wh
  connName : String
  database : Option String
  notDefault : Bool
  schema : Option String
  table : Option String

/-- A text that is there and not empty: Python's truth of an optional text. seeding.py 34-37. -/
def given? (o : Option String) : Option String := o.filter (· ≠ "")

/-- The constructor, seeding.py 27-37. -/
def mkSeeder (wh : Wh) (connName : String) (connDb connSchema database schema table : Option String) : Seeder where
  wh := wh
  connName := connName
  database := (given? database).orElse fun _ => connDb
  notDefault := (given? database).isSome && decide (database ≠ connDb)
  schema := (given? schema).orElse fun _ => connSchema
  table := (given? table).map fun t => String.ofList (replaceAll ".sql".toList [] t.toList)

/-- `clean_name`, seeding.py 712-715. Simplification: white space is blank, tab, newline and carriage return. -/
def cleanName (s : String) : String :=
  let kept := s.toList.filter fun c => ('a' ≤ c && c ≤ 'z') || ('A' ≤ c && c ≤ 'Z') || ('0' ≤ c && c ≤ '9') || isSpace c || c = '_'
  String.ofList ((strip (kept.map Char.toLower)).map fun c => if c = ' ' then '_' else c)

/-- The warehouses whose columns are put in quotes, seeding.py 371-384. -/
def quotesColumns : Wh → Bool
  | .druid | .trino | .snowflake | .duckDb | .postgres | .redshift | .sqlServer | .azureSynapse => true
  | _ => false

/-- `column_name`, seeding.py 380-384. -/
def columnText (w : Wh) (c : String) : String := if quotesColumns w then "\"" ++ c ++ "\"" else c

/-- A field as it is seeded, seeding.py 386-414, 429-434. -/
structure SeedField where
  name : String
  sql : String
  description : Option String
  fieldType : String
  type : String
  timeframes : List String := []
  datatype : Option String := none
  searchable : Option Bool := none
  deriving DecidableEq, Repr

/-- The timeframes of a seeded group, seeding.py 396-406. -/
def seedTimeframes : List String :=
  ["raw", "date", "day_of_year", "week", "week_of_year", "month", "month_of_year", "quarter", "year"]

/-- The comment is read for Snowflake and Databricks only, seeding.py 345-348, 388-389. -/
def hasComments : Wh → Bool
  | .snowflake | .databricks => true
  | _ => false

/-- One field, seeding.py 349-415. -/
def seedField (w : Wh) (r : ColRow) : Res SeedField :=
  (layerType w r.dtype).map fun t =>
    let base : SeedField :=
      { name := cleanName r.column, sql := "${TABLE}." ++ columnText w r.column,
        description := if hasComments w then r.comment else none, fieldType := "dimension", type := t }
    if t = "timestamp" ∨ t = "date" ∨ t = "datetime" then
      { base with fieldType := "dimension_group", type := "time", timeframes := seedTimeframes, datatype := some t }
    else base

/-- The columns whose values are counted, seeding.py 408-411. -/
def seedCandidates (w : Wh) (rows : List ColRow) : List String :=
  (rows.filter fun r => (layerType w r.dtype).toOption = some "string").map (·.column)

/-- The quote of an identifier in the query of the cardinalities, seeding.py 455-487. -/
def countText (w : Wh) (c : String) : Res String :=
  match w with
  | .snowflake | .duckDb | .druid => .ok ("APPROX_COUNT_DISTINCT( \"" ++ c ++ "\" ) as \"" ++ c ++ "_cardinality\"")
  | .trino => .ok ("APPROX_DISTINCT( \"" ++ c ++ "\" ) as \"" ++ c ++ "_cardinality\"")
  | .redshift | .postgres => .ok ("COUNT(DISTINCT \"" ++ c ++ "\" ) as \"" ++ c ++ "_cardinality\"")
  | .sqlServer | .azureSynapse => .ok ("COUNT(DISTINCT cast(\"" ++ c ++ "\" as VARCHAR(MAX))) as \"" ++ c ++ "_cardinality\"")
  | .bigquery => .ok ("APPROX_COUNT_DISTINCT( TO_JSON_STRING(`" ++ c ++ "`) ) as `" ++ c ++ "_cardinality`")
  | .databricks => .ok ("APPROX_COUNT_DISTINCT( `" ++ c ++ "` ) as `" ++ c ++ "_cardinality`")
  | .unknown => .error .notImplemented

/-- A semicolon where the warehouse takes one, seeding.py 497, 544, 595. -/
def seedSemicolon (w : Wh) (q : String) : String := if w = .druid ∨ w = .trino then q else q ++ ";"

/-- `column_cardinalities_query` as seeding calls it, seeding.py 435-497. -/
def cardinalityQuery (s : Seeder) (cols : List String) (schema table : String) : Res String :=
  (cols.mapM (countText s.wh)).map fun counts =>
    seedSemicolon s.wh ("SELECT " ++ String.intercalate ", " counts ++
      (match s.wh with
      | .trino => "FROM " ++ schema ++ "." ++ table
      | .bigquery => " FROM `" ++ s.database.getD "None" ++ "`.`" ++ schema ++ "`.`" ++ table ++ "`"
      | .unknown => ""
      | _ => " FROM " ++ s.database.getD "None" ++ "." ++ schema ++ "." ++ table))

/-- `text.rsplit(sep, 1)[0]`, seeding.py 424: what stands before the last `sep`, or the whole text. -/
def beforeLast (sep : List Char) : List Char → List Char
  | [] => []
  | c :: cs =>
    if containsSub sep cs then c :: beforeLast sep cs
    else if sep.isPrefixOf (c :: cs) then []
    else c :: cs

/-- `searchable_column_names`, seeding.py 423-427. -/
def fewValues (cards : List (String × Nat)) : List String :=
  (cards.filter fun p => p.2 < 100).map fun p => String.ofList (beforeLast "_cardinality".toList (lower p.1).toList)

/-- The column a field is looked up by, seeding.py 430: `sql.split(".", 1)[1].lower().replace('"', "")`. The first dot is that of `${TABLE}.`. -/
def searchKey (w : Wh) (c : String) : String := String.ofList ((lower (columnText w c)).toList.filter (· ≠ '"'))

/-- One field with its mark, seeding.py 429-433. -/
def markField (w : Wh) (few : List String) (r : ColRow) (f : SeedField) : SeedField :=
  if searchKey w r.column ∈ few then { f with searchable := some true }
  else if f.fieldType = "dimension" ∧ f.type = "string" then { f with searchable := some false }
  else f

/-- `make_fields`, seeding.py 336-435. The warehouse answers the query of the cardinalities with a number for each column. -/
def seedFields (s : Seeder) (count : String → Res (List (String × Nat))) (auto : Bool) (schema table : String) (rows : List ColRow) :
    Res (List SeedField) :=
  (rows.mapM (seedField s.wh)).bind fun fields =>
    if auto ∧ seedCandidates s.wh rows ≠ [] then
      (cardinalityQuery s (seedCandidates s.wh rows) schema table).bind fun q =>
        (count q).map fun cards => (rows.zip fields).map fun p => markField s.wh (fewValues cards) p.1 p.2
    else .ok fields

/-- A seeded view, seeding.py 319-334. -/
structure SeedView where
  name : String
  modelName : String
  sqlTableName : String
  defaultDate : Option String
  fields : List SeedField
  description : Option String
  deriving DecidableEq, Repr

/-- `sql_table_name`, seeding.py 299-318. -/
def tableText (s : Seeder) (schema table : String) : Res String :=
  match s.wh with
  | .druid | .trino => .ok (schema ++ "." ++ table)
  | .bigquery => .ok ("`" ++ s.database.getD "None" ++ "." ++ schema ++ "." ++ table ++ "`")
  | .unknown => .error .notImplemented
  | _ => .ok (if s.notDefault then s.database.getD "None" ++ "." ++ (schema ++ "." ++ table) else schema ++ "." ++ table)

/-- `make_view`, seeding.py 287-334. -/
def seedView (s : Seeder) (count : String → Res (List (String × Nat))) (auto : Bool) (model table schema : String)
    (comment : Option String) (rows : List ColRow) : Res SeedView :=
  (seedFields s count auto schema table rows).bind fun fields =>
    (tableText s schema table).map fun t =>
      { name := cleanName table, modelName := model, sqlTableName := t,
        defaultDate := (fields.find? fun f => f.fieldType = "dimension_group").map (·.name),
        fields := fields, description := given? comment }

/-- The database can be named in front of the information schema, seeding.py 507-519. -/
def namesDatabase : Wh → Bool
  | .snowflake | .redshift | .postgres | .sqlServer | .azureSynapse | .duckDb | .databricks => true
  | _ => false

/-- What `columns_query` selects from, seeding.py 499-532. -/
def columnsFrom (s : Seeder) : Res String :=
  let select := "SELECT table_catalog, table_schema, table_name, column_name, data_type" ++
    (if hasComments s.wh then ", comment as comment" else "") ++ " FROM "
  match given? s.database, given? s.schema with
  | some d, sch =>
    if namesDatabase s.wh then .ok (select ++ d ++ ".INFORMATION_SCHEMA.COLUMNS")
    else if s.wh = .druid ∨ s.wh = .trino then
      .ok "SELECT TABLE_CATALOG, TABLE_SCHEMA, TABLE_NAME, COLUMN_NAME, DATA_TYPE FROM INFORMATION_SCHEMA.COLUMNS"
    else
      match sch with
      | some c => if s.wh = .bigquery then .ok (select ++ "`" ++ d ++ "." ++ c ++ "`.INFORMATION_SCHEMA.COLUMNS") else .error .valueError
      | none => .error .valueError
  | none, _ =>
    if s.wh = .druid ∨ s.wh = .trino then
      .ok "SELECT TABLE_CATALOG, TABLE_SCHEMA, TABLE_NAME, COLUMN_NAME, DATA_TYPE FROM INFORMATION_SCHEMA.COLUMNS"
    else .error .valueError

/-- How `columns_query` chooses the schema and the table, seeding.py 534-544. -/
def columnsWhere (s : Seeder) (q : String) : String :=
  match given? s.schema, given? s.table with
  | some c, some t => q ++ " WHERE TABLE_SCHEMA = '" ++ c ++ "' AND TABLE_NAME = '" ++ t ++ "'"
  | some c, none => q ++ " WHERE TABLE_SCHEMA = '" ++ c ++ "'"
  | none, _ => q

/-- `columns_query`, seeding.py 499-544. -/
def columnsQuery (s : Seeder) : Res String :=
  (columnsFrom s).map fun q =>
    if s.wh = .snowflake then columnsWhere s q ++ " LIMIT 10000;" else seedSemicolon s.wh (columnsWhere s q)

/-- `table_query`, seeding.py 546-595. Seeding asks it of Snowflake and Databricks only (193-195). -/
def tableQuery (s : Seeder) : Res String :=
  match s.wh with
  | .snowflake =>
    match given? s.database with
    | none => .error .valueError
    | some d => .ok ("SELECT table_catalog as table_database, table_schema as table_schema, table_name as table_name, " ++
        "table_owner as table_owner, table_type as table_type, bytes as table_size, created as table_created, " ++
        "last_altered as table_last_modified, row_count as table_row_count, comment as comment FROM " ++ d ++ ".INFORMATION_SCHEMA.TABLES;")
  | .databricks => .ok ("SELECT table_catalog as table_database, table_schema as table_schema, table_name as table_name, " ++
        "table_type as table_type, comment as comment FROM " ++ ((given? s.database).elim "" (· ++ ".")) ++ "INFORMATION_SCHEMA.TABLES;")
  | .druid | .trino => .ok ("SELECT TABLE_CATALOG as table_database, TABLE_SCHEMA as table_schema, TABLE_NAME as table_name, " ++
        "TABLE_TYPE as table_type FROM INFORMATION_SCHEMA.TABLES WHERE TABLE_SCHEMA not in ('sys', 'INFORMATION_SCHEMA', 'information_schema')")
  | .redshift | .postgres | .sqlServer | .azureSynapse | .duckDb =>
    match given? s.database with
    | none => .error .valueError
    | some d => .ok ("SELECT table_catalog as table_database, table_schema as table_schema, table_name as table_name, " ++
        "table_type as table_type FROM " ++ d ++ ".INFORMATION_SCHEMA.TABLES WHERE table_schema not in ('pg_catalog', 'information_schema');")
  | .bigquery =>
    match given? s.database, given? s.schema with
    | some d, some c => .ok ("SELECT table_catalog as table_database, table_schema as table_schema, table_name as table_name, " ++
        "table_type as table_type, creation_time as table_created FROM " ++ "`" ++ d ++ "." ++ c ++ "`.INFORMATION_SCHEMA.TABLES;")
    | _, _ => .error .valueError
  | .unknown => .error .valueError

/-- What the warehouse answers: the columns, the tables and the cardinalities. seeding.py 597-603. -/
structure SeedDb where
  columns : String → Res (List ColRow)
  tables : String → Res (List TabRow)
  count : String → Res (List (String × Nat))

/-- Two names that are the same but for case, seeding.py 200-214. -/
def sameName (a b : String) : Bool := lower a = lower b

/-- The rows of the chosen schema and table, seeding.py 198-207. -/
def seedChosen (s : Seeder) (schema table : String) : Bool :=
  ((given? s.schema).all fun c => sameName schema c) && ((given? s.table).all fun t => sameName table t)

/-- `unique()`: each value once, in the order of the first, seeding.py 215. -/
def firstOnes : List String → List String
  | [] => []
  | a :: l => a :: (firstOnes l).filter (· ≠ a)

/-- The comment of a table, seeding.py 218-223: `values[0]` raises IndexError when the table is not among the tables. -/
def commentOf (tabs : List TabRow) (table : String) : Res (Option String) :=
  if tabs = [] then .ok none
  else
    match tabs.find? fun t => sameName t.table table with
    | none => .error .indexError
    | some t => .ok t.comment

/-- One table, seeding.py 216-240. -/
def seedTable (s : Seeder) (db : SeedDb) (auto : Bool) (model : String) (rows : List ColRow) (tabs : List TabRow) (table : String) :
    Res SeedView :=
  (commentOf tabs table).bind fun comment =>
    match rows.filter fun r => sameName r.table table with
    | [] => .error .indexError
    | r :: rs => seedView s db.count auto model table r.schema comment (r :: rs)

/-- `get_model_name`, seeding.py 268-276: the models as their names with their connections. -/
def modelNameFor (conn : String) (models : List (String × Option String)) : Res String :=
  match models with
  | [] => .ok "base_model"
  | [m] => .ok m.1
  | ms =>
    match ms.find? fun m => m.2 = some conn with
    | some m => .ok m.1
    | none => .error .valueError

/-- `make_models`, seeding.py 278-285: the name and the connection. -/
def seedModels (conn : String) (models : List (String × Option String)) : List (String × String) :=
  if models = [] then [("base_model", conn)] else []

/-- `seed`, seeding.py 181-248, up to the files: the models and the views that are written. -/
def seed (s : Seeder) (db : SeedDb) (auto : Bool) (models : List (String × Option String)) : Res (List (String × String) × List SeedView) :=
  if s.wh = .unknown then .error .notImplemented
  else
    (columnsQuery s).bind fun q => (db.columns q).bind fun rows =>
      (if hasComments s.wh then (tableQuery s).bind db.tables else .ok []).bind fun tabs =>
        (modelNameFor s.connName models).bind fun model =>
          let rows := rows.filter fun r => seedChosen s r.schema r.table
          let tabs := tabs.filter fun t => seedChosen s t.schema t.table
          ((firstOnes (rows.map (·.table))).mapM (seedTable s db auto model rows tabs)).map fun views => (seedModels s.connName models, views)

end ML
