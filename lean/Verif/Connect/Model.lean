import Verif.FieldCheck.Model
import Verif.Mql.Model
/-
The connections to warehouses and what is run on them: `/repo/metrics_layer/core/parse/connections.py` 11-452,
`/repo/metrics_layer/core/parse/project_loader.py` 72-148, `/repo/metrics_layer/core/sql/query_runner.py` 31-192.
-/
set_option autoImplicit false
namespace ML

/-- The keyword arguments of a call, a dictionary. connections.py 33-45. -/
abbrev Kw := List (String × Yaml)

/-- The classes of `connection_class_lookup`, connections.py 441-452. -/
inductive ConnCls
  | snowflake | redshift | bigquery | postgres | druid | sqlServer | azureSynapse | duckDb | databricks | trino
deriving DecidableEq, Repr

/-- The key of a class in `connection_class_lookup`, connections.py 441-452 with definitions.py 2-11. -/
def ConnCls.key : ConnCls → String
  | .snowflake => "SNOWFLAKE"
  | .redshift => "REDSHIFT"
  | .bigquery => "BIGQUERY"
  | .postgres => "POSTGRES"
  | .druid => "DRUID"
  | .sqlServer => "SQL_SERVER"
  | .azureSynapse => "AZURE_SYNAPSE"
  | .duckDb => "DUCK_DB"
  | .databricks => "DATABRICKS"
  | .trino => "TRINO"

/-- `self.__class__.__name__`, connections.py 29. -/
def ConnCls.className : ConnCls → String
  | .snowflake => "SnowflakeConnection"
  | .redshift => "RedshiftConnection"
  | .bigquery => "BigQueryConnection"
  | .postgres => "PostgresConnection"
  | .druid => "DruidConnection"
  | .sqlServer => "SQLServerConnection"
  | .azureSynapse => "AzureSynapseConnection"
  | .duckDb => "DuckDBConnection"
  | .databricks => "DatabricksConnection"
  | .trino => "TrinoConnection"

/-- `connection_class_lookup[...]`, connections.py 441-452. -/
def classLookup (k : String) : Option ConnCls :=
  [ConnCls.snowflake, .redshift, .bigquery, .postgres, .druid, .sqlServer, .azureSynapse, .duckDb, .databricks,
    .trino].find? (fun c => c.key = k)

/-- A connection object: its class and the attributes that were set on it. connections.py 28-438. -/
structure Conn where
  cls : ConnCls
  attrs : Kw

/-- Reading an attribute: one that was never set raises AttributeError. connections.py 63-438. -/
def Conn.attr (c : Conn) (k : String) : Res Yaml :=
  match dictGet c.attrs k with
  | some v => .ok v
  | none => .error .attributeError

/-- Calling a constructor without a parameter that has no default raises TypeError. connections.py 33-45, 94-107, 147-157,
191-202, 215-226, 238-249, 283-294, 338-349, 394-396. -/
def needArgs (a : Kw) : List String → Res Unit
  | [] => .ok ()
  | k :: ks => if (dictGet a k).isSome then needArgs a ks else .error .typeError

/-- A parameter with a default, connections.py 34-408. -/
def argOr (a : Kw) (k : String) (d : Yaml) : Yaml := (dictGet a k).getD d

/-- A parameter whose default is `None`, connections.py 34-408. -/
def argNone (a : Kw) (k : String) : Yaml := argOr a k .null

/-- `user` and `username`: both is an error, one is the user, and `none` is neither. connections.py 50-59, 299-307, 354-362. -/
def pickUser (a : Kw) : Res (Option Yaml) :=
  if (argNone a "user").truthy && (argNone a "username").truthy then .error .argument
  else if (argNone a "username").truthy then .ok (some (argNone a "username"))
  else if (argNone a "user").truthy then .ok (some (argNone a "user"))
  else .ok none

/-- `SnowflakeConnection.__init__`, connections.py 33-64. -/
def mkSnowflake (a : Kw) : Res Conn := do
  needArgs a ["name", "account", "password"]
  match ← pickUser a with
  | none => .error .argument
  | some u =>
    .ok ⟨.snowflake, [("type", .str "SNOWFLAKE"), ("name", argNone a "name"), ("account", argNone a "account"),
      ("username", u), ("password", argNone a "password"), ("role", argNone a "role"),
      ("warehouse", argNone a "warehouse"), ("database", argNone a "database"), ("schema", argNone a "schema")]⟩

/-- `DatabricksConnection.__init__`, connections.py 94-118. -/
def mkDatabricks (a : Kw) : Res Conn := do
  needArgs a ["name", "host", "http_path"]
  .ok ⟨.databricks, [("type", .str "DATABRICKS"), ("name", argNone a "name"), ("host", argNone a "host"),
    ("http_path", argNone a "http_path"), ("username", argNone a "username"), ("password", argNone a "password"),
    ("personal_access_token", argNone a "personal_access_token"), ("client_id", argNone a "client_id"),
    ("client_secret", argNone a "client_secret"), ("database", argNone a "database"),
    ("schema", argNone a "schema")]⟩

/-- `RedshiftConnection.__init__`, connections.py 147-165. -/
def mkRedshift (a : Kw) : Res Conn := do
  needArgs a ["name", "host", "username", "password"]
  .ok ⟨.redshift, [("type", .str "REDSHIFT"), ("name", argNone a "name"), ("host", argNone a "host"),
    ("port", argOr a "port" (.int 5439)), ("username", argNone a "username"), ("password", argNone a "password"),
    ("database", argNone a "database"), ("schema", argNone a "schema")]⟩

/-- `PostgresConnection.__init__`, connections.py 191-211. -/
def mkPostgres (a : Kw) : Res Conn := do
  needArgs a ["name", "host", "user", "password"]
  .ok ⟨.postgres, [("type", .str "POSTGRES"), ("name", argNone a "name"), ("host", argNone a "host"),
    ("port", argOr a "port" (.int 5432)), ("user", argNone a "user"), ("username", argNone a "user"),
    ("password", argNone a "password"), ("database", argNone a "dbname"), ("dbname", argNone a "dbname"),
    ("schema", argNone a "schema")]⟩

/-- `DuckDBConnection.__init__`, connections.py 215-234. -/
def mkDuckDb (a : Kw) : Res Conn := do
  needArgs a ["name", "host", "user", "password"]
  .ok ⟨.duckDb, [("type", .str "DUCK_DB"), ("name", argNone a "name"), ("host", argNone a "host"),
    ("port", argOr a "port" (.int 5432)), ("user", argNone a "user"), ("username", argNone a "user"),
    ("password", argNone a "password"), ("database", argNone a "database"), ("schema", argNone a "schema")]⟩

/-- `TrinoConnection.__init__`, connections.py 238-258. -/
def mkTrino (a : Kw) : Res Conn := do
  needArgs a ["name", "host", "user", "database"]
  .ok ⟨.trino, [("type", .str "TRINO"), ("name", argNone a "name"), ("host", argNone a "host"),
    ("user", argNone a "user"), ("port", argOr a "port" (.int 8080)), ("auth", argNone a "auth"),
    ("scheme", argOr a "scheme" (.str "http")), ("database", argNone a "database"), ("schema", argNone a "schema")]⟩

/-- The attribute `user`, set only when there is one. connections.py 304-307, 359-362. -/
def userAttr : Option Yaml → Kw
  | some u => [("user", u)]
  | none => []

/-- `DruidConnection.__init__`, connections.py 283-312. -/
def mkDruid (a : Kw) : Res Conn := do
  needArgs a ["name", "host"]
  let u ← pickUser a
  .ok ⟨.druid, [("type", .str "DRUID"), ("name", argNone a "name"), ("host", argNone a "host"),
    ("port", argOr a "port" (.int 8082))] ++ userAttr u ++
    [("password", argNone a "password"), ("path", argOr a "path" (.str "/druid/v2/sql/")),
    ("scheme", argOr a "scheme" (.str "http")), ("database", .null), ("schema", .null)]⟩

/-- `SQLServerConnection.__init__`, connections.py 338-365. `AzureSynapseConnection` inherits it unchanged, 389-390, so its
`type` is the SQL Server's. -/
def mkSqlServer (cls : ConnCls) (a : Kw) : Res Conn := do
  needArgs a ["name", "host"]
  let u ← pickUser a
  .ok ⟨cls, [("type", .str "SQL_SERVER"), ("name", argNone a "name"), ("host", argNone a "host"),
    ("port", argOr a "port" (.int 1433))] ++ userAttr u ++
    [("password", argNone a "password"), ("database", argNone a "database"), ("schema", argNone a "schema")]⟩

/-- What BigQuery credentials are read with: `json.loads` (`none` for a JSONDecodeError), `os.path.isabs`, `os.path.join` and
reading a JSON file. connections.py 425-436. -/
structure CredEnv where
  json : String → Option Yaml
  isAbs : String → Bool
  join : String → String → String
  file : String → Res Yaml

/-- `_convert_json_if_needed`, connections.py 422-438; `kwargs` are the arguments that are not parameters. A `directory` that is
not a text makes `os.path.join` raise TypeError. -/
def readCreds (E : CredEnv) (a : Kw) : Yaml → Res Yaml
  | .dict d => .ok (.dict d)
  | .str s =>
    match E.json s with
    | some v => .ok v
    | none =>
      if E.isAbs s then E.file s
      else
        match dictGet a "directory" with
        | none => .error .keyError
        | some (.str dir) => E.file (E.join dir s)
        | some _ => .error .typeError
  | _ => .error .typeError

/-- `self.credentials["project_id"]`, connections.py 402. -/
def projectId : Yaml → Res Yaml
  | .dict d =>
    match dictGet d "project_id" with
    | some v => .ok v
    | none => .error .keyError
  | _ => .error .typeError

/-- `credentials if credentials else keyfile`, connections.py 400. -/
def credsToUse (a : Kw) : Yaml :=
  if (argNone a "credentials").truthy then argNone a "credentials" else argNone a "keyfile"

/-- `BigQueryConnection.__init__`, connections.py 394-403. -/
def mkBigQuery (E : CredEnv) (a : Kw) : Res Conn := do
  needArgs a ["name"]
  let creds ← readCreds E a (credsToUse a)
  let pid ← projectId creds
  .ok ⟨.bigquery, [("type", .str "BIGQUERY"), ("name", argNone a "name"), ("schema", argNone a "schema"),
    ("credentials", creds), ("project_id", pid), ("database", pid)]⟩

/-- `connection_class(**connection)`, project_loader.py 118. -/
def mkConn (E : CredEnv) : ConnCls → Kw → Res Conn
  | .snowflake, a => mkSnowflake a
  | .redshift, a => mkRedshift a
  | .bigquery, a => mkBigQuery E a
  | .postgres, a => mkPostgres a
  | .druid, a => mkDruid a
  | .sqlServer, a => mkSqlServer .sqlServer a
  | .azureSynapse, a => mkSqlServer .azureSynapse a
  | .duckDb, a => mkDuckDb a
  | .databricks, a => mkDatabricks a
  | .trino, a => mkTrino a

/-- A connection as it is handed in: an object or a dictionary. project_loader.py 113-118. -/
inductive RawConn
  | obj (c : Conn)
  | dict (a : Kw)

/-- One turn of `load_connections`, project_loader.py 113-119. -/
def loadOne (E : CredEnv) : RawConn → Res Conn
  | .obj c => .ok c
  | .dict a =>
    match dictGet a "type" with
    | none => .error .keyError
    | some (.str t) =>
      match classLookup (upper t) with
      | none => .error .keyError
      | some cls => mkConn E cls a
    | some _ => .error .attributeError

/-- `load_connections`, project_loader.py 115-124. -/
def loadConnections (E : CredEnv) : List RawConn → Res (List Conn)
  | [] => .ok []
  | r :: rs => do
    let c ← loadOne E r
    let cs ← loadConnections E rs
    .ok (c :: cs)

/-- `if self.x: base["x"] = self.x` for the attributes in turn. connections.py 75-82, 132-135, 176-179, 268-271, 323-326,
374-377. -/
def addTruthy (c : Conn) (base : Kw) : List String → Res Kw
  | [] => .ok base
  | k :: ks => do
    let v ← c.attr k
    if v.truthy then addTruthy c (dictSet base k v) ks else addTruthy c base ks

/-- The dictionary display with one attribute per key: `(key, attribute)`. connections.py 68-74, 121-131, 168-175, 261-267,
315-322, 368-373, 407-412. -/
def readAttrs (c : Conn) : List (String × String) → Res Kw
  | [] => .ok []
  | (k, at_) :: rest => do
    let v ← c.attr at_
    let d ← readAttrs c rest
    .ok ((k, v) :: d)

/-- The keys of `to_dict` that are always there, with the attributes they show. connections.py 68-74 (Snowflake), 121-131
(Databricks), 168-175 (Redshift, Postgres and DuckDB), 261-267 (Trino), 315-322 (Druid), 368-373 (SQL Server, Synapse), 407-412
(BigQuery). -/
def baseKeys : ConnCls → List (String × String)
  | .snowflake => [("name", "name"), ("user", "username"), ("password", "password"), ("account", "account"),
      ("type", "type")]
  | .databricks => [("name", "name"), ("host", "host"), ("http_path", "http_path"), ("username", "username"),
      ("password", "password"), ("personal_access_token", "personal_access_token"), ("client_id", "client_id"),
      ("client_secret", "client_secret"), ("type", "type")]
  | .redshift | .postgres | .duckDb => [("name", "name"), ("host", "host"), ("port", "port"), ("username", "username"),
      ("password", "password"), ("type", "type")]
  | .trino => [("name", "name"), ("host", "host"), ("port", "port"), ("scheme", "scheme"), ("type", "type")]
  | .druid => [("name", "name"), ("host", "host"), ("port", "port"), ("path", "path"), ("scheme", "scheme"),
      ("type", "type")]
  | .sqlServer | .azureSynapse => [("name", "name"), ("host", "host"), ("port", "port"), ("type", "type")]
  | .bigquery => [("name", "name"), ("credentials", "credentials"), ("project_id", "project_id"), ("type", "type")]

/-- The keys of `to_dict` that are there when the attribute is truthy. connections.py 75-82, 132-135, 176-179, 268-271, 323-326,
374-377. -/
def truthyKeys : ConnCls → List String
  | .snowflake => ["warehouse", "database", "schema", "role"]
  | .databricks | .redshift | .postgres | .duckDb => ["database", "schema"]
  | .trino => ["user", "auth"]
  | .druid | .sqlServer | .azureSynapse => ["user", "password"]
  | .bigquery => []

/-- `to_dict()`, connections.py 66-83, 120-136, 167-180, 260-272, 314-327, 367-378, 405-412. -/
def Conn.toDict (c : Conn) : Res Kw := do
  let base ← readAttrs c (baseKeys c.cls)
  addTruthy c base (truthyKeys c.cls)

/-- `attributes.pop(k)`: KeyError without the key. connections.py 87, 140, 184, 276, 331, 382, 416. -/
def popKey (d : Kw) (k : String) : Res Kw :=
  if (dictGet d k).isSome then .ok (d.filter (fun p => p.1 ≠ k)) else .error .keyError

/-- The key that is taken out, connections.py 87, 140, 184, 276, 331, 382, 416. -/
def secretKey : ConnCls → String
  | .bigquery => "credentials"
  | _ => "password"

/-- `sort_order`, connections.py 89, 142, 186, 278, 333, 384, 418. -/
def sortOrder : ConnCls → List String
  | .snowflake => ["name", "type", "account", "user", "database", "schema", "warehouse", "role"]
  | .databricks => ["name", "type", "host", "http_path", "username", "database", "schema"]
  | .redshift | .postgres | .duckDb => ["name", "type", "host", "port", "username", "database", "schema"]
  | .trino => ["name", "type", "host", "port", "user", "database", "scheme"]
  | .druid => ["name", "type", "host", "port", "user", "path", "scheme"]
  | .sqlServer | .azureSynapse => ["name", "type", "host", "port", "user"]
  | .bigquery => ["name", "type", "project_id"]

/-- `{key: attributes.get(key) for key in sort_order if attributes.get(key) is not None}`, connections.py 90. -/
def pickKeys (d : Kw) : List String → Kw
  | [] => []
  | k :: ks =>
    match dictGet d k with
    | none | some .null => pickKeys d ks
    | some v => (k, v) :: pickKeys d ks

/-- `printable_attributes()`, connections.py 85-90, 138-143, 182-187, 274-279, 329-334, 380-386, 414-419. -/
def Conn.printable (c : Conn) : Res Kw := do
  let d ← c.toDict
  let d ← popKey d (secretKey c.cls)
  let n ← c.attr "name"
  .ok (pickKeys (dictSet d "name" n) (sortOrder c.cls))

/-- The text of a value in an f-string, connections.py 28-29, 76-100. Simplification: `render` is how Python prints what is no text. -/
def textOfValue (render : Yaml → String) : Yaml → String
  | .str s => s
  | v => render v

/-- `repr(connection)`, connections.py 28-29. -/
def Conn.repr (render : Yaml → String) (c : Conn) : Res String := do
  let n ← c.attr "name"
  .ok ("<" ++ c.cls.className ++ " name=" ++ textOfValue render n ++ ">")

/-- `_is_local`, project_loader.py 109-112. -/
def isLocal (location : String) : Bool :=
  let l := (lower location).toList
  !((containsSub "http://".toList l || containsSub "https://".toList l) || isPrefix "git@".toList l)

/-- The target of a profile: the one asked for, or its own. project_loader.py 136-137. A target that is no text is no key of the outputs (a list or
a dictionary, which would be a TypeError, is left out). -/
def profileTarget (profile : Kw) : Option String → Res String
  | some t => .ok t
  | none =>
    match dictGet profile "target" with
    | some (.str t) => .ok t
    | some _ => .error .other
    | none => .error .keyError

/-- The connection of the target, project_loader.py 139-148. -/
def profileOutput (profile : Kw) (directory name t : String) : Res (List RawConn) :=
  match dictGet profile "outputs" with
  | some (.dict outs) =>
    match dictGet outs t with
    | some (.dict d) => .ok [.dict (dictSet (dictSet d "directory" (.str directory)) "name" (.str name))]
    | some .null | none => .error .other
    | some _ => .error .typeError
  | some _ => .error .attributeError
  | none => .error .keyError

/-- `get_connections_from_profile`, project_loader.py 126-148: the dbt profiles (`none` without the file), the directory they are
in, the profile's name and the target. A ConfigError is `Err.other`. A profile that is no dictionary is left out. -/
def profileConnections (profiles : Option (List (String × Kw))) (directory name : String) (target : Option String) :
    Res (List RawConn) :=
  match profiles with
  | none => .error .other
  | some ps =>
    match dictGet ps name with
    | none => .error .other
    | some profile => (profileTarget profile target).bind (profileOutput profile directory name)

/-- What a run does in the warehouse: the connection it is made on, the texts that are executed there in turn, the time-out
handed over, and whether the cursor itself is returned. query_runner.py 47-122. -/
structure Execution where
  conn : Conn
  texts : List String
  timeout : Yaml
  cursor : Bool

/-- The keys of `_query_runner_lookup`, query_runner.py 35-40. -/
def runnableTypes : List String := ["SNOWFLAKE", "BIGQUERY", "REDSHIFT", "POSTGRES"]

/-- `QueryRunner.__init__`, query_runner.py 32-45. Without a connection `None.type` raises AttributeError; a
MetricsLayerConnectionError is `Err.other`. -/
def newRunner (c : Option Conn) : Res (Conn × String) :=
  match c with
  | none => .error .attributeError
  | some c => do
    match ← c.attr "type" with
    | .str t => if t ∈ runnableTypes then .ok (c, t) else .error .other
    | _ => .error .other

/-- `.upper()` of an attribute, query_runner.py 117, 119. -/
def upperValue : Yaml → Res String
  | .str s => .ok (upper s)
  | _ => .error .attributeError

/-- One `USE` statement when the attribute is truthy and wanted. query_runner.py 114-119. -/
def useIf (v : Yaml) (wanted : Bool) (text : Res String) : Res String :=
  if v.truthy && wanted then text else .ok ""

/-- `_run_snowflake_pre_queries`, query_runner.py 112-122: the text that is executed, if any. -/
def preQueries (render : Yaml → String) (c : Conn) (warehouseOnly : Bool) : Res (List String) := do
  let w ← c.attr "warehouse"
  let d ← c.attr "database"
  let s ← c.attr "schema"
  let t₁ ← useIf w true (.ok ("USE WAREHOUSE " ++ textOfValue render w ++ ";"))
  let t₂ ← useIf d (!warehouseOnly) ((upperValue d).map fun x => "USE DATABASE \"" ++ x ++ "\";")
  let t₃ ← useIf s (!warehouseOnly) ((upperValue s).map fun x => "USE SCHEMA \"" ++ x ++ "\";")
  if t₁ ++ t₂ ++ t₃ = "" then .ok [] else .ok [t₁ ++ t₂ ++ t₃]

/-- `run_query`, query_runner.py 48-110: on Snowflake the pre-queries come first, on Postgres nothing is executed when the cursor
is asked for. Simplification: the libraries are there, connecting succeeds, and the rows are not modelled. -/
def runQuery (render : Yaml → String) (sql : String) (c : Option Conn) (kw : Kw) : Res Execution := do
  let (c, t) ← newRunner c
  let timeout := argOr kw "timeout" (.int 180)
  let raw := (argOr kw "raw_cursor" (.bool false)).truthy
  let pre := (argOr kw "run_pre_queries" (.bool true)).truthy
  let start := (argOr kw "start_warehouse" (.bool true)).truthy
  if t = "SNOWFLAKE" then
    let before ← if pre then preQueries render c false else if start then preQueries render c true else .ok []
    .ok ⟨c, before ++ [sql], timeout, raw⟩
  else if t = "POSTGRES" then
    .ok ⟨c, if raw then [] else [sql], timeout, raw⟩
  else .ok ⟨c, [sql], timeout, raw⟩

/-- `connection_url`, query_runner.py 163. -/
def postgresUrl (username password host port database : String) : String :=
  "postgresql://" ++ username ++ ":" ++ password ++ "@" ++ host ++ ":" ++ port ++ "/" ++ database

end ML
