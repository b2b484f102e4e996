import Verif.Connect.Model
/-
What a run of a query does with the warehouse's driver when any of its calls may raise: `/repo/metrics_layer/core/sql/query_runner.py` 31-192.

Which calls raise is given from outside. Simplifications: the libraries are there (without them connecting raises); what the driver does by itself (its
own retries, what garbage collection closes later) is not modelled; `create_engine` and `engine.connect`, the credentials and the client of BigQuery, are one
call each; `pd.read_sql` is one call that executes and one that reads the rows.
-/
set_option autoImplicit false
namespace ML

/-- A call of the driver: connecting with named arguments, executing a text with a time-out, making a cursor, closing the connection, reading all rows.
query_runner.py 58-192. -/
inductive DriverCall
  | connect (args : Kw)
  | execute (text : String) (timeout : Option Yaml)
  | cursor
  | close
  | fetch

/-- What `run_query` gives back: the rows or the cursor, query_runner.py 70-73. -/
inductive Returned
  | rows | cursor
deriving DecidableEq

/-- `snowflake.connector.connect(...)`, query_runner.py 127-132. -/
def snowflakeLogin (c : Conn) : Res Kw := do
  let a ← c.attr "account"
  let u ← c.attr "username"
  let p ← c.attr "password"
  let r ← c.attr "role"
  .ok [("account", a), ("user", u), ("password", p), ("role", r)]

/-- `redshift_connector.connect(...)`, query_runner.py 143-150. -/
def redshiftLogin (c : Conn) (timeout : Yaml) : Res Kw := do
  let h ← c.attr "host"
  let o ← c.attr "port"
  let d ← c.attr "database"
  let u ← c.attr "username"
  let p ← c.attr "password"
  .ok [("host", h), ("port", o), ("database", d), ("user", u), ("password", p), ("timeout", timeout)]

/-- `connect_args`, query_runner.py 165-169. Simplification: a time-out that is true and no number counts as raising. -/
def statementTimeout (timeout : Yaml) : Res Kw :=
  if timeout.truthy then
    match timeout with
    | .int n => .ok [("options", .str ("-c statement_timeout=" ++ toString (n * 1000)))]
    | .bool _ => .ok [("options", .str "-c statement_timeout=1000")]
    | _ => .error .typeError
  else .ok []

/-- `create_engine(...).connect()`, query_runner.py 161-171. `pyInt` is Python's `int`. -/
def postgresLogin (render : Yaml → String) (pyInt : Yaml → Res ℤ) (c : Conn) (timeout : Yaml) : Res Kw := do
  let u ← c.attr "username"
  let p ← c.attr "password"
  let h ← c.attr "host"
  let d ← c.attr "database"
  let o ← c.attr "port"
  let n ← pyInt o
  let t ← statementTimeout timeout
  .ok (("url", .str (postgresUrl (textOfValue render u) (textOfValue render p) (textOfValue render h) (toString n) (textOfValue render d))) :: t)

/-- `bigquery.Client(...)`, query_runner.py 182-185. -/
def bigqueryLogin (c : Conn) : Res Kw := do
  let k ← c.attr "credentials"
  let p ← c.attr "project_id"
  .ok [("project", p), ("credentials", k)]

/-- Texts to execute, or what computing them raises, as calls. query_runner.py 62-65, 112-122. -/
def executions : Res (List String) → List (Res DriverCall)
  | .ok l => l.map fun t => .ok (.execute t none)
  | .error e => [.error e]

/-- `_run_snowflake_query`, query_runner.py 58-73. -/
def snowflakeCalls (render : Yaml → String) (sql : String) (c : Conn) (timeout : Yaml) (raw pre start : Bool) : List (Res DriverCall) :=
  (snowflakeLogin c).map .connect ::
  ((executions (if pre then preQueries render c false else if start then preQueries render c true else .ok []) ++
    [.ok .cursor, .ok (.execute sql (some timeout))]) ++
  .ok .close :: if raw then [] else [.ok .fetch])

/-- `_run_redshift_query`, query_runner.py 75-86. -/
def redshiftCalls (sql : String) (c : Conn) (timeout : Yaml) (raw : Bool) : List (Res DriverCall) :=
  (redshiftLogin c timeout).map .connect :: ([.ok .cursor, .ok (.execute sql none)] ++ .ok .close :: if raw then [] else [.ok .fetch])

/-- `_run_postgres_query`, query_runner.py 88-99. -/
def postgresCalls (render : Yaml → String) (pyInt : Yaml → Res ℤ) (sql : String) (c : Conn) (timeout : Yaml) (raw : Bool) : List (Res DriverCall) :=
  (postgresLogin render pyInt c timeout).map .connect ::
  if raw then [.ok .cursor] else [.ok (.execute sql none), .ok .fetch] ++ [.ok .close]

/-- `_run_bigquery_query`, query_runner.py 101-110. -/
def bigqueryCalls (sql : String) (c : Conn) (timeout : Yaml) (raw : Bool) : List (Res DriverCall) :=
  (bigqueryLogin c).map .connect :: ([.ok (.execute sql (some timeout))] ++ .ok .close :: if raw then [] else [.ok .fetch])

/-- `_query_runner_lookup`, query_runner.py 35-45, 48-56. -/
def driverCalls (render : Yaml → String) (pyInt : Yaml → Res ℤ) (sql : String) (c : Conn) (type : String) (timeout : Yaml) (raw pre start : Bool) :
    List (Res DriverCall) :=
  if type = "SNOWFLAKE" then snowflakeCalls render sql c timeout raw pre start
  else if type = "POSTGRES" then postgresCalls render pyInt sql c timeout raw
  else if type = "REDSHIFT" then redshiftCalls sql c timeout raw
  else bigqueryCalls sql c timeout raw

/-- The calls one after the other: `fails n` is what the `n`-th raises, if it does; an exception is never caught. Gives the calls that were made, each with
what it raised, and what the run raised. query_runner.py 58-122. -/
def drive (fails : ℕ → Option Err) : ℕ → List (Res DriverCall) → List (DriverCall × Option Err) × Option Err
  | _, [] => ([], none)
  | _, .error e :: _ => ([], some e)
  | n, .ok c :: rest =>
    match fails n with
    | some e => ([(c, some e)], some e)
    | none => ((c, none) :: (drive fails (n + 1) rest).1, (drive fails (n + 1) rest).2)

/-- `QueryRunner(query, connection).run_query(**kw)`, query_runner.py 32-56: the calls of the driver and the result. -/
def runDriven (render : Yaml → String) (pyInt : Yaml → Res ℤ) (fails : ℕ → Option Err) (sql : String) (conn : Option Conn) (kw : Kw) :
    List (DriverCall × Option Err) × Res Returned :=
  match newRunner conn with
  | .error e => ([], .error e)
  | .ok (c, t) =>
    let raw := (argOr kw "raw_cursor" (.bool false)).truthy
    let r := drive fails 0 (driverCalls render pyInt sql c t (argOr kw "timeout" (.int 180)) raw
      (argOr kw "run_pre_queries" (.bool true)).truthy (argOr kw "start_warehouse" (.bool true)).truthy)
    (r.1, match r.2 with
      | some e => .error e
      | none => .ok (if raw then .cursor else .rows))

end ML
