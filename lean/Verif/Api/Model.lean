import Verif.Connect.Model
import Verif.Access.Model
/-
The object a user of the package holds: `/repo/metrics_layer/core/query/query.py` 16-178, with what it needs of
`/repo/metrics_layer/core/parse/project_loader.py` 17-70 and `/repo/metrics_layer/core/sql/resolve.py` 13-54, 459-470, 518-524.
-/
set_option autoImplicit false
namespace ML

/-- A project in use: what was read of it, `connection_lookup`, `_user` and `_connection_schema`. project.py 24-46.
Simplification: the models, views and dashboards are one value of any type `P`. -/
structure Loaded (P : Type) where
  content : P
  lookup : List (String × Yaml)
  user : Option User
  schema : Yaml := .null

/-- The attributes of a `MetricsLayerConnection`, query.py 26-35. `passed` is whether `_project_passed` was set. -/
structure Session (P : Type) where
  location : Option String
  conns : List RawConn
  kw : Kw
  user : Option User
  project : Option (Loaded P)
  passed : Bool
  branches : Option (List String)

/-- The arguments of `get_sql_query` and `query`, query.py 88-98, 113-124. -/
structure Ask where
  metrics : List String := []
  dimensions : List String := []
  funnel : Yaml := .dict []
  where_ : Yaml := .list []
  having : Yaml := .list []
  orderBy : Yaml := .list []
  sql : Option String := none
  merged : Yaml := .list []
  kw : Kw := []

/-- A question to the resolver, resolve.py 14-25. -/
structure Quest where
  metrics : List String
  dimensions : List String
  funnel : Yaml
  where_ : Yaml
  having : Yaml
  orderBy : Yaml

/-- What the session is given from outside: the files of the credentials, Python's `str`, `_get_model_for_query(...).connection` with the
always filters (resolve.py 36-46), the rest of the resolver with the SQL and the kind of the query (resolve.py 53-95), the
resolver of merged queries (arbitrary_merge_resolve.py 20-105) with the schema it leaves behind, sqlparse (convert.py 80,
query.py 258-259), Python's `int`, and the table name of a view (view.py 57-66). -/
structure ApiEnv (P : Type) where
  creds : CredEnv
  render : Yaml → String
  modelConn : P → Option User → Quest → Kw → Res (Option String)
  answer : P → List (String × Yaml) → Option User → Yaml → Yaml → Quest → Kw → Res (String × String)
  mergedAnswer : P → List (String × Yaml) → Option User → List Conn → Ask → Kw → Yaml × Res String
  tokens : String → List Top
  int : String → Option Int
  pretty : String → String
  tableName : P → Option User → Yaml → String → Res String

/-- `{**a, **b}`, query.py 107, 127, 141, 156, 177. -/
def kwMerge (a b : Kw) : Kw := b.foldl (fun d p => dictSet d p.1 p.2) a

/-- A call with keywords and `**kw`: a keyword that is there twice raises TypeError. query.py 99-109, 126-128, 132-142, 149-157. -/
def callWith (names : List String) (kw : Kw) : Res Kw :=
  if kw.any (fun p => names.contains p.1) then .error .typeError else .ok kw

/-- `c.name`. Simplification: a name that is no text is nobody's name. connections.py 52. -/
def Conn.called (c : Conn) (n : Option String) : Bool :=
  match dictGet c.attrs "name", n with
  | some (.str m), some n => m = n
  | _, _ => false

/-- `_get_connection`, resolve.py 523-524, and `get_connection`, query.py 85-86. -/
def findConn (cs : List Conn) (n : Option String) : Option Conn := cs.find? (fun c => c.called n)

/-- One step of the dictionary of the connections, project_loader.py 66. -/
def addLookup (d : List (String × Yaml)) (c : Conn) : List (String × Yaml) :=
  match dictGet c.attrs "name", dictGet c.attrs "type" with
  | some (.str n), some t => dictSet d n t
  | _, _ => d

/-- `{c.name: c.type for c in self._connections}`, project_loader.py 66. -/
def lookupOf (cs : List Conn) : List (String × Yaml) := cs.foldl addLookup []

/-- `_get_query_type`, resolve.py 459-469. -/
def queryTypeOf (c : Option Conn) (kw : Kw) : Res Yaml :=
  match dictGet kw "query_type" with
  | some t => .ok t
  | none =>
    match c with
    | some c => c.attr "type"
    | none => .error .query

/-- `_get_connection_schema`, resolve.py 518-521. -/
def schemaOf : Option Conn → Yaml
  | some c => (dictGet c.attrs "schema").getD .null
  | none => .null

/-- What a query gives back: the SQL, the connection and the kind. query.py 165-173. -/
structure Answered where
  sql : String
  conn : Option Conn
  kind : Option String

/-- `SQLQueryResolver(...)` and its `get_query()`, resolve.py 26-95: the schema of the project is set before the SQL is made, and stays. -/
def ask {P : Type} (env : ApiEnv P) (p : Loaded P) (cs : List Conn) (q : Quest) (kw : Kw) : Loaded P × Res Answered :=
  match env.modelConn p.content p.user q kw with
  | .error e => (p, .error e)
  | .ok n =>
    match queryTypeOf (findConn cs n) kw with
    | .error e => (p, .error e)
    | .ok t =>
      let p := { p with schema := schemaOf (findConn cs n) }
      (p, (env.answer p.content p.lookup p.user p.schema t q (dictSet kw "query_type" t)).map
        fun r => ⟨r.1, findConn cs n, some r.2⟩)

/-- The values of a funnel as a dictionary, convert.py 182-188. -/
def funnelYaml : Option MqlFunnel → Yaml
  | none => .dict []
  | some f => .dict ([("steps", .list (f.steps.map .str)),
      ("within", .dict [("value", .int f.value), ("unit", .str f.unit)])] ++
      (match f.viewName with | some v => [("view_name", .str v)] | none => []))

/-- A clause as a text or None, convert.py 190-193. -/
def clauseYaml : Option String → Yaml
  | none => .null
  | some s => .str s

/-- The question of an MQL statement, convert.py 195-204. -/
def questOf (q : MqlQuery) : Quest where
  metrics := q.metrics
  dimensions := q.dimensions
  funnel := funnelYaml q.funnel
  where_ := clauseYaml q.where_
  having := clauseYaml q.having
  orderBy := clauseYaml q.orderBy

/-- The keywords `resolve_mql_statement` writes out, convert.py 195-204. -/
def mqlNames : List String := ["metrics", "dimensions", "funnel", "where", "having", "order_by", "project"]

/-- `SQLQueryResolver(...).get_query(semicolon=False)` inside MQL, convert.py 195-207. -/
def askMql {P : Type} (env : ApiEnv P) (p : Loaded P) (cs : List Conn) (kw : Kw) (q : MqlQuery) : Loaded P × Res String :=
  match callWith mqlNames kw with
  | .error e => (p, .error e)
  | .ok kw => ((ask env p cs (questOf q) kw).1, (ask env p cs (questOf q) kw).2.map (·.sql))

/-- The arguments of the calls of `MQL` in the order in which they are converted, convert.py 81-104. -/
def callsOf (tops : List Top) : List (List MqlTok) :=
  tops.filterMap fun
    | .call c => if upper c.name = "MQL" then some c.args else none
    | .ident s (.call c) =>
      if upper s ≠ "MQL" ∧ containsSub "MQL(".toList (upper s).toList ∧ upper c.name = "MQL" then some c.args else none
    | _ => none

/-- The calls of `MQL` asked in turn, until one raises: what is left of the project. convert.py 81-104. Simplification: after an error
of the reading itself (C65_raises) no further call is asked; the project is then as the calls before left it. -/
def askCalls {P : Type} (env : ApiEnv P) (p : Loaded P) (cs : List Conn) (kw : Kw) : List (List MqlTok) → Loaded P
  | [] => p
  | ts :: rest =>
    match readMql ⟨env.int, fun _ => .ok ""⟩ ts with
    | .error _ => p
    | .ok q =>
      match askMql env p cs kw q with
      | (p, .error _) => p
      | (p, .ok _) => askCalls env p cs kw rest

/-- `MQLConverter(...).get_query()`, convert.py 71-108: each call is asked of the project as it is. That the answers do not depend on
the calls before is `askMql_schema`. -/
def askSql {P : Type} (env : ApiEnv P) (p : Loaded P) (cs : List Conn) (kw : Kw) (sql : String) : Loaded P × Res String :=
  (askCalls env p cs kw (callsOf (env.tokens sql)),
    convertSql ⟨env.int, fun q => (askMql env p cs kw q).2⟩ sql (env.tokens sql))

/-- `len(...)`, query.py 145. -/
def yamlLen : Yaml → Res Nat
  | .list l => .ok l.length
  | .dict d => .ok d.length
  | .str s => .ok s.length
  | _ => .error .typeError

/-- The keywords written out for the converter, query.py 126-128 with convert.py 71. -/
def apiSqlNames : List String := ["self", "sql", "project", "connections"]

/-- The keywords written out for the resolver, query.py 132-142 with resolve.py 14. -/
def apiFieldNames : List String :=
  ["self", "metrics", "dimensions", "funnel", "where", "having", "order_by", "project", "connections"]

/-- The keywords written out for the resolver of merged queries, query.py 149-157 with arbitrary_merge_resolve.py 20. -/
def apiMergedNames : List String := ["self", "merged_queries", "where", "having", "order_by", "project", "connections"]

/-- The project and the connections as the arguments of a call, in that order. query.py 60-64, 74-77, 127, 139-140, 154-155. -/
def inUse {P : Type} (env : ApiEnv P) (s : Session P) : Res (Loaded P × List Conn) :=
  match s.project with
  | none => .error .query
  | some p => (loadConnections env.creds s.conns).map fun cs => (p, cs)

/-- The first part of `get_sql_query`, query.py 125-163: which of the three ways of asking, and the answer. -/
def route {P : Type} (env : ApiEnv P) (s : Session P) (a : Ask) : Session P × Res Answered :=
  if (a.sql.getD "") ≠ "" then
    match inUse env s with
    | .error e => (s, .error e)
    | .ok (p, cs) =>
      match callWith apiSqlNames (kwMerge s.kw a.kw) with
      | .error e => (s, .error e)
      | .ok kw =>
        ({ s with project := some (askSql env p cs kw (a.sql.getD "")).1 },
          (askSql env p cs kw (a.sql.getD "")).2.map fun t => ⟨t, none, none⟩)
  else if a.metrics ≠ [] ∨ a.dimensions ≠ [] then
    match inUse env s with
    | .error e => (s, .error e)
    | .ok (p, cs) =>
      match callWith apiFieldNames (kwMerge s.kw a.kw) with
      | .error e => (s, .error e)
      | .ok kw =>
        ({ s with project := some (ask env p cs ⟨a.metrics, a.dimensions, a.funnel, a.where_, a.having, a.orderBy⟩ kw).1 },
          (ask env p cs ⟨a.metrics, a.dimensions, a.funnel, a.where_, a.having, a.orderBy⟩ kw).2)
  else
    match yamlLen a.merged with
    | .error e => (s, .error e)
    | .ok 0 => (s, .error .query)
    | .ok (_ + 1) =>
      match inUse env s with
      | .error e => (s, .error e)
      | .ok (p, cs) =>
        match callWith apiMergedNames (kwMerge s.kw (a.kw.filter (fun x => x.1 ≠ "merged_result"))) with
        | .error e => (s, .error e)
        | .ok kw =>
          ({ s with project := some { p with schema := (env.mergedAnswer p.content p.lookup p.user cs a kw).1 } },
            (env.mergedAnswer p.content p.lookup p.user cs a kw).2.map fun t => ⟨t, none, some "MERGED"⟩)

/-- What `get_sql_query` returns: the SQL alone, with the connection, or with the kind. query.py 168-173. -/
inductive Reply
  | text (sql : String)
  | withConn (sql : String) (conn : Option Conn)
  | withKind (sql kind : String)

/-- The second part of `get_sql_query`, query.py 165-173. The kind of `sql` is read of a variable that was never set. -/
def reply {P : Type} (env : ApiEnv P) (kw : Kw) (r : Answered) : Res Reply :=
  let sql := if truthyOpt (dictGet kw "pretty") then env.pretty r.sql else r.sql
  if truthyOpt (dictGet kw "return_connection") then .ok (.withConn sql r.conn)
  else if truthyOpt (dictGet kw "return_query_kind") then
    match r.kind with
    | some k => .ok (.withKind sql k)
    | none => .error .unboundLocal
  else .ok (.text sql)

/-- `get_sql_query`, query.py 113-173. -/
def getSqlQuery {P : Type} (env : ApiEnv P) (s : Session P) (a : Ask) : Session P × Res Reply :=
  ((route env s a).1, (route env s a).2.bind (reply env a.kw))

/-- The keywords `query` writes out, query.py 99-109. -/
def queryNames : List String := ["sql", "metrics", "dimensions", "funnel", "where", "having", "order_by", "return_connection"]

/-- The arguments `query` hands to `get_sql_query`, query.py 99-109: `merged_queries` comes in with the other keywords. -/
def queryAsk (a : Ask) (kw : Kw) : Ask :=
  { a with
    merged := (dictGet kw "merged_queries").getD (.list [])
    kw := dictSet (kw.filter (fun p => p.1 ≠ "merged_queries")) "return_connection" (.bool true) }

/-- `query`, query.py 88-111, 175-178. -/
def runAsk {P : Type} (env : ApiEnv P) (s : Session P) (a : Ask) : Session P × Res Execution :=
  match callWith queryNames (kwMerge s.kw a.kw) with
  | .error e => (s, .error e)
  | .ok kw =>
    ((getSqlQuery env s (queryAsk a kw)).1,
      (getSqlQuery env s (queryAsk a kw)).2.bind fun
        | .withConn sql c => (callWith ["self", "query", "connection"] a.kw).bind fun kw => runQuery env.render sql c (kwMerge s.kw kw)
        | _ => .error .valueError)

/-- The calls on a session, query.py 37-111. A `load` carries what the repository has at that moment: the project and the branches, or the
error of reading them. `query` has no argument `merged_queries`: it is among the keywords. -/
inductive ApiOp (P : Type)
  | setUser (u : Option User)
  | load (fetched : Res (P × List String))
  | addConnections (cs : List RawConn)
  | listConnections
  | getConnection (n : String)
  | branchOptions
  | getSql (a : Ask)
  | query (a : Ask)
  | tableName (view : String)

/-- What a call returns. query.py 37-111. -/
inductive ApiOut
  | done
  | conns (cs : List Conn)
  | conn (c : Option Conn)
  | branches (bs : List String)
  | reply (r : Reply)
  | ran (x : Execution)
  | text (t : String)

/-- `load`, query.py 41-54 with project_loader.py 25-28, 58-70. -/
def loadInto {P : Type} (env : ApiEnv P) (s : Session P) (fetched : Res (P × List String)) : Session P × Res ApiOut :=
  match s.location with
  | some _ =>
    match loadConnections env.creds s.conns with
    | .error e => (s, .error e)
    | .ok cs =>
      match fetched with
      | .error e => (s, .error e)
      | .ok (content, branches) =>
        ({ s with project := some { content := content, lookup := lookupOf cs, user := s.user }, branches := some branches }, .ok .done)
  | none => if s.passed then (s, .ok .done) else (s, .error .attributeError)

/-- One call on a session, query.py 37-111. `tableName` is `get_view(...).sql_table_name` (query.py 229-230). -/
def ApiOp.run {P : Type} (env : ApiEnv P) (s : Session P) : ApiOp P → Session P × Res ApiOut
  | .setUser u =>
    match s.project with
    | none => ({ s with user := u }, .error .query)
    | some p => ({ s with user := u, project := some { p with user := u } }, .ok .done)
  | .load fetched => loadInto env s fetched
  | .addConnections cs => ({ s with conns := s.conns ++ cs }, .ok .done)
  | .listConnections => (s, (loadConnections env.creds s.conns).map .conns)
  | .getConnection n => (s, (loadConnections env.creds s.conns).map fun cs => .conn (findConn cs (some n)))
  | .branchOptions =>
    match s.branches with
    | none => (s, .error .query)
    | some bs => (s, .ok (.branches bs))
  | .getSql a => ((getSqlQuery env s a).1, (getSqlQuery env s a).2.map .reply)
  | .query a => ((runAsk env s a).1, (runAsk env s a).2.map .ran)
  | .tableName v =>
    match s.project with
    | none => (s, .error .query)
    | some p => (s, (env.tableName p.content p.user p.schema v).map .text)

/-- A history of calls. query.py 37-111. -/
def runAll {P : Type} (env : ApiEnv P) (s : Session P) : List (ApiOp P) → Session P
  | [] => s
  | op :: ops => runAll env (op.run env s).1 ops

/-- The constructor, query.py 17-35: a project that is passed gets the user. -/
def newSession {P : Type} (location : Option String) (project : Option (Loaded P)) (conns : List RawConn) (user : Option User) (kw : Kw) :
    Session P where
  location := location
  conns := conns
  kw := kw
  user := user
  project := project.map fun p => { p with user := user }
  passed := project.isSome
  branches := project.map fun _ => []

end ML
