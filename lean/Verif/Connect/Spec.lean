import Verif.Connect.Model
/-
What is meant by the connections: which arguments are secrets, what may be shown, what is handed to a connector.
-/
set_option autoImplicit false
namespace ML
namespace Spec

/-- The arguments nobody should see. -/
def secrets : List String :=
  ["password", "personal_access_token", "client_id", "client_secret", "auth", "credentials", "keyfile"]

/-- Two sets of arguments that may differ only in their secrets: everything else is the same, and a secret that is there (or
empty) in one is there (or empty) in the other. -/
def DifferInSecrets (a b : Kw) : Prop :=
  (∀ k, k ∉ secrets → dictGet a k = dictGet b k) ∧
  ∀ k, k ∈ secrets → (dictGet a k).isSome = (dictGet b k).isSome ∧ truthyOpt (dictGet a k) = truthyOpt (dictGet b k)

/-- What may be shown of a connection. -/
def shownKeys : List String :=
  ["name", "type", "account", "user", "username", "database", "schema", "warehouse", "role", "host", "http_path", "port",
    "path", "scheme", "project_id"]

/-- The connection stands for what was handed in: an object is itself; a dictionary became a connection of the class its `type`
names, in upper or lower case, with its name. Its `type` is the type that was asked for, except that Azure Synapse
says it is a SQL Server. -/
def ConnFor : RawConn → Conn → Prop
  | .obj c, c' => c' = c
  | .dict a, c => ∃ t n, dictGet a "type" = some (.str t) ∧ dictGet a "name" = some n ∧ c.cls.key = upper t ∧
      dictGet c.attrs "name" = some n ∧
      dictGet c.attrs "type" = some (.str (if c.cls = .azureSynapse then "SQL_SERVER" else upper t))

/-- The arguments a connection must have. -/
def required : ConnCls → List String
  | .snowflake => ["name", "account", "password"]
  | .databricks => ["name", "host", "http_path"]
  | .redshift => ["name", "host", "username", "password"]
  | .postgres | .duckDb => ["name", "host", "user", "password"]
  | .trino => ["name", "host", "user", "database"]
  | .druid | .sqlServer | .azureSynapse => ["name", "host"]
  | .bigquery => ["name"]

/-- The arguments that are handed to the connector as they are, under the same name. -/
def handed : ConnCls → List String
  | .snowflake => ["name", "account", "password", "warehouse", "database", "schema", "role"]
  | .databricks => ["name", "host", "http_path", "username", "password", "personal_access_token", "client_id",
      "client_secret", "database", "schema"]
  | .redshift => ["name", "host", "port", "username", "password", "database", "schema"]
  | .postgres => ["name", "host", "port", "password", "schema"]
  | .duckDb => ["name", "host", "port", "password", "database", "schema"]
  | .trino => ["name", "host", "port", "scheme", "user", "auth"]
  | .druid => ["name", "host", "port", "path", "scheme", "password"]
  | .sqlServer | .azureSynapse => ["name", "host", "port", "password"]
  | .bigquery => ["name"]

/-- A value is there and is not empty. -/
def ConnGiven (a : Kw) (k : String) : Prop := truthyOpt (dictGet a k) = true

instance (a : Kw) (k : String) : Decidable (ConnGiven a k) := inferInstanceAs (Decidable (_ = true))

/-- The user of a connection that takes `user` or `username`: the one that is given. -/
def UserIs (a : Kw) (u : Yaml) : Prop :=
  (ConnGiven a "user" ∧ ¬ ConnGiven a "username" ∧ dictGet a "user" = some u) ∨
  (ConnGiven a "username" ∧ ¬ ConnGiven a "user" ∧ dictGet a "username" = some u)

/-- The credentials that are used: `credentials` when they are given, else `keyfile`. -/
def usedCreds (a : Kw) : Option Yaml := if truthyOpt (dictGet a "credentials") then dictGet a "credentials" else dictGet a "keyfile"

/-- What the credentials of BigQuery are: a dictionary is itself, a text is JSON, or the file of the name, which is looked for in the directory of the
profiles unless its path is absolute. -/
inductive CredsAre (E : CredEnv) (a : Kw) : Yaml → Prop
  | dict (d : Kw) : usedCreds a = some (.dict d) → CredsAre E a (.dict d)
  | json (s : String) (v : Yaml) : usedCreds a = some (.str s) → E.json s = some v → CredsAre E a v
  | absolute (s : String) (v : Yaml) : usedCreds a = some (.str s) → E.json s = none → E.isAbs s = true → E.file s = .ok v → CredsAre E a v
  | relative (s dir : String) (v : Yaml) : usedCreds a = some (.str s) → E.json s = none → E.isAbs s = false →
      dictGet a "directory" = some (.str dir) → E.file (E.join dir s) = .ok v → CredsAre E a v

end Spec
end ML
