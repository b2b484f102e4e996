import Verif.Api.Model

/-!
# What a history of calls says

The user who was set last, the connections that were given, which calls ask for SQL, and which of the three ways of asking a call uses.
-/

set_option autoImplicit false

namespace ML
namespace Spec

/-- The user a call names. -/
def userNamed {P : Type} : ApiOp P → Option (Option User)
  | .setUser u => some u
  | _ => none

/-- The user who was named last: by the constructor or by `set_user`, whether it raised or not. -/
def lastUser {P : Type} (first : Option User) (ops : List (ApiOp P)) : Option User :=
  ((ops.filterMap userNamed).getLast?).getD first

/-- The connections a call adds. -/
def connsNamed {P : Type} : ApiOp P → List RawConn
  | .addConnections cs => cs
  | _ => []

/-- The connections that were added, in order. -/
def added {P : Type} (ops : List (ApiOp P)) : List RawConn := ops.flatMap connsNamed

/-- The call asks for SQL or runs it. -/
def isAsk {P : Type} : ApiOp P → Bool
  | .getSql _ | .query _ => true
  | _ => false

/-- The call is a load that could read the project. -/
def isRead {P : Type} : ApiOp P → Bool
  | .load (.ok _) => true
  | _ => false

/-- A value given for an option: what the call says, or else what the constructor was given. -/
def optionOf (constructor call : Kw) (k : String) : Option Yaml :=
  match dictGet call k with
  | some v => some v
  | none => dictGet constructor k

/-- Two sessions that differ at most in the schema the project remembers. -/
def SameButSchema {P : Type} (s t : Session P) : Prop :=
  s.location = t.location ∧ s.conns = t.conns ∧ s.kw = t.kw ∧ s.user = t.user ∧ s.passed = t.passed ∧ s.branches = t.branches ∧
  (s.project = none ∧ t.project = none ∨
    ∃ p q, s.project = some p ∧ t.project = some q ∧ p.content = q.content ∧ p.lookup = q.lookup ∧ p.user = q.user)

/-- Keys that occur once. Python's dictionaries have each key once. -/
def Dict {V : Type} (d : List (String × V)) : Prop := (d.map (·.1)).Nodup

/-- The first connection with the name, or none when there is none. -/
def FirstCalled (cs : List Conn) (n : Option String) : Option Conn → Prop
  | none => ∀ c ∈ cs, ∀ m, n = some m → dictGet c.attrs "name" ≠ some (.str m)
  | some c => ∃ m pre post, n = some m ∧ dictGet c.attrs "name" = some (.str m) ∧ cs = pre ++ c :: post ∧
      ∀ x ∈ pre, dictGet x.attrs "name" ≠ some (.str m)

/-- The option is on in the keywords of the call. -/
def On (call : Kw) (k : String) : Bool := truthyOpt (dictGet call k)

/-- The schema of a connection; nothing without one. -/
def schemaIn (c : Option Conn) : Yaml := (c.bind fun c => dictGet c.attrs "schema").getD .null

/-- The last connection with the name, or none when there is none. -/
def LastCalled (cs : List Conn) (n : String) : Option Conn → Prop
  | none => ∀ c ∈ cs, dictGet c.attrs "name" ≠ some (.str n)
  | some c => ∃ pre post, dictGet c.attrs "name" = some (.str n) ∧ cs = pre ++ c :: post ∧
      ∀ x ∈ post, dictGet x.attrs "name" ≠ some (.str n)

/-- The question asks what the MQL statement asks: the same metrics and dimensions, the same conditions and order, each None if there is none, and
a funnel with the steps, the time and the view, or an empty one. -/
def AsksFor (m : MqlQuery) (q : Quest) : Prop :=
  q.metrics = m.metrics ∧ q.dimensions = m.dimensions ∧
  (∀ c, (m.where_ = some c → q.where_ = .str c) ∧ (m.having = some c → q.having = .str c) ∧ (m.orderBy = some c → q.orderBy = .str c)) ∧
  (m.where_ = none → q.where_ = .null) ∧ (m.having = none → q.having = .null) ∧ (m.orderBy = none → q.orderBy = .null) ∧
  (m.funnel = none → q.funnel = .dict []) ∧
  ∀ f, m.funnel = some f → ∃ d w, q.funnel = .dict d ∧ dictGet d "steps" = some (.list (f.steps.map .str)) ∧ dictGet d "within" = some (.dict w) ∧
    dictGet w "value" = some (.int f.value) ∧ dictGet w "unit" = some (.str f.unit) ∧ dictGet d "view_name" = f.viewName.map .str

end Spec
end ML
