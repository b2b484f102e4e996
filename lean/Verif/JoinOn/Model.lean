import Verif.Refs.Model
import Verif.Names.Model
import Verif.FieldCheck.Model
/-
A join and its condition: `/repo/metrics_layer/core/model/join.py` 33-204, `/repo/metrics_layer/core/model/join_graph.py` 120-136, 370-376 and where the condition is
written, `/repo/metrics_layer/core/sql/query_generator.py` 345-358.
-/
set_option autoImplicit false
namespace ML

/-- What a join asks of its project (join.py 96-103, 123, 131, 186-195): a view by its name, of which it reads the name, a field by its name and view, and the SQL of that
field. Looking up views and fields is modelled in `Access/Model.lean`, the SQL of fields in `Refs/Model.lean` and others. -/
structure JoinEnv where
  getView : String → Res String
  getField : String → String → Res Unit
  sqlQuery : String → String → Res (List Char)

/-- What `Join.collect_errors` reports, join.py 90-140. -/
inductive JoinProblem
  /-- 104-112 -/
  | noKey (view : String)
  /-- 119-123 -/
  | noView (ref : String)
  /-- 125-130 -/
  | unknownView (view : String)
  /-- 132-140 -/
  | unknownField (view field : String)
  deriving DecidableEq, Repr

/-- `if k not in definition: definition[k] = v`, join.py 36-39. -/
def withDefault (d : FDef) (k : String) (v : Yaml) : FDef :=
  match dictGet d k with
  | none => dictSet d k v
  | some _ => d

/-- The first part of `Join.__init__`, join.py 36-39. -/
def joinDefaults (d : FDef) : FDef :=
  withDefault (withDefault d "type" (.str "left_outer")) "relationship" (.str "many_to_one")

/-- `definition["type"] == "cross"`, join.py 69. -/
def isCross (d : FDef) : Bool :=
  match dictGet d "type" with
  | some (.str s) => s == "cross"
  | _ => false

/-- Which of the four ways to say how to join are used, join.py 65-70. -/
def joinArguments (d : FDef) : List Bool :=
  [(dictGet d "sql_on").isSome, (dictGet d "foreign_key").isSome, (dictGet d "sql").isSome, isCross d]

/-- `Join.validate`, join.py 51-84. -/
def joinValidate (d : FDef) : Res Unit :=
  if ["base_view_name", "join_view_name", "relationship", "type"].any (fun k => (dictGet d k).isNone) then .error .query
  else if (joinArguments d).all (fun b => !b) then .error .query
  else if 1 < (joinArguments d).countP (fun b => b) then .error .query
  else .ok ()

/-- `Join.__init__`, join.py 34-42. -/
def joinInit (d : FDef) : Res FDef :=
  match joinValidate (joinDefaults d) with
  | .error e => .error e
  | .ok _ => .ok (joinDefaults d)

/-- `_verify_identifier_join`, join_graph.py 370-376, without the weight: what an explicit join puts on the edge is the whole identifier; its `type` is there, being `join`. -/
def verifyJoin (i : FDef) : Res FDef :=
  match dictGet i "sql_on" with
  | none => .error .keyError
  | some s =>
    .ok (dictSet (dictSet (dictSet i "type" ((dictGet i "type").getD (.str "left_outer"))) "relationship"
      ((dictGet i "relationship").getD (.str "many_to_one"))) "sql_on" s)

/-- `JoinGraph.get_join`, join_graph.py 133-136, for the data of an edge. -/
def getJoin (edge : FDef) (base joined : String) : Res FDef :=
  joinInit (dictSet (dictSet edge "base_view_name" (.str base)) "join_view_name" (.str joined))

/-- One reference of the condition, join.py 181-199: `none` where the function returns without a condition. Neither `get_view` nor `get_field` returns None, and view names are not
empty, so that the other branches (188-189, 197-201) are not reached. -/
def conditionValue (env : JoinEnv) (ref : List Char) : Res (Option (List Char)) :=
  match fieldNameParts (String.ofList ref) with
  | (_, none, _) => .ok none
  | (_, some v, c) =>
    match env.getView v with
    | .error e => .error e
    | .ok name =>
      match env.getField c name with
      | .error e => .error e
      | .ok _ =>
        match env.sqlQuery c name with
        | .error e => .error e
        | .ok s => .ok (some s)

/-- The loop of `get_replaced_sql_on`, join.py 180-204. -/
def conditionLoop (env : JoinEnv) : List (List Char) → List Char → Res (Option (List Char))
  | [], text => .ok (some text)
  | n :: ns, text =>
    match conditionValue env n with
    | .error e => .error e
    | .ok none => .ok none
    | .ok (some v) => conditionLoop env ns (replaceAll (refText n) v text)

/-- `Join.replaced_sql_on` and `get_replaced_sql_on`, join.py 44-45, 177-204. -/
def replacedSqlOn (env : JoinEnv) (sqlOn : List Char) : Res (Option (List Char)) :=
  conditionLoop env (fieldsToReplace sqlOn) sqlOn

/-- What follows `ON` in the query, query_generator.py 352-358: the criterion's SQL is formatted into the text, and so is Python's `None`. -/
def onText (env : JoinEnv) (sqlOn : List Char) : Res (List Char) :=
  match replacedSqlOn env sqlOn with
  | .error e => .error e
  | .ok none => .ok "None".toList
  | .ok (some t) => .ok t

/-- One reference in `Join.collect_errors`, join.py 117-140. -/
def checkRef (env : JoinEnv) (ref : List Char) : List JoinProblem :=
  match fieldNameParts (String.ofList ref) with
  | (_, none, _) => [.noView (String.ofList ref)]
  | (_, some v, c) =>
    match env.getView v with
    | .error _ => [.unknownView v]
    | .ok name =>
      match env.getField c name with
      | .error _ => [.unknownField v c]
      | .ok _ => []

/-- `Join.collect_errors`, join.py 90-140. With a foreign key, `get_field` is called with an argument it does not have, which raises for both views. -/
def joinErrors (env : JoinEnv) (d : FDef) (base joined : String) : Res (List JoinProblem) :=
  if truthyOpt (dictGet d "foreign_key") then .ok [.noKey base, .noKey joined]
  else match dictGet d "sql_on" with
    | none => .ok []
    | some (.str s) => if s = "" then .ok [] else .ok ((fieldsToReplace s.toList).flatMap (checkRef env))
    | some v => if v.truthy then .error .typeError else .ok []

/-- `Join.required_views`, join.py 157-165; of a set, so that the order is arbitrary. A reference without a view gives None. -/
def requiredViewNames (sqlOn : List Char) (base joined : String) : List (Option String) :=
  if sqlOn = [] then [some base, some joined]
  else ((fieldsToReplace sqlOn).map (fun n => (fieldNameParts (String.ofList n)).2.1)).dedup

end ML
