import Verif.Dict
import Mathlib.Data.Nat.Notation
/-
Model of writing and reading project files: `metrics_layer/core/parse/project_dumper.py`, `dump_yaml_file` of
`parse/project_reader_base.py`, `load` of `parse/project_reader_metrics_layer.py`, and of dbt references: `parse/manifest.py`,
`resolve_dbt_ref` of `model/project.py` and the table name of a view (`model/view.py` 1008-1018).
A YAML document is a dictionary; writing a dictionary and reading it back gives the same dictionary (ruamel.yaml is not modelled).
-/
set_option autoImplicit false
namespace ML

/-- A field of a view: its keys and values, in order. A value is any YAML value, here a text. project_dumper.py 81-110. -/
abbrev FieldDict := List (String × String)

/-- A value in a model or view: any YAML value, or a list of fields. project_dumper.py 43-69. -/
inductive DumpVal
  | value (s : String)
  | fields (fs : List FieldDict)
  deriving DecidableEq, Repr

/-- A model or view as a dictionary. project_dumper.py 43-69 and 112-125. -/
abbrev DumpDict := List (String × DumpVal)

/-- `view_key_order`, project_dumper.py 44-60. -/
def viewKeyOrder : List String :=
  ["version", "type", "name", "label", "description", "model_name", "sql_table_name", "default_date", "row_label", "extends",
   "extension", "required_access_grants", "sets", "identifiers", "fields"]

/-- `field_key_order`, project_dumper.py 82-104. -/
def fieldKeyOrder : List String :=
  ["name", "field_type", "type", "datatype", "hidden", "primary_key", "label", "view_label", "description",
   "required_access_grants", "value_format_name", "drill_fields", "sql_distinct_key", "tiers", "timeframes", "intervals",
   "sql_start", "sql_end", "sql", "filters", "extra"]

/-- `model_key_order`, project_dumper.py 113-122. -/
def modelKeyOrder : List String :=
  ["version", "type", "name", "label", "connection", "fiscal_month_offset", "week_start_day", "access_grants"]

/-- The keys in the order they are copied: `key_order + extra_keys`, project_dumper.py 61-63, 105-107, 123-125. -/
def copyOrder {α : Type} (order : List String) (d : List (String × α)) : List String :=
  order ++ (d.map Prod.fst).filter fun k => k ∉ order

/-- `_sort_field`, project_dumper.py 81-110. (A key is assigned once: neither list repeats one.) -/
def sortField (f : FieldDict) : FieldDict := (copyOrder fieldKeyOrder f).filterMap fun k => (dictGet f k).map fun v => (k, v)

/-- `_sort_model`, project_dumper.py 112-128. -/
def sortModel (m : DumpDict) : DumpDict := (copyOrder modelKeyOrder m).filterMap fun k => (dictGet m k).map fun v => (k, v)

/-- The sort key of a field, project_dumper.py 72-75: the position of its type and whether its name contains `id` (0) or not (1). -/
def fieldRank (f : FieldDict) : Res (ℕ × ℕ) :=
  match dictGet f "field_type" with
  | none => .error .keyError
  | some t =>
    if t ∈ ["dimension", "dimension_group", "measure"] then
      match dictGet f "name" with
      | none => .error .keyError
      | some n => .ok (["dimension", "dimension_group", "measure"].idxOf t, if containsSub "id".toList n.toList then 0 else 1)
    else .error .valueError

/-- The fields with their sort keys; `sorted` computes all keys first. project_dumper.py 71-76. -/
def fieldRanks : List FieldDict → Res (List ((ℕ × ℕ) × FieldDict))
  | [] => .ok []
  | f :: fs =>
    match fieldRank f with
    | .error e => .error e
    | .ok k =>
      match fieldRanks fs with
      | .error e => .error e
      | .ok rest => .ok ((k, f) :: rest)

/-- The comparison of sort keys (tuples compare lexicographically). project_dumper.py 73. -/
def rankLe (a b : (ℕ × ℕ) × FieldDict) : Bool := decide (a.1.1 < b.1.1 ∨ (a.1.1 = b.1.1 ∧ a.1.2 ≤ b.1.2))

/-- `_sort_fields`, project_dumper.py 71-79: a stable sort, then the keys of every field. -/
def sortFields (fs : List FieldDict) : Res (List FieldDict) :=
  match fieldRanks fs with
  | .error e => .error e
  | .ok ks => .ok ((ks.mergeSort rankLe).map fun k => sortField k.2)

/-- The value copied for a key of a view, project_dumper.py 65-68. -/
def viewValue (k : String) (v : DumpVal) : Res DumpVal :=
  if k = "fields" then
    match v with
    | .value _ => .error .typeError
    | .fields fs => (sortFields fs).map .fields
  else .ok v

/-- The loop over the keys of a view, project_dumper.py 63-69. -/
def sortViewKeys (v : DumpDict) : List String → Res DumpDict
  | [] => .ok []
  | k :: ks =>
    match dictGet v k with
    | none => sortViewKeys v ks
    | some x =>
      match viewValue k x with
      | .error e => .error e
      | .ok y =>
        match sortViewKeys v ks with
        | .error e => .error e
        | .ok rest => .ok ((k, y) :: rest)

/-- `_sort_view`, project_dumper.py 43-69. -/
def sortView (v : DumpDict) : Res DumpDict := sortViewKeys v (copyOrder viewKeyOrder v)

/-- The dictionary written to the file, `dump_yaml_file`, project_reader_base.py 131: keys starting with `_` are left out. -/
def writtenDict (d : DumpDict) : DumpDict := d.filter fun kv => !isPrefix ['_'] kv.1.toList

/-- `os.path.join`. project_dumper.py 17-40. -/
def joinPath (a b : String) : String :=
  if isPrefix ['/'] b.toList then b
  else if a = "" ∨ a.toList.getLast? = some '/' then a ++ b
  else a ++ "/" ++ b

/-- A text value of a dictionary. project_dumper.py 14-41. -/
def textOf (d : DumpDict) (k : String) : Option String :=
  match dictGet d k with
  | some (.value s) => some s
  | _ => none

/-- The file of a model or view, project_dumper.py 16-26 and 30-40. -/
def dumpPath (path folder suffix : String) (d : DumpDict) : Res String :=
  match textOf d "_file_path" with
  | some f => .ok (joinPath path f)
  | none =>
    match textOf d "name" with
    | none => .error .keyError
    | some n => .ok (joinPath (joinPath path folder) (n ++ suffix))

/-- The files: path and contents. project_dumper.py 14-41. -/
abbrev Files := List (String × DumpDict)

/-- The loop over the models, project_dumper.py 15-26. The files written before an exception stay. -/
def dumpModels (path folder : String) : List DumpDict → Files → Files × Option Err
  | [], fs => (fs, none)
  | m :: ms, fs =>
    match dumpPath path folder "_model.yml" m with
    | .error e => (fs, some e)
    | .ok p => dumpModels path folder ms (dictSet fs p (writtenDict (sortModel m)))

/-- The loop over the views, project_dumper.py 28-41. -/
def dumpViews (path folder : String) : List DumpDict → Files → Files × Option Err
  | [], fs => (fs, none)
  | v :: vs, fs =>
    match dumpPath path folder "_view.yml" v with
    | .error e => (fs, some e)
    | .ok p =>
      match sortView v with
      | .error e => (fs, some e)
      | .ok d => dumpViews path folder vs (dictSet fs p (writtenDict d))

/-- `ProjectDumper.dump`, project_dumper.py 14-41. -/
def dumpProject (path modelFolder viewFolder : String) (models views : List DumpDict) (fs : Files) : Files × Option Err :=
  match dumpModels path modelFolder models fs with
  | (fs, some e) => (fs, some e)
  | (fs, none) => dumpViews path viewFolder views fs

/-- `os.path.relpath` of a file inside the folder. (Paths with `.`, `..` or `//` are not modelled.); project_reader_metrics_layer.py 19. -/
def relPath (folder file : String) : String :=
  let start := if folder.toList.getLast? = some '/' then folder else folder ++ "/"
  if isPrefix start.toList file.toList then String.ofList (file.toList.drop start.length) else file

/-- `load`, project_reader_metrics_layer.py 7-36, on the files found: models and views, each with its path. -/
def loadFiles (folder : String) (fs : Files) : List DumpDict × List DumpDict :=
  let dicts := fs.map fun f => dictSet f.2 "_file_path" (.value (relPath folder f.1))
  (dicts.filter fun d => textOf d "type" == some "model", dicts.filter fun d => textOf d "type" == some "view")

/-! ### dbt references -/

/-- A node of the manifest. manifest.py 41-58. -/
structure DbtNode where
  schema : String
  alias_ : String
  deriving DecidableEq, Repr

/-- `_resolve_node`, manifest.py 41-48: the first node whose key ends with the name. -/
def resolveNode (nodes : List (String × DbtNode)) (name : String) : Res DbtNode :=
  match nodes.find? fun kn => decide ((splitChars '.' kn.1.toList).getLast? = some name.toList) with
  | none => .error .query
  | some kn => .ok kn.2

/-- `resolve_name`, manifest.py 50-54. -/
def resolveName (nodes : List (String × DbtNode)) (schema : Option String) (name : String) : Res String :=
  match resolveNode nodes name with
  | .error e => .error e
  | .ok n =>
    match schema with
    | none => .ok (n.schema ++ "." ++ n.alias_)
    | some s => .ok (s ++ "." ++ n.alias_)

/-- `resolve_dbt_ref`, project.py 578-587. `none`: there is no manifest. -/
def resolveDbtRef (manifest : Option (List (String × DbtNode))) (schema : Option String) (name : String) : Res String :=
  match manifest with
  | none =>
    match schema with
    | none => .error .query
    | some s => if s = "" then .error .query else .ok (s ++ "." ++ name)
  | some nodes => resolveName nodes schema name

/-- `str.find`: the position of the first occurrence. view.py 1008-1018. -/
def findText (p : List Char) : List Char → Option ℕ
  | [] => if p = [] then some 0 else none
  | c :: s => if isPrefix p (c :: s) then some 0 else (findText p s).map (· + 1)

/-- The argument of `ref(…)`, view.py 1016-1017: the text between the first `ref(` and the first `)`, without single quotes.
(A missing `)` is −1 and cuts off the last character.) -/
def refArgument (s : List Char) : List Char :=
  let start := match findText "ref(".toList s with
    | some i => i + 4
    | none => 3
  let stop := match findText [')'] s with
    | some j => j
    | none => s.length - 1
  ((s.take stop).drop start).filter fun c => c != '\''

end ML
