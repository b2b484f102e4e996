import Verif.Repo.Model
import Verif.Api.Model
/-
The command line: `/repo/metrics_layer/cli/cli_commands.py`, the steps of `/repo/metrics_layer/cli/seeding.py` 604-697 that it calls,
and the lists of `/repo/metrics_layer/core/query/query.py` 180-198, 208-213, 223-250.

A folder on disk is its files and its folders by place (see the area Repo). A command is a list of steps, so that it can be interrupted or
fail after any of them. Reading a file that was written gives what was written, and an empty file gives nothing: the YAML library is not modelled.
-/
set_option autoImplicit false
namespace ML

/-- The disk with its folders. seeding.py 676-677. -/
structure WorkDir where
  files : Disk
  dirs : List (List PathName)

/-- `os.path.exists`, seeding.py 635, 638, 652, 676. -/
def WorkDir.has (w : WorkDir) (t : PathText) : Bool := fileExists w.files t || decide (resolvePath t ∈ w.dirs)

/-- What a command does to the disk, seeding.py 676-677 and project_reader_base.py 132-133. -/
inductive CliStep
  /-- The folder is made unless there is something there. -/
  | mkdir (t : PathText)
  /-- The file is opened for writing, which empties it. -/
  | empty (t : PathText)
  | write (t : PathText) (v : Yaml)

/-- A file with new content, project_reader_base.py 132-133. -/
def putFile (d : Disk) (place : List PathName) (v : Yaml) : Disk := (place, .ok v) :: d.filter fun f => f.1 ≠ place

/-- One step. seeding.py 676-677, project_reader_base.py 132-133. -/
def CliStep.run (w : WorkDir) : CliStep → WorkDir
  | .mkdir t => if w.has t then w else { w with dirs := resolvePath t :: w.dirs }
  | .empty t => { w with files := putFile w.files (resolvePath t) .null }
  | .write t v => { w with files := putFile w.files (resolvePath t) v }

/-- The steps one after the other. seeding.py 661-696. -/
def runSteps (w : WorkDir) (l : List CliStep) : WorkDir := l.foldl CliStep.run w

/-- `_dbt_project_path`, seeding.py 646-648. -/
def cliDbtPath (cwd : PathText) : PathText := pathJoin cwd "./dbt_project.yml".toList

/-- `_in_dbt_project`, seeding.py 650-652. -/
def inDbtProject (cwd : PathText) (w : WorkDir) : Bool := w.has (cliDbtPath cwd)

/-- The folders `_init_directories` makes, seeding.py 661-677. -/
def initFolders (cwd : PathText) (w : WorkDir) : List CliStep :=
  (if inDbtProject cwd w then ["dashboards"] else ["models", "views", "dashboards"]).map fun n => .mkdir (pathJoin cwd n.toList)

/-- `dbt_project[key]`, seeding.py 686. -/
def dbtKey (v : Yaml) (key : String) : Res Yaml :=
  match v with
  | .dict d =>
    match dictGet d key with
    | some x => .ok x
    | none => .error .keyError
  | _ => .error .typeError

/-- What the project file is to say, seeding.py 680-696. -/
def projectFile (cwd : PathText) (w : WorkDir) : Res FDef :=
  if inDbtProject cwd w then
    (readFile w.files (cliDbtPath cwd)).bind fun v => (dbtKey v "name").bind fun n => (dbtKey v "profile").map fun p =>
      [("name", n), ("profile", p), ("mode", .str "dbt"), ("dashboard-paths", .list [.str "dashboards"])]
  else .ok [("name", .str "zenlytic_project_name"), ("profile", .str "my_dbt_profile"), ("model-paths", .list [.str "models"]),
    ("view-paths", .list [.str "views"]), ("dashboard-paths", .list [.str "dashboards"])]

/-- The steps of `init`, and what it raises after them. cli_commands.py 21-25, seeding.py 661-696. -/
def initSteps (cwd : PathText) (w : WorkDir) : List CliStep × Res Unit :=
  match projectFile cwd (runSteps w (initFolders cwd w)) with
  | .error e => (initFolders cwd w, .error e)
  | .ok d =>
    (initFolders cwd w ++ [.empty (pathJoin cwd "zenlytic_project.yml".toList), .write (pathJoin cwd "zenlytic_project.yml".toList) (.dict d)], .ok ())

/-- `init`, cli_commands.py 21-25. -/
def cliInit (cwd : PathText) (w : WorkDir) : WorkDir × Res Unit := (runSteps w (initSteps cwd w).1, (initSteps cwd w).2)

/-- `get_profile`, seeding.py 628-644. -/
def cliProfile (cwd : PathText) (w : WorkDir) : Res Yaml :=
  if w.has (pathJoin cwd "zenlytic_project.yml".toList) then
    (readFile w.files (pathJoin cwd "zenlytic_project.yml".toList)).bind fun v => dbtKey v "profile"
  else if inDbtProject cwd w then (readFile w.files (cliDbtPath cwd)).bind fun v => dbtKey v "profile"
  else .error .valueError

/-- `_init_connection`, seeding.py 604-617, with what the constructor then asks of the connection, seeding.py 34: a name that is not found gives
None, which has no database. -/
def cliConnection (conns : List Conn) : Option String → Res Conn
  | some n =>
    if n = "" then alone
    else
      match findConn conns (some n) with
      | some c => .ok c
      | none => .error .attributeError
  | none => alone
where
  /-- Without a name, seeding.py 609-616. -/
  alone : Res Conn :=
    match conns with
    | [c] => .ok c
    | _ => .error .valueError

/-- A field as the lists see it, query.py 181-213. -/
structure ListedField where
  name : String
  fieldType : String
  deriving DecidableEq

/-- What the commands ask of the project: its models, connections and views, the fields of a view or of all, with the hidden ones or without. query.py
180-250. -/
structure CliEnv where
  models : Res (List String)
  connections : Res (List String)
  views : Res (List String)
  fields : Option String → Bool → Res (List ListedField)

/-- `list_fields`, `list_metrics` and `list_dimensions` with names only, query.py 180-184, 193-198, 208-213. -/
def listFields (env : CliEnv) (keep : ListedField → Bool) (view : Option String) (hidden : Bool) : Res (List String) :=
  (env.fields view hidden).map fun fs => (fs.filter keep).map (·.name)

/-- What `list` looks for, cli_commands.py 158-178: nothing for an unknown type. -/
def cliItems (env : CliEnv) (type : String) (view : Option String) (hidden : Bool) : Res (Option (List String)) :=
  if type = "models" then env.models.map some
  else if type = "connections" then env.connections.map some
  else if type = "views" then env.views.map some
  else if type = "fields" then (listFields env (fun _ => true) view hidden).map some
  else if type = "dimensions" then
    (listFields env (fun f => f.fieldType = "dimension" || f.fieldType = "dimension_group") view hidden).map some
  else if type = "metrics" then (listFields env (fun f => f.fieldType = "measure") view hidden).map some
  else if type = "profiles" then .error .notImplemented
  else .ok none

/-- The complaint about a type, cli_commands.py 175-178, 225-228. -/
def unknownType (type : String) : String :=
  "Could not find the type " ++ type ++ ", please use one of the options: models, connections, views, fields, metrics, dimensions"

/-- `list`, cli_commands.py 151-185: the lines it prints. -/
def cliList (env : CliEnv) (type : String) (view : Option String) (hidden : Bool) : Res (List String) :=
  (cliItems env type view hidden).map fun o =>
    match o with
    | none => [unknownType type]
    | some [] => ["Could not find any " ++ type]
    | some items =>
      ("Found " ++ toString items.length ++ " " ++ (if items.length > 1 then type else String.ofList type.toList.dropLast) ++ ":\n") :: items

/-- `validate`, cli_commands.py 57-70: the lines it prints for what the project's own `validate` returns, and the status the program ends with. -/
def cliValidate (errors : Res (List String)) (models : Nat) : Res (List String × Nat) :=
  errors.map fun es =>
    if es.length = 0 then
      (["Project passed (checked " ++ toString models ++ " model" ++ (if models > 1 then "s" else "") ++ ")!"], 0)
    else
      (("Found " ++ toString es.length ++ " error" ++ (if es.length > 1 then "s" else "") ++ " in the project:\n") ::
        es.map (fun e => "\n" ++ e ++ "\n"), 0)

/-- One attribute of `show`, cli_commands.py 233-240. -/
def showLines (render : Yaml → String) (p : String × Yaml) : List String :=
  match p.2 with
  | .list (x :: xs) => ("  " ++ p.1 ++ ":") :: (x :: xs).map fun y => "    " ++ render y
  | v => ["  " ++ p.1 ++ ": " ++ render v]

/-- `show`, cli_commands.py 202-240: `found` gives the attributes of the object asked for, or none for a connection there is not; objects are true. -/
def cliShow (render : Yaml → String) (found : String → Res (Option Kw)) (type name : String) : Res (List String) :=
  if type = "model" ∨ type = "connection" ∨ type = "view" ∨ type = "field" ∨ type = "dimension" ∨ type = "metric" then
    (found type).map fun o =>
      match o with
      | none => []
      | some a => ("Attributes in " ++ type ++ " " ++ name ++ ":\n") :: a.flatMap (showLines render)
  else .ok [unknownType type]

/-- The lines of `debug` on a connection, cli_commands.py 121-123. -/
def debugAttributes (render : Yaml → String) (c : Conn) : Res (List String) :=
  c.printable.map fun a => a.map fun p => "  " ++ p.1 ++ ": " ++ render p.2

/-- The tests of `debug`, cli_commands.py 125-136: `test` runs the query and gives the text of the exception, if there is one. -/
def debugTests (test : Conn → Option String) (name : Conn → String) (conns : List Conn) : List String :=
  conns.map fun c => "\nConnection " ++ name c ++ " test: " ++
    (match test c with
    | none => "OK connection ok"
    | some e => "Failed with:\n\n " ++ e)

end ML
