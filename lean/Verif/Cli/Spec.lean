import Verif.Cli.Model
import Verif.Repo.Spec
/-
What the theorems about the command line say: what is at a place on the disk.
-/
set_option autoImplicit false
namespace ML
namespace Spec

/-- There is a file with this content at the place. -/
def FileAt (w : WorkDir) (place : List PathName) (v : Res Yaml) : Prop := (place, v) ∈ w.files

/-- There is nothing at the place. -/
def NothingAt (w : WorkDir) (place : List PathName) : Prop := (∀ v, ¬ FileAt w place v) ∧ place ∉ w.dirs

/-- Two disks hold the same. -/
def SameDisk (a b : WorkDir) : Prop := (∀ place v, FileAt a place v ↔ FileAt b place v) ∧ ∀ place, place ∈ a.dirs ↔ place ∈ b.dirs

/-- All that is different is what is in one file; these folders are there if nothing else is, and no other is new. -/
structure OnlyThis (before after : WorkDir) (file : List PathName) (folders : List (List PathName)) (v : Yaml) : Prop where
  written : ∀ x, FileAt after file x ↔ x = .ok v
  others : ∀ place x, place ≠ file → (FileAt after place x ↔ FileAt before place x)
  made : ∀ place, place ∈ after.dirs ↔ place ∈ before.dirs ∨ (place ∈ folders ∧ NothingAt before place)

/-- What the project file of a new project says. -/
def newProject : FDef := [("name", .str "zenlytic_project_name"), ("profile", .str "my_dbt_profile"), ("model-paths", .list [.str "models"]),
  ("view-paths", .list [.str "views"]), ("dashboard-paths", .list [.str "dashboards"])]

/-- What the project file of a new project in a dbt project says. -/
def newDbtProject (name profile : Yaml) : FDef :=
  [("name", name), ("profile", profile), ("mode", .str "dbt"), ("dashboard-paths", .list [.str "dashboards"])]

/-- The types of things that can be listed, with what there is of each. -/
def Things (env : CliEnv) (view : Option String) (hidden : Bool) (type : String) (names : List String) : Prop :=
  (type = "models" ∧ env.models = .ok names) ∨ (type = "connections" ∧ env.connections = .ok names) ∨ (type = "views" ∧ env.views = .ok names) ∨
  ∃ fs, env.fields view hidden = .ok fs ∧
    ((type = "fields" ∧ names = fs.map (·.name)) ∨
     (type = "metrics" ∧ names = (fs.filter fun f => f.fieldType = "measure").map (·.name)) ∨
     (type = "dimensions" ∧ names = (fs.filter fun f => f.fieldType = "dimension" ∨ f.fieldType = "dimension_group").map (·.name)))

/-- One of a type. -/
def oneOf : String → String
  | "models" => "model"
  | "connections" => "connection"
  | "views" => "view"
  | "fields" => "field"
  | "metrics" => "metric"
  | "dimensions" => "dimension"
  | t => t

end Spec
end ML
