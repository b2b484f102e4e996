import Verif.Repo.Model
import Verif.FieldCheck.Spec
/-
What the theorems about reading a project say: which place a path leads to, which files are looked at, and what becomes of a file.
-/
set_option autoImplicit false
namespace ML
namespace Spec

/-- A name a file or a folder can have. -/
structure IsName (p : PathName) : Prop where
  some : p ≠ []
  whole : '/' ∉ p
  other : p ≠ ".".toList ∧ p ≠ "..".toList

/-- Files have names, and no two are at the same place. -/
structure RealDisk (disk : Disk) : Prop where
  names : ∀ place c, (place, c) ∈ disk → ∀ p ∈ place, IsName p
  apart : (disk.map Prod.fst).Nodup

/-- The place an absolute path leads to. -/
inductive Leads : PathText → List PathName → Prop
  | root : Leads [] []
  | name {t place p} : Leads t place → IsName p → Leads (t ++ '/' :: p) (place ++ [p])
  | slash {t place} : Leads t place → Leads (t ++ "/".toList) place
  | dot {t place} : Leads t place → Leads (t ++ "/.".toList) place
  | up {t place} : Leads t place → Leads (t ++ "/..".toList) place.dropLast

/-- A name that begins with a dot. -/
def Hidden (p : PathName) : Prop := ∃ cs, p = '.' :: cs

/-- The names of the files that are read. -/
def YamlName (p : PathName) : Prop := ¬ Hidden p ∧ (".yml".toList <:+ p ∨ ".yaml".toList <:+ p)

/-- A folder, as it is written, is the path `h`, one or more slashes and then `c`, without a slash: nothing, when a slash is its end. -/
structure Cut (folder h : PathText) (c : PathName) (place : List PathName) : Prop where
  text : ∃ n, folder = h ++ List.replicate (n + 1) '/' ++ c ∧ (h = [] → n = 0)
  last : '/' ∉ c
  clean : ∀ h', h ≠ h' ++ "/".toList
  leads : Leads h place

/-- A path with more names after it. -/
def Spelled (h : PathText) (names : List PathName) : PathText := h ++ names.flatMap fun p => '/' :: p

/-- The paths that are searched for a folder, and the places they lead to. -/
inductive Searched (folder : PathText) : PathText → List PathName → Prop
  /-- A folder written with a slash at its end: all files below it that are not in hidden folders. -/
  | below {h place ds name} : Cut folder h [] place → (∀ d ∈ ds, ¬ Hidden d) → YamlName name →
      Searched folder (Spelled h (ds ++ [name])) (place ++ (ds ++ [name]))
  /-- A folder written without: the files in all folders whose names begin with its name, but not those deeper down. -/
  | beside {h place c d name} : Cut folder h c place → c ≠ [] → c <+: d → (Hidden d → Hidden c) → YamlName name →
      Searched folder (Spelled h [d, name]) (place ++ [d, name])

/-- A path at which a file is found: it is searched, there is a file, and the path does not have `venv` in it. -/
def Found (disk : Disk) (folders : List PathText) (t : PathText) (place : List PathName) : Prop :=
  (∃ f ∈ folders, Searched f t place) ∧ (∃ c, (place, c) ∈ disk) ∧ ¬ "venv".toList <:+: t

/-- What a file of the type is loaded as: what is in it, and where it is, seen from the repository. -/
structure LoadedAs (disk : Disk) (folder : PathText) (place : List PathName) (type : String) (d : FDef) : Prop where
  file : ∃ d0, (place, .ok (.dict d0)) ∈ disk ∧ Given d0 "type" (.str type) ∧ ∀ k v, k ≠ "_file_path" → (Given d k v ↔ Given d0 k v)
  path : ∃ rel, Given d "_file_path" (.str rel) ∧ Leads (folder ++ '/' :: rel.toList) place

/-- The files found of a type, one for one. -/
def LoadedOf (disk : Disk) (folder : PathText) (folders : List PathText) (type : String) (ds : List FDef) : Prop :=
  ∃ ts : List (PathText × List PathName), (ts.map Prod.fst).Nodup ∧
    (∀ t place, (t, place) ∈ ts ↔ Found disk folders t place ∧ ∃ d, (place, .ok (.dict d)) ∈ disk ∧ Given d "type" (.str type)) ∧
    List.Forall₂ (fun tp d => LoadedAs disk folder tp.2 type d) ts ds

/-- There is a file at the end of the path, with this in it. -/
def FileIs (disk : Disk) (t : PathText) (v : Yaml) : Prop := ∃ place, Leads t place ∧ (place, .ok v) ∈ disk

/-- There is no file at the end of the path. -/
def NoFile (disk : Disk) (t : PathText) : Prop := ∀ place c, Leads t place → (place, c) ∉ disk

/-- What the project file of a repository says: the one in its folder, or, when there is none or it is empty, the one of the dbt project. -/
inductive ProjectFile (disk : Disk) (r : RepoAt) : Yaml → Prop
  | own {v} : FileIs disk (r.folder ++ "zenlytic_project.yml".toList) v → ¬ Nothing v → ProjectFile disk r v
  | dbt {t v} : r.dbt = some t → (NoFile disk (r.folder ++ "zenlytic_project.yml".toList) ∨
      ∃ w, FileIs disk (r.folder ++ "zenlytic_project.yml".toList) w ∧ Nothing w) → FileIs disk (t ++ "zenlytic_project.yml".toList) v → ProjectFile disk r v

/-- The folder of a repository, and the one of its dbt project, is an absolute path with a slash at its end. -/
structure RealRepo (r : RepoAt) : Prop where
  folder : ∃ t base, r.folder = t ++ "/".toList ∧ Leads t base
  dbt : ∀ u, r.dbt = some u → ∃ t base, u = t ++ "/".toList ∧ Leads t base

/-- The folder written in a project file: relative to the repository unless it begins with a slash. -/
def MeantFolder (folder : PathText) (s : String) (f : PathText) : Prop :=
  (∃ cs, s.toList = '/' :: cs) ∧ f = s.toList ∨ (¬ ∃ cs, s.toList = '/' :: cs) ∧ f = folder ++ s.toList

/-- A project file below the folder of a repository: not in a hidden folder, and without `venv` in its path. -/
def ProjectBelow (disk : Disk) (h : PathText) (base : List PathName) (ds : List PathName) (name : PathName) (c : Res Yaml) : Prop :=
  (base ++ (ds ++ [name]), c) ∈ disk ∧ (∀ d ∈ ds, ¬ Hidden d) ∧ (name = "zenlytic_project.yml".toList ∨ name = "zenlytic_project.yaml".toList) ∧
  ¬ "venv".toList <:+: Spelled h (ds ++ [name])

end Spec
end ML
