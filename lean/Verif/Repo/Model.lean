import Verif.ViewCheck.Model
/-
Where a project is read from: `/repo/metrics_layer/core/parse/github_repo.py` 14-72 (`BaseRepo`, `LocalRepo`),
`/repo/metrics_layer/core/parse/project_reader_base.py` 49-105, `/repo/metrics_layer/core/parse/project_reader_metrics_layer.py`,
`/repo/metrics_layer/core/parse/project_reader_metricflow.py` and `/repo/metrics_layer/core/parse/project_loader.py` 44-56.

Paths are texts; the disk is a list of files by their place, that is by the names from the root. Simplifications: there are no links; folders
have no `*`, `?` or `[` in their names (`glob` would read them as patterns); no directory is called `….yml` or `….yaml`.
-/
set_option autoImplicit false
namespace ML

/-- A path as it is written, github_repo.py 67. -/
abbrev PathText := List Char
/-- A name in a path, github_repo.py 61. -/
abbrev PathName := List Char

/-- The files: where they are and what reading them gives. project_reader_base.py 94-102, github_repo.py 48-52. -/
abbrev Disk := List (List PathName × Res Yaml)

/-- One name of a path is followed: nothing and `.` stay, `..` goes up. The operating system under project_reader_base.py 100. -/
def resolveStep (place : List PathName) (p : PathName) : List PathName :=
  if p = [] ∨ p = ['.'] then place else if p = ['.', '.'] then place.dropLast else place ++ [p]

/-- The place a path names, project_reader_base.py 100. -/
def resolvePath (t : PathText) : List PathName := (splitChars '/' t).foldl resolveStep []

/-- `os.path.join` of two, github_repo.py 69, project_reader_metrics_layer.py 57. -/
def pathJoin (a b : PathText) : PathText :=
  if b.head? = some '/' then b
  else if a = [] ∨ a.getLast? = some '/' then a ++ b
  else a ++ '/' :: b

/-- The part of a path before the last slash, without the slashes at its end unless there is nothing else: `os.path.split` in `glob`,
github_repo.py 61. -/
def pathHead (t : PathText) : PathText :=
  let h := (t.reverse.dropWhile (· ≠ '/')).reverse
  if h.all (· = '/') then h else (h.reverse.dropWhile (· = '/')).reverse

/-- The part of a path after the last slash. github_repo.py 61. -/
def pathTail (t : PathText) : PathText := (t.reverse.takeWhile (· ≠ '/')).reverse

/-- `glob._ishidden`, used by github_repo.py 61. -/
def hiddenName (p : PathName) : Bool := p.head? = some '.'

/-- The patterns searched for: `*.yml` and the like, and names. project_reader_metrics_layer.py 37, github_repo.py 18-19. -/
inductive FilePattern
  | ends (suffix : String)
  | named (name : String)
  deriving DecidableEq

/-- `fnmatch` of the pattern; a `*` at the beginning does not match hidden names. github_repo.py 61. -/
def FilePattern.hits : FilePattern → PathName → Bool
  | .ends s, p => !hiddenName p && s.toList.isSuffixOf p
  | .named n, p => decide (p = n.toList)

/-- What is left of a place below another one. github_repo.py 61. -/
def placeBelow : List PathName → List PathName → Option (List PathName)
  | [], l => some l
  | _ :: _, [] => none
  | a :: up, b :: l => if a = b then placeBelow up l else none

/-- `glob(folder**/pattern)` for a folder that ends with a slash: `**` stands alone between slashes and goes through all folders that are not
hidden. github_repo.py 61. -/
def globDeep (disk : Disk) (folder : PathText) (pat : FilePattern) : List PathText :=
  disk.filterMap fun file =>
    match placeBelow (resolvePath folder) file.1 with
    | none => none
    | some rest =>
      match rest.getLast? with
      | none => none
      | some name =>
        if rest.dropLast.all (fun d => !hiddenName d) && pat.hits name then some (rest.foldl pathJoin (pathHead folder)) else none

/-- `glob(folder**/pattern)` for a folder that does not end with a slash: `name**` is a pattern like `name*`, for one folder. github_repo.py 61. -/
def globShallow (disk : Disk) (folder : PathText) (pat : FilePattern) : List PathText :=
  disk.filterMap fun file =>
    match placeBelow (resolvePath (pathHead folder)) file.1 with
    | some [d, name] =>
      if (pathTail folder).isPrefixOf d && (hiddenName (pathTail folder) || !hiddenName d) && pat.hits name
      then some (pathJoin (pathJoin (pathHead folder) d) name) else none
    | _ => none

/-- `BaseRepo.glob_search`, github_repo.py 54-61, without `include_hidden`, which no caller asks for. -/
def globSearch (disk : Disk) (folder : PathText) (pat : FilePattern) : List PathText :=
  if folder.getLast? = some '/' then globDeep disk folder pat else globShallow disk folder pat

/-- `BaseRepo.search`, github_repo.py 27-34. -/
def repoSearch (disk : Disk) (pat : FilePattern) (folders : List PathText) : List PathText :=
  folders.flatMap fun f => (globSearch disk f pat).filter fun t => !containsSub "venv".toList t

/-- A repository: its folder, the folder of the dbt project in it, and the kind asked for. github_repo.py 64-70, 81-91. -/
structure RepoAt where
  folder : PathText
  dbt : Option PathText
  kind : Option String

/-- Reading a file, project_reader_base.py 100-108, github_repo.py 48-52. -/
def readFile (disk : Disk) (t : PathText) : Res Yaml :=
  match disk.find? (fun f => f.1 = resolvePath t) with
  | none => .error .other
  | some f => f.2

/-- Whether there is a file, project_reader_base.py 95, github_repo.py 41. -/
def fileExists (disk : Disk) (t : PathText) : Bool := disk.any fun f => f.1 = resolvePath t

/-- `read_yaml_if_exists`, project_reader_base.py 100-103. -/
def readIfExists (disk : Disk) (t : PathText) : Res Yaml := if fileExists disk t then readFile disk t else .ok .null

/-- `BaseRepo.get_dbt_path`, github_repo.py 38-46. -/
def dbtPath (disk : Disk) (folder : PathText) : PathText :=
  if fileExists disk (folder ++ "/dbt_project.yml".toList) then folder
  else
    match disk.filterMap (fun file =>
      match placeBelow (resolvePath folder) file.1 with
      | some [d, name] =>
        if !hiddenName d && decide (name = "dbt_project.yml".toList) then some (pathJoin (pathHead (folder ++ ['/'])) d ++ ['/']) else none
      | _ => none) with
    | [one] => one
    | _ => folder

/-- `LocalRepo.__init__`, github_repo.py 65-70. -/
def localRepo (disk : Disk) (cwd path : PathText) (kind : Option String) : RepoAt :=
  { folder := pathJoin cwd path ++ ['/'], dbt := some (dbtPath disk (pathJoin cwd path ++ ['/'])), kind := kind }

/-- `dbt_folder`, project_reader_base.py 96-97. -/
def dbtFolder (r : RepoAt) : PathText :=
  match r.dbt with
  | some t => if t = [] then r.folder else t
  | none => r.folder

/-- `zenlytic_project`, project_reader_base.py 81-89. -/
def zenlyticProject (disk : Disk) (r : RepoAt) : Res Yaml :=
  match readIfExists disk (pathJoin r.folder "zenlytic_project.yml".toList) with
  | .error e => .error e
  | .ok v =>
    if v.truthy then .ok v else readIfExists disk (pathJoin (dbtFolder r) "zenlytic_project.yml".toList)

/-- `_abs_path`, project_reader_metrics_layer.py 55-58. -/
def absPath (r : RepoAt) : Yaml → Res PathText
  | .str s => .ok (if s.toList.head? = some '/' then s.toList else pathJoin r.folder s.toList)
  | _ => .error .typeError

/-- `zenlytic_project[key]` when the key is in it, project_reader_metrics_layer.py 44-45: `in` looks into texts and lists too, but they have
no values by text. -/
def projectKey (v : Yaml) (key : String) : Res (Option Yaml) :=
  match v with
  | .dict d => .ok (dictGet d key)
  | .str s => if containsSub key.toList s.toList then .error .typeError else .ok none
  | .list l => if l.any (fun w => w.text? = some key) then .error .typeError else .ok none
  | _ => .error .typeError

/-- `get_folders`, project_reader_metrics_layer.py 40-53. -/
def getFolders (disk : Disk) (r : RepoAt) (key : String) (raises : Bool) : Res (List PathText) :=
  match zenlyticProject disk r with
  | .error e => .error e
  | .ok v =>
    if v.truthy = false then .ok []
    else
      match projectKey v key with
      | .error e => .error e
      | .ok none => if raises then .error .keyError else .ok []
      | .ok (some w) =>
        match iterate w with
        | .error e => .error e
        | .ok l => l.mapM (absPath r)

/-- The order in which `list(set(...))` gives the names. project_reader_metrics_layer.py 38. -/
structure SetOrder where
  run : List PathText → List PathText
  nodup : ∀ l, (run l).Nodup
  mem : ∀ l t, t ∈ run l ↔ t ∈ l

/-- `search_for_yaml_files`, project_reader_metrics_layer.py 36-38. -/
def yamlFiles (ord : SetOrder) (disk : Disk) (folders : List PathText) : List PathText :=
  ord.run (repoSearch disk (.ends ".yml") folders ++ repoSearch disk (.ends ".yaml") folders)

/-- The names two places share at the beginning, for `os.path.relpath`, project_reader_metrics_layer.py 19. -/
def relPlace : List PathName → List PathName → List PathName
  | a :: up, b :: l => if a = b then relPlace up l else (a :: up).map (fun _ => ['.', '.']) ++ (b :: l)
  | up, l => up.map (fun _ => ['.', '.']) ++ l

/-- `os.path.relpath(fn, start=self.repo.folder)`, project_reader_metrics_layer.py 19. -/
def relPathText (folder t : PathText) : PathText :=
  match relPlace (resolvePath folder) (resolvePath t) with
  | [] => ['.']
  | p :: ps => List.intercalate ['/'] (p :: ps)

/-- What is read of the files. project_reader_metrics_layer.py 8. -/
structure ReadIn where
  models : List FDef
  views : List FDef
  dashboards : List FDef
  /-- The files without a type and those with an unknown one that are complained about. -/
  noType : List PathText
  strange : List PathText

/-- Nothing read yet, project_reader_metrics_layer.py 8. -/
def nothingRead : ReadIn := ⟨[], [], [], [], []⟩

/-- One file in the loop, project_reader_metrics_layer.py 17-34. -/
def readFileStep (disk : Disk) (r : RepoAt) (acc : ReadIn) (t : PathText) : Res ReadIn :=
  match readFile disk t with
  | .error e => .error e
  | .ok (.dict d0) =>
    let d := dictSet d0 "_file_path" (.str (String.ofList (relPathText r.folder t)))
    match dictGet d "type" with
    | none => .ok (if containsSub "zenlytic_project".toList t then acc else { acc with noType := acc.noType ++ [t] })
    | some v =>
      match v with
      | .str "model" => .ok { acc with models := acc.models ++ [d] }
      | .str "view" => .ok { acc with views := acc.views ++ [d] }
      | .str "dashboard" => .ok { acc with dashboards := acc.dashboards ++ [d] }
      | w => .ok (if w.truthy then { acc with strange := acc.strange ++ [t] } else acc)
  | .ok _ => .error .typeError

/-- The loop, project_reader_metrics_layer.py 17-34. -/
def readFiles (disk : Disk) (r : RepoAt) : List PathText → ReadIn → Res ReadIn
  | [], acc => .ok acc
  | t :: l, acc =>
    match readFileStep disk r acc t with
    | .error e => .error e
    | .ok acc => readFiles disk r l acc

/-- The folders that are searched, project_reader_metrics_layer.py 10-13. -/
def allFolders (disk : Disk) (r : RepoAt) : Res (List PathText) :=
  match getFolders disk r "model-paths" true with
  | .error e => .error e
  | .ok ms =>
    match getFolders disk r "view-paths" true with
    | .error e => .error e
    | .ok vs =>
      match getFolders disk r "dashboard-paths" false with
      | .error e => .error e
      | .ok ds => .ok (ms ++ vs ++ ds)

/-- `MetricsLayerProjectReader.load`, project_reader_metrics_layer.py 7-34. -/
def readProject (ord : SetOrder) (disk : Disk) (r : RepoAt) : Res ReadIn :=
  match allFolders disk r with
  | .error e => .error e
  | .ok fs => readFiles disk r (yamlFiles ord disk fs) nothingRead

/-- `get_repo_type`, github_repo.py 15-22. -/
def repoType (disk : Disk) (r : RepoAt) : Res Yaml :=
  match r.kind with
  | some k => if k = "" then searched else .ok (.str k)
  | none => searched
where
  /-- The search for the file, github_repo.py 18-22. -/
  searched : Res Yaml :=
    match repoSearch disk (.named "zenlytic_project.yaml") [r.folder] ++ repoSearch disk (.named "zenlytic_project.yml") [r.folder] with
    | [one] =>
      match readFile disk one with
      | .error e => .error e
      | .ok (.dict d) => .ok ((dictGet d "mode").getD (.str "metrics_layer"))
      | .ok _ => .error .attributeError
    | _ => .ok (.str "metrics_layer")

/-- What `convert_mf_project_to_zenlytic_project` of another package makes of the dbt project in a folder, the profile and the profile again.
project_reader_metricflow.py 15-26. -/
abbrev MfConvert := PathText → Yaml → Yaml → Res (List FDef × List FDef)

/-- The name of the profile, project_reader_metricflow.py 13-22. -/
def mfProfile (disk : Disk) (r : RepoAt) (dbt : FDef) : Res Yaml :=
  match dictGet dbt "name" with
  | none => .error .keyError
  | some name =>
    match zenlyticProject disk r with
    | .error e => .error e
    | .ok z =>
      if z.truthy then
        match z with
        | .dict d => .ok ((dictGet d "profile").getD ((dictGet dbt "profile").getD name))
        | _ => .error .attributeError
      else .ok ((dictGet dbt "profile").getD name)

/-- `MetricflowProjectReader.load`, project_reader_metricflow.py 10-27. -/
def readMetricflow (conv : MfConvert) (disk : Disk) (r : RepoAt) : Res ReadIn :=
  match readIfExists disk (pathJoin (dbtFolder r) "dbt_project.yml".toList) with
  | .error e => .error e
  | .ok .null => .error .query
  | .ok (.dict dbt) =>
    match mfProfile disk r dbt with
    | .error e => .error e
    | .ok p =>
      match conv (dbtFolder r) p p with
      | .error e => .error e
      | .ok (ms, vs) => .ok ⟨ms, vs, [], [], []⟩
  | .ok _ => .error .typeError

/-- `ProjectLoader._load_project` up to the reading, project_loader.py 44-56. -/
def loadRepo (conv : MfConvert) (ord : SetOrder) (disk : Disk) (r : RepoAt) : Res ReadIn :=
  match repoType disk r with
  | .error e => .error e
  | .ok (.str "metricflow") => readMetricflow conv disk r
  | .ok (.str "metrics_layer") => readProject ord disk r
  | .ok _ => .error .typeError

/-- The reader's own lists `models`, `views` and `dashboards`: what `load` returns is not kept. project_reader_base.py 50-72. -/
def readerLists (ord : SetOrder) (disk : Disk) (r : RepoAt) : Res (List FDef × List FDef × List FDef) :=
  match readProject ord disk r with
  | .error e => .error e
  | .ok _ => .ok ([], [], [])

end ML
