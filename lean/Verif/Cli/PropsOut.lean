import Verif.Cli.PropsLoad
import Verif.Connect.PropsExec
import Verif.Connect.PropsHand
/-
C72: what the commands print.
-/
set_option autoImplicit false
namespace ML
open Spec

theorem cliItems_things {env : CliEnv} {view : Option String} {hidden : Bool} {type : String} {names : List String}
    (h : Things env view hidden type names) : cliItems env type view hidden = .ok (some names) := by
  rcases h with ⟨rfl, h⟩ | ⟨rfl, h⟩ | ⟨rfl, h⟩ | ⟨fs, hf, ⟨rfl, rfl⟩ | ⟨rfl, rfl⟩ | ⟨rfl, rfl⟩⟩
  · show env.models.map some = _
    rw [h]; rfl
  · show env.connections.map some = _
    rw [h]; rfl
  · show env.views.map some = _
    rw [h]; rfl
  · show (listFields env _ view hidden).map some = _
    unfold listFields
    rw [hf]
    show Except.ok (some ((fs.filter fun _ => true).map (·.name))) = _
    rw [List.filter_eq_self.2 (fun _ _ => rfl)]
  · show (listFields env _ view hidden).map some = _
    unfold listFields
    rw [hf]
    rfl
  · show (listFields env _ view hidden).map some = _
    unfold listFields
    rw [hf]
    show Except.ok (some ((fs.filter fun f => f.fieldType = "dimension" || f.fieldType = "dimension_group").map (·.name))) = _
    have : (fs.filter fun f => f.fieldType = "dimension" || f.fieldType = "dimension_group") =
        fs.filter fun f => decide (f.fieldType = "dimension" ∨ f.fieldType = "dimension_group") := by
      apply List.filter_congr
      intro f _
      rw [Bool.decide_or]
    rw [this]

/-- C72. `list` says how many there are and prints the name of each on a line of its own, in their order; it says so when there are none. -/
theorem C72_list (env : CliEnv) (view : Option String) (hidden : Bool) (type : String) (names : List String)
    (h : Things env view hidden type names) :
    (names = [] → cliList env type view hidden = .ok ["Could not find any " ++ type]) ∧
    (∀ n, names = [n] → cliList env type view hidden = .ok ["Found 1 " ++ oneOf type ++ ":\n", n]) ∧
    (2 ≤ names.length → cliList env type view hidden = .ok (("Found " ++ toString names.length ++ " " ++ type ++ ":\n") :: names)) := by
  have hi := cliItems_things h
  have single : String.ofList type.toList.dropLast = oneOf type := by
    rcases h with ⟨rfl, -⟩ | ⟨rfl, -⟩ | ⟨rfl, -⟩ | ⟨fs, -, ⟨rfl, -⟩ | ⟨rfl, -⟩ | ⟨rfl, -⟩⟩ <;> decide +kernel
  unfold cliList
  rw [hi]
  refine ⟨?_, ?_, ?_⟩
  · rintro rfl; rfl
  · rintro n rfl
    show Except.ok [("Found " ++ toString 1 ++ " " ++ (if 1 > 1 then type else String.ofList type.toList.dropLast)) ++ ":\n", n] = _
    rw [if_neg (by decide), single]
    rfl
  · intro hn
    match names, hn with
    | a :: b :: l, _ =>
      show Except.ok ((("Found " ++ toString (a :: b :: l).length ++ " " ++
        (if (a :: b :: l).length > 1 then type else String.ofList type.toList.dropLast)) ++ ":\n") :: a :: b :: l) = _
      rw [if_pos (by simp)]

/-- C72. What `list` does with other words: the profiles can not be listed, and an unknown type is complained about. -/
theorem C72_list_unknown (env : CliEnv) (view : Option String) (hidden : Bool) :
    cliList env "profiles" view hidden = .error .notImplemented ∧
    (∀ type, type ∉ ["models", "connections", "views", "fields", "dimensions", "metrics", "profiles"] →
      cliList env type view hidden = .ok ["Could not find the type " ++ type ++
        ", please use one of the options: models, connections, views, fields, metrics, dimensions"]) := by
  refine ⟨rfl, fun type ht => ?_⟩
  simp only [List.mem_cons, List.not_mem_nil, or_false, not_or] at ht
  obtain ⟨h1, h2, h3, h4, h5, h6, h7⟩ := ht
  unfold cliList cliItems
  rw [if_neg h1, if_neg h2, if_neg h3, if_neg h4, if_neg h5, if_neg h6, if_neg h7]
  rfl

/-- C72. Every field is listed either as a metric or as a dimension. -/
theorem C72_list_split (env : CliEnv) (view : Option String) (hidden : Bool) (fs : List ListedField) (h : env.fields view hidden = .ok fs)
    (ht : ∀ f ∈ fs, f.fieldType = "measure" ∨ f.fieldType = "dimension" ∨ f.fieldType = "dimension_group") :
    ∃ all ms ds, Things env view hidden "fields" all ∧ Things env view hidden "metrics" ms ∧ Things env view hidden "dimensions" ds ∧
      (ms ++ ds).Perm all := by
  refine ⟨_, _, _, .inr (.inr (.inr ⟨fs, h, .inl ⟨rfl, rfl⟩⟩)), .inr (.inr (.inr ⟨fs, h, .inr (.inl ⟨rfl, rfl⟩)⟩)),
    .inr (.inr (.inr ⟨fs, h, .inr (.inr ⟨rfl, rfl⟩)⟩)), ?_⟩
  rw [← List.map_append]
  apply List.Perm.map
  have hne : fs.filter (fun f => decide (f.fieldType = "dimension" ∨ f.fieldType = "dimension_group")) =
      fs.filter (fun f => !decide (f.fieldType = "measure")) := by
    apply List.filter_congr
    intro f hf
    rcases ht f hf with h | h | h <;> rw [h] <;> decide
  rw [hne]
  exact List.filter_append_perm _ fs

/-- C72. `validate` says that the project passed exactly when there is nothing to report; otherwise it prints the number of the problems and every one
of them, in their order. -/
theorem C72_validate (es : List String) (models : Nat) :
    (∀ m, es = [] → models = m → ∃ line, cliValidate (.ok es) models = .ok ([line], 0) ∧
      line = "Project passed (checked " ++ toString m ++ " model" ++ (if m > 1 then "s" else "") ++ ")!") ∧
    (es ≠ [] → ∃ first, cliValidate (.ok es) models = .ok (first :: es.map (fun e => "\n" ++ e ++ "\n"), 0) ∧
      first = "Found " ++ toString es.length ++ " error" ++ (if es.length > 1 then "s" else "") ++ " in the project:\n") ∧
    (∀ e, cliValidate (.error e) models = .error e) := by
  refine ⟨?_, ?_, fun e => rfl⟩
  · rintro m rfl rfl
    exact ⟨_, rfl, rfl⟩
  · intro hn
    cases es with
    | nil => exact absurd rfl hn
    | cons a l => exact ⟨_, rfl, rfl⟩

/-- C72, against the claim: the status of `validate` is that of success, whether there are problems or not. -/
theorem C72_validate_status (es : List String) (models : Nat) : ∃ lines, cliValidate (.ok es) models = .ok (lines, 0) := by
  cases es with
  | nil => exact ⟨_, rfl⟩
  | cons a l => exact ⟨_, rfl⟩

/-- C72. What `show` prints: every attribute, in order, a list with one line for each of its elements. A connection that is not there is shown as nothing
at all, and without a type, or with another one, it is only complained. -/
theorem C72_show (render : Yaml → String) (found : String → Res (Option Kw)) (type name : String) :
    (type ∈ ["model", "connection", "view", "field", "dimension", "metric"] →
      (∀ a, found type = .ok (some a) → ∃ lines, cliShow render found type name = .ok lines ∧
        lines = ("Attributes in " ++ type ++ " " ++ name ++ ":\n") :: (a.map fun p =>
          match p.2 with
          | .list (x :: xs) => ("  " ++ p.1 ++ ":") :: (x :: xs).map fun y => "    " ++ render y
          | v => ["  " ++ p.1 ++ ": " ++ render v]).flatten) ∧
      (found type = .ok none → cliShow render found type name = .ok []) ∧
      (∀ e, found type = .error e → cliShow render found type name = .error e)) ∧
    (type ∉ ["model", "connection", "view", "field", "dimension", "metric"] → ∃ line, cliShow render found type name = .ok [line]) := by
  have hm : type ∈ ["model", "connection", "view", "field", "dimension", "metric"] ↔
      (type = "model" ∨ type = "connection" ∨ type = "view" ∨ type = "field" ∨ type = "dimension" ∨ type = "metric") := by simp
  unfold cliShow
  constructor
  · intro ht
    rw [if_pos (hm.1 ht)]
    refine ⟨fun a ha => ⟨_, by rw [ha]; rfl, ?_⟩, fun ha => by rw [ha]; rfl, fun e he => by rw [he]; rfl⟩
    show _ :: a.flatMap (showLines render) = _
    rw [List.flatMap_def]
    rfl
  · intro ht
    rw [if_neg (fun h => ht (hm.2 h))]
    exact ⟨_, rfl⟩

/-- C72. **Nothing secret is printed** by `debug` and by `show` of a connection: the lines are the same for every value of the secrets. What the warehouse
says when the test of the connection fails is not covered. -/
theorem C72_no_secret (E : CredEnv) (render : Yaml → String) (a b : Kw) (h : DifferInSecrets a b)
    (hq : ∀ t, dictGet a "type" = some (.str t) → upper t ≠ "BIGQUERY") (name : String) :
    ((loadOne E (.dict a)).bind (debugAttributes render)) = ((loadOne E (.dict b)).bind (debugAttributes render)) ∧
    cliShow render (fun _ => ((loadOne E (.dict a)).bind Conn.printable).map some) "connection" name =
      cliShow render (fun _ => ((loadOne E (.dict b)).bind Conn.printable).map some) "connection" name := by
  have hp := (C66_secrets E render a b h hq).1
  constructor
  · have e : ∀ r : Res Conn, r.bind (debugAttributes render) = (r.bind Conn.printable).map fun a => a.map fun p => "  " ++ p.1 ++ ": " ++ render p.2 := by
      intro r
      cases r <;> rfl
    rw [e, e, hp]
  · rw [hp]

/-- C72. `debug` tests every connection once and reports on each, in their order; that one fails does not keep the others from being tested. -/
theorem C72_debug (test : Conn → Option String) (name : Conn → String) (conns : List Conn) :
    List.Forall₂ (fun c line => (test c = none → line = "\nConnection " ++ name c ++ " test: OK connection ok") ∧
      ∀ e, test c = some e → line = "\nConnection " ++ name c ++ " test: Failed with:\n\n " ++ e) conns (debugTests test name conns) := by
  unfold debugTests
  induction conns with
  | nil => exact .nil
  | cons c l ih =>
    refine .cons ⟨?_, ?_⟩ ih
    · intro h
      beta_reduce
      rw [h]
      simp only [String.append_assoc]
      rfl
    · intro e h
      beta_reduce
      rw [h]
      simp only [String.append_assoc]
      rfl

/-- C72. The connection to seed from is the one of the profile, under the name of the profile; any other name raises an AttributeError. -/
theorem C72_seed_connection (E : CredEnv) (profiles : Option (List (String × Kw))) (dir profile : String) (target : Option String) (raws : List RawConn)
    (conns : List Conn) (hr : profileConnections profiles dir profile target = .ok raws) (hc : loadConnections E raws = .ok conns) :
    ∃ c, conns = [c] ∧ cliConnection conns none = .ok c ∧ (∀ n, n ≠ "" → (cliConnection conns (some n) = .ok c ↔ n = profile)) ∧
      ∀ n, n ≠ "" → n ≠ profile → cliConnection conns (some n) = .error .attributeError := by
  obtain ⟨_, _, _, _, _, a, _, _, _, _, _, rfl, hn, _, _⟩ := (C66_profile profiles dir profile target).1 raws hr
  have hf := C66_load E _ conns hc
  rcases hf with _ | ⟨h1, h2⟩
  cases h2
  rename_i c
  have hname : dictGet c.attrs "name" = some (.str profile) := by
    obtain ⟨_, n, _, h3, _, h4, _⟩ := h1
    rw [hn] at h3
    cases h3
    exact h4
  have called : ∀ n, c.called (some n) = decide (profile = n) := by
    intro n
    unfold Conn.called
    rw [hname]
  have look : ∀ n, n ≠ "" → cliConnection [c] (some n) = if profile = n then .ok c else .error .attributeError := by
    intro n hne
    unfold cliConnection findConn
    simp only
    rw [if_neg hne, List.find?_cons, called]
    by_cases h : profile = n
    · rw [if_pos h, decide_eq_true h]
    · rw [if_neg h, decide_eq_false h]
      rfl
  refine ⟨c, rfl, rfl, fun n hne => ?_, fun n hne hp => ?_⟩
  · rw [look n hne]
    by_cases h : profile = n
    · rw [if_pos h]
      exact ⟨fun _ => h.symm, fun _ => rfl⟩
    · rw [if_neg h]
      exact ⟨fun hc => (by cases hc), fun hc => absurd hc.symm h⟩
  · rw [look n hne, if_neg (Ne.symm hp)]

/-- A folder with an old project file and a file called `views`. -/
def exWork : WorkDir where
  files := [(exPlace ["p", "zenlytic_project.yml"], .ok (.dict [("name", .str "shop"), ("profile", .str "shop"), ("view-paths", .list [.str "all"])])),
    (exPlace ["p", "views"], .ok .null), (exPlace ["p", "all", "orders.yml"], .ok (.dict [("type", .str "view"), ("name", .str "orders")]))]
  dirs := [exPlace ["p"], exPlace ["p", "all"]]

/-- A folder in a dbt project. -/
def exDbtWork : WorkDir where
  files := [(exPlace ["p", "dbt_project.yml"], .ok (.dict [("name", .str "shop"), ("profile", .str "prod")]))]
  dirs := [exPlace ["p"]]

theorem exWork_real : RealDisk exWork.files ∧ RealDisk exDbtWork.files := by
  have names : ∀ d : Disk, d.all (fun f => f.1.all fun p => decide (p ≠ []) && decide ('/' ∉ p) && decide (p ≠ ".".toList) && decide (p ≠ "..".toList)) = true →
      ∀ place c, (place, c) ∈ d → ∀ p ∈ place, IsName p := by
    intro d hall place c hm p hp
    rw [List.all_eq_true] at hall
    have := hall _ hm
    rw [List.all_eq_true] at this
    have := this p hp
    simp only [Bool.and_eq_true, decide_eq_true_eq] at this
    exact ⟨this.1.1.1, this.1.1.2, this.1.2, this.2⟩
  exact ⟨⟨names _ (by decide +kernel), by decide +kernel⟩, ⟨names _ (by decide +kernel), by decide +kernel⟩⟩

theorem exHere : Leads "/p".toList (exPlace ["p"]) := Leads.root.name ⟨by decide, by decide, by decide, by decide⟩

/-- The hypotheses of the theorems about `init` can be met: outside a dbt project and in one. The paths of the views the project file named before are
lost. -/
example : NothingAt exWork (exPlace ["p"] ++ ["dbt_project.yml".toList]) ∧
    FileAt exDbtWork (exPlace ["p"] ++ ["dbt_project.yml".toList]) (.ok (.dict [("name", .str "shop"), ("profile", .str "prod")])) ∧
    FileAt exWork (exPlace ["p", "zenlytic_project.yml"]) (.ok (.dict [("name", .str "shop"), ("profile", .str "shop"), ("view-paths", .list [.str "all"])])) ∧
    FileAt (cliInit "/p".toList exWork).1 (exPlace ["p", "zenlytic_project.yml"]) (.ok (.dict newProject)) ∧
    cliProfile "/p".toList exWork = .ok (.str "shop") ∧ cliProfile "/p".toList (cliInit "/p".toList exWork).1 = .ok (.str "my_dbt_profile") := by
  have hn : NothingAt exWork (exPlace ["p"] ++ ["dbt_project.yml".toList]) := by
    constructor
    · intro v hv
      have h1 : exPlace ["p"] ++ ["dbt_project.yml".toList] ∈ exWork.files.map Prod.fst := List.mem_map.2 ⟨_, hv, rfl⟩
      exact absurd h1 (by decide +kernel)
    · decide +kernel
  have h1 := C72_init "/p".toList _ exHere exWork hn
  have hreal : RealDisk (cliInit "/p".toList exWork).1.files := by
    have hp : projectFile "/p".toList exWork = .ok newProject := by
      unfold projectFile
      have : inDbtProject "/p".toList exWork = false := noneAt_read (dbt_place exHere) hn
      rw [this]
      rfl
    rw [init_state exHere exWork _ hp]
    exact realDisk_put (realDisk_put exWork_real.1 (zen_names exHere) _) (zen_names exHere) _
  have hnew : FileAt (cliInit "/p".toList exWork).1 (exPlace ["p"] ++ ["zenlytic_project.yml".toList]) (.ok (.dict newProject)) := (h1.2.written _).2 rfl
  refine ⟨hn, List.mem_cons_self, List.mem_cons_self, hnew, ?_, ?_⟩
  · exact (C72_profile "/p".toList _ exHere exWork exWork_real.1).1 _ _ List.mem_cons_self rfl
  · exact (C72_profile "/p".toList _ exHere _ hreal).1 _ _ hnew rfl

/-- A file called `views` keeps the folder from being made, and `init` does not notice. -/
example : exPlace ["p", "views"] ∉ (cliInit "/p".toList exWork).1.dirs ∧ exPlace ["p", "models"] ∈ (cliInit "/p".toList exWork).1.dirs ∧
    (cliInit "/p".toList exWork).2 = .ok () := by
  refine ⟨by decide +kernel, by decide +kernel, rfl⟩

/-- The lists of an example. -/
def exCli : CliEnv where
  models := .ok ["shop"]
  connections := .ok []
  views := .ok ["orders", "customers"]
  fields := fun _ _ => .ok [⟨"id", "dimension"⟩, ⟨"total", "measure"⟩, ⟨"created", "dimension_group"⟩]

/-- What is listed of them. -/
example : cliList exCli "models" none false = .ok ["Found 1 model:\n", "shop"] ∧ cliList exCli "connections" none false = .ok ["Could not find any connections"] ∧
    cliList exCli "views" none false = .ok ["Found 2 views:\n", "orders", "customers"] ∧
    cliList exCli "dimensions" none false = .ok ["Found 2 dimensions:\n", "id", "created"] := by
  refine ⟨?_, ?_, ?_, ?_⟩
  · exact (C72_list exCli none false "models" _ (.inl ⟨rfl, rfl⟩)).2.1 _ rfl
  · exact (C72_list exCli none false "connections" _ (.inr (.inl ⟨rfl, rfl⟩))).1 rfl
  · exact (C72_list exCli none false "views" _ (.inr (.inr (.inl ⟨rfl, rfl⟩)))).2.2 (by decide)
  · exact (C72_list exCli none false "dimensions" _ (.inr (.inr (.inr ⟨_, rfl, .inr (.inr ⟨rfl, rfl⟩)⟩)))).2.2 (by decide)

end ML
