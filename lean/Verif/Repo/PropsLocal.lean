import Verif.Repo.PropsKind
import Mathlib.Data.List.Dedup
/-
C70: a repository on a disk, its dbt project, and an example of everything.
-/
set_option autoImplicit false
namespace ML
open Spec

/-- C70. The dbt project of a repository is the repository itself when there is one in its folder, else the one folder in it, not hidden, that has
one, else the repository itself. -/
theorem C70_dbt (disk : Disk) (hd : RealDisk disk) (h : PathText) (base : List PathName) (hl : Leads h base) (hc : ∀ u, h ≠ u ++ "/".toList)
    (h0 : h ≠ []) :
    (∀ v, (base ++ ["dbt_project.yml".toList], v) ∈ disk → dbtPath disk (h ++ "/".toList) = h ++ "/".toList) ∧
    (∀ d v, (∀ v, (base ++ ["dbt_project.yml".toList], v) ∉ disk) → (base ++ [d, "dbt_project.yml".toList], v) ∈ disk → ¬ Hidden d →
      (∀ d' v', (base ++ [d', "dbt_project.yml".toList], v') ∈ disk → ¬ Hidden d' → d' = d) →
      dbtPath disk (h ++ "/".toList) = h ++ '/' :: d ++ "/".toList) ∧
    ((∀ d v, (base ++ [d, "dbt_project.yml".toList], v) ∈ disk → Hidden d) → dbtPath disk (h ++ "/".toList) = h ++ "/".toList) ∧
    (∀ d d' v v', d ≠ d' → (base ++ [d, "dbt_project.yml".toList], v) ∈ disk → (base ++ [d', "dbt_project.yml".toList], v') ∈ disk → ¬ Hidden d →
      ¬ Hidden d' → dbtPath disk (h ++ "/".toList) = h ++ "/".toList) := by
  have nm : IsName "dbt_project.yml".toList := ⟨by decide, by decide, by decide, by decide⟩
  have hr : resolvePath (h ++ "/".toList ++ "/dbt_project.yml".toList) = base ++ ["dbt_project.yml".toList] :=
    leads_resolve (hl.slash.name nm)
  have ex : fileExists disk (h ++ "/".toList ++ "/dbt_project.yml".toList) = true ↔ ∃ v, (base ++ ["dbt_project.yml".toList], v) ∈ disk := by
    unfold fileExists
    rw [hr, List.any_eq_true]
    constructor
    · rintro ⟨⟨pl, v⟩, hm, he⟩
      have he : pl = base ++ ["dbt_project.yml".toList] := of_decide_eq_true he
      exact ⟨v, he ▸ hm⟩
    · rintro ⟨v, hm⟩
      exact ⟨_, hm, decide_eq_true rfl⟩
  have hcut : Cut (h ++ "/".toList ++ ['/']) h [] base := ⟨⟨1, by simp [List.replicate], fun h => absurd h h0⟩, by simp, hc, hl⟩
  have hh : pathHead (h ++ "/".toList ++ ['/']) = h := by rw [pathHead_cut hcut, headText, if_neg h0]
  have hb : resolvePath (h ++ "/".toList) = base := leads_resolve hl.slash
  have join : ∀ d, IsName d → pathJoin h d = h ++ '/' :: d := by
    intro d hn
    have := pathJoin_head hc hn
    rw [headText, if_neg h0] at this
    exact this
  let F : List PathName × Res Yaml → Option PathText := fun file =>
    match placeBelow (resolvePath (h ++ "/".toList)) file.1 with
    | some [d, name] =>
      if !hiddenName d && decide (name = "dbt_project.yml".toList) then some (pathJoin (pathHead (h ++ "/".toList ++ ['/'])) d ++ ['/']) else none
    | _ => none
  have hF : ∀ pl v t, (pl, v) ∈ disk → F (pl, v) = some t → ∃ d, pl = base ++ [d, "dbt_project.yml".toList] ∧ ¬ Hidden d ∧ t = h ++ '/' :: d ++ "/".toList := by
    intro pl v t hm he
    simp only [F, hb] at he
    cases hpb : placeBelow base pl with
    | none => rw [hpb] at he; cases he
    | some rest =>
      rw [hpb] at he
      rw [placeBelow_iff] at hpb
      match rest, he, hpb with
      | [], he, _ => cases he
      | [_], he, _ => cases he
      | _ :: _ :: _ :: _, he, _ => cases he
      | [d, name], he, hpb =>
        simp only at he
        split at he
        · rename_i hif
          rw [Bool.and_eq_true, hiddenName_false, decide_eq_true_eq] at hif
          obtain ⟨h1, rfl⟩ := hif
          have hn : IsName d := hd.names _ _ hm d (by rw [hpb]; simp)
          rw [hh, join d hn] at he
          exact ⟨d, hpb, h1, (Option.some.inj he).symm⟩
        · cases he
  have hF' : ∀ d v, (base ++ [d, "dbt_project.yml".toList], v) ∈ disk → ¬ Hidden d →
      F (base ++ [d, "dbt_project.yml".toList], v) = some (h ++ '/' :: d ++ "/".toList) := by
    intro d v hm h1
    have hn : IsName d := hd.names _ _ hm d (by simp)
    simp only [F, hb]
    rw [(placeBelow_iff _ _ _).2 rfl]
    simp only
    rw [if_pos (by rw [Bool.and_eq_true, hiddenName_false]; exact ⟨h1, decide_eq_true trivial⟩), hh, join d hn]
    rfl
  have hmem : ∀ t, t ∈ disk.filterMap F ↔ ∃ d v, (base ++ [d, "dbt_project.yml".toList], v) ∈ disk ∧ ¬ Hidden d ∧ t = h ++ '/' :: d ++ "/".toList := by
    intro t
    rw [List.mem_filterMap]
    constructor
    · rintro ⟨⟨pl, v⟩, hm, he⟩
      obtain ⟨d, rfl, h1, h2⟩ := hF _ _ _ hm he
      exact ⟨d, v, hm, h1, h2⟩
    · rintro ⟨d, v, hm, h1, rfl⟩
      exact ⟨_, hm, hF' d v hm h1⟩
  have hnd : (disk.filterMap F).Nodup := by
    apply List.Nodup.of_map (fun t => resolvePath t ++ ["dbt_project.yml".toList])
    refine List.Nodup.sublist (sublist_filterMap (k := Prod.fst) ?_) hd.apart
    rintro ⟨pl, v⟩ hm t he
    obtain ⟨d, rfl, h1, rfl⟩ := hF _ _ _ hm he
    have hn : IsName d := hd.names _ _ hm d (by simp)
    rw [leads_resolve (hl.name hn).slash]
    simp
  have hdef : dbtPath disk (h ++ "/".toList) = if fileExists disk (h ++ "/".toList ++ "/dbt_project.yml".toList) then h ++ "/".toList
      else match disk.filterMap F with | [one] => one | _ => h ++ "/".toList := rfl
  have inj : ∀ d d' : PathName, h ++ '/' :: d ++ "/".toList = h ++ '/' :: d' ++ "/".toList → d = d' := by
    intro d d' e
    have := List.append_cancel_right e
    have := List.append_cancel_left this
    exact (List.cons.inj this).2
  refine ⟨?_, ?_, ?_, ?_⟩
  · intro v hm
    rw [hdef, if_pos (ex.2 ⟨v, hm⟩)]
  · intro d v hno hm hhid hu
    rw [hdef, if_neg (fun he => by obtain ⟨v, hv⟩ := ex.1 he; exact hno v hv)]
    have hin := (hmem (h ++ '/' :: d ++ "/".toList)).2 ⟨d, v, hm, hhid, rfl⟩
    have hall : ∀ t ∈ disk.filterMap F, t = h ++ '/' :: d ++ "/".toList := by
      intro t ht
      obtain ⟨d', v', hm', hh', rfl⟩ := (hmem t).1 ht
      rw [hu d' v' hm' hh']
    generalize disk.filterMap F = L at hnd hin hall
    match L, hnd, hin, hall with
    | [], _, hin, _ => cases hin
    | [a], _, _, hall => exact hall a (by simp)
    | a :: b :: L, hnd, _, hall =>
      rw [List.nodup_cons] at hnd
      exact absurd (by simp [hall a (by simp), hall b (by simp)]) hnd.1
  · intro hno
    have : disk.filterMap F = [] := by
      rw [List.eq_nil_iff_forall_not_mem]
      intro t ht
      obtain ⟨d, v, hm, h1, _⟩ := (hmem t).1 ht
      exact h1 (hno d v hm)
    rw [hdef, this]
    split <;> rfl
  · intro d d' v v' hne hm hm' h1 h2
    rw [hdef]
    split
    · rfl
    · have a := (hmem _).2 ⟨d, v, hm, h1, rfl⟩
      have b := (hmem _).2 ⟨d', v', hm', h2, rfl⟩
      generalize disk.filterMap F = L at a b
      match L, a, b with
      | [], a, _ => cases a
      | [x], a, b =>
        rw [List.mem_singleton] at a b
        exact absurd (inj _ _ (a.trans b.symm)) hne
      | _ :: _ :: _, _, _ => rfl

/-- C70. A repository on a disk is in the folder given, seen from the working directory. -/
theorem C70_local (disk : Disk) (cwd : PathText) (path : PathText) (kind : Option String) :
    ((∃ cs, path = '/' :: cs) → (localRepo disk cwd path kind).folder = path ++ "/".toList) ∧
    ((¬ ∃ cs, path = '/' :: cs) → (∀ u, cwd ≠ u ++ "/".toList) → cwd ≠ [] →
      (localRepo disk cwd path kind).folder = cwd ++ '/' :: path ++ "/".toList) ∧
    (localRepo disk cwd path kind).kind = kind ∧ (localRepo disk cwd path kind).dbt = some (dbtPath disk (localRepo disk cwd path kind).folder) := by
  refine ⟨?_, ?_, rfl, rfl⟩
  · rintro ⟨cs, rfl⟩
    rfl
  · intro h1 h2 h3
    unfold localRepo pathJoin
    simp only
    rw [if_neg, if_neg]
    · rfl
    · rintro (h | h)
      · exact h3 h
      · obtain ⟨a, ha⟩ := List.getLast?_eq_some_iff.1 h
        exact h2 a ha
    · intro h
      cases path with
      | nil => cases h
      | cons x p => simp at h; exact h1 ⟨p, by rw [h]⟩

/-- An order. -/
def exOrder : SetOrder := ⟨List.dedup, List.nodup_dedup, fun _ _ => List.mem_dedup⟩

/-- A place. -/
def exPlace (l : List String) : List PathName := l.map String.toList

/-- A project as it is started, with a view in a subfolder and one in another folder. -/
def exDisk : Disk := [
  (exPlace ["p", "zenlytic_project.yml"], .ok (.dict [("name", .str "shop"), ("model-paths", .list [.str "models"]), ("view-paths", .list [.str "views"])])),
  (exPlace ["p", "models", "m.yml"], .ok (.dict [("type", .str "model"), ("name", .str "m")])),
  (exPlace ["p", "views", "orders.yml"], .ok (.dict [("type", .str "view"), ("name", .str "orders")])),
  (exPlace ["p", "views", "finance", "costs.yml"], .ok (.dict [("type", .str "view"), ("name", .str "costs")])),
  (exPlace ["p", "views_old", "orders.yml"], .ok (.dict [("type", .str "view"), ("name", .str "orders")])),
  (exPlace ["p", "views", "notes.yaml"], .ok (.dict [("name", .str "notes")]))]

/-- The repository of the example. -/
def exRepo : RepoAt := localRepo exDisk "/".toList "p".toList none

/-- The names and the paths of what is read. -/
def readNames (l : List FDef) : List (Option String × Option String) :=
  l.map fun d => ((dictGet d "name").bind Yaml.text?, (dictGet d "_file_path").bind Yaml.text?)

/-- The view in the subfolder is missed and the one in the other folder is read. -/
example : (readProject exOrder exDisk exRepo).toOption.map (fun o => (readNames o.models, readNames o.views, o.noType.map String.ofList)) =
    some ([(some "m", some "models/m.yml")], [(some "orders", some "views/orders.yml"), (some "orders", some "views_old/orders.yml")],
      ["/p/views/notes.yaml"]) := by decide +kernel

/-- With slashes at the ends of the folders it is as one expects. -/
example : (yamlFiles exOrder exDisk ["/p/models/".toList, "/p/views/".toList]).map String.ofList =
    ["/p/models/m.yml", "/p/views/orders.yml", "/p/views/finance/costs.yml", "/p/views/notes.yaml"] := by decide +kernel

/-- The same folder twice, in two ways. -/
example : (yamlFiles exOrder exDisk ["/p/models/".toList, "/p/./models/".toList]).map String.ofList = ["/p/models/m.yml", "/p/./models/m.yml"] := by
  decide +kernel

/-- The example has what the theorems ask for. -/
example : RealDisk exDisk ∧ RealRepo exRepo ∧ exRepo.folder = "/p".toList ++ "/".toList ∧ Leads "/p".toList (exPlace ["p"]) ∧
    ProjectFile exDisk exRepo (.dict [("name", .str "shop"), ("model-paths", .list [.str "models"]), ("view-paths", .list [.str "views"])]) ∧
    repoType.searched exDisk exRepo = .ok (.str "metrics_layer") := by
  have hp : Leads "/p".toList (exPlace ["p"]) := Leads.root.name ⟨by decide, by decide, by decide, by decide⟩
  have hf : exRepo.folder = "/p".toList ++ "/".toList := by decide +kernel
  have hdb : exRepo.dbt = some ("/p".toList ++ "/".toList) := by decide +kernel
  refine ⟨⟨?_, by decide +kernel⟩, ⟨⟨_, _, hf, hp⟩, ?_⟩, hf, hp, .own ⟨exPlace ["p", "zenlytic_project.yml"], ?_, ?_⟩ ?_, ?_⟩
  · intro place c hm p hx
    have all : exDisk.all (fun f => f.1.all fun p => decide (p ≠ []) && decide ('/' ∉ p) && decide (p ≠ ".".toList) && decide (p ≠ "..".toList)) = true := by
      decide +kernel
    rw [List.all_eq_true] at all
    have := all _ hm
    rw [List.all_eq_true] at this
    have := this p hx
    simp only [Bool.and_eq_true, decide_eq_true_eq] at this
    exact ⟨this.1.1.1, this.1.1.2, this.1.2, this.2⟩
  · intro u hu
    rw [hdb] at hu
    cases hu
    exact ⟨_, _, rfl, hp⟩
  · rw [hf]
    exact hp.name ⟨by decide, by decide, by decide, by decide⟩
  · exact List.mem_cons_self
  · intro h; cases h
  · have h : ∀ x : Res Yaml, (∃ y, x = .ok y ∧ y.text? = some "metrics_layer") → x = .ok (.str "metrics_layer") := by
      rintro x ⟨y, rfl, hy⟩
      rw [text_some hy]
    have : (match repoType.searched exDisk exRepo with | .ok y => y.text? | .error _ => none) = some "metrics_layer" := by decide +kernel
    apply h
    cases hx : repoType.searched exDisk exRepo with
    | error e => rw [hx] at this; cases this
    | ok y => rw [hx] at this; exact ⟨y, rfl, this⟩

end ML
