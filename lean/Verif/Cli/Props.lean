import Verif.Cli.Spec
import Verif.Repo.PropsLocal
/-
C72: `init`, interrupted and repeated; the profile.
-/
set_option autoImplicit false
namespace ML
open Spec

theorem mem_putFile (d : Disk) (place q : List PathName) (v : Yaml) (x : Res Yaml) :
    (q, x) ∈ putFile d place v ↔ (q = place ∧ x = .ok v) ∨ (q ≠ place ∧ (q, x) ∈ d) := by
  unfold putFile
  simp only [List.mem_cons, Prod.mk.injEq, List.mem_filter, ne_eq, decide_not, Bool.not_eq_true', decide_eq_false_iff_not]
  tauto

theorem has_iff (w : WorkDir) {t : PathText} {place : List PathName} (h : resolvePath t = place) :
    w.has t = true ↔ ¬ NothingAt w place := by
  unfold WorkDir.has fileExists NothingAt FileAt
  rw [h, Bool.or_eq_true, List.any_eq_true, decide_eq_true_eq]
  constructor
  · rintro (⟨⟨q, v⟩, hm, he⟩ | h1) ⟨h2, h3⟩
    · have he : q = place := of_decide_eq_true he
      exact h2 v (he ▸ hm)
    · exact h3 h1
  · intro hn
    by_cases hd : place ∈ w.dirs
    · exact .inr hd
    · left
      by_contra hc
      refine hn ⟨fun v hv => hc ⟨(place, v), hv, by simp⟩, hd⟩

/-- A path is where one is. -/
theorem join_name {cwd : PathText} {base : List PathName} (hl : Leads cwd base) {n : PathName} (hn : IsName n) :
    resolvePath (pathJoin cwd n) = base ++ [n] := by
  unfold pathJoin
  have hh : n.head? ≠ some '/' := by
    intro hc
    cases n with
    | nil => cases hc
    | cons a l => simp at hc; exact hn.whole (by rw [hc]; simp)
  rw [if_neg hh]
  split_ifs with hc
  · rcases hc with rfl | hc
    · have := leads_unique hl .root
      subst this
      have hw := hn.whole
      show resolvePath n = [n]
      unfold resolvePath
      rw [splitChars_noSep '/' n hw]
      exact resolveStep_name hn
    · obtain ⟨a, rfl⟩ := List.getLast?_eq_some_iff.1 hc
      have hb : resolvePath (a ++ ['/']) = base := leads_resolve hl
      have e : a ++ ['/'] ++ n = a ++ '/' :: n := by simp
      rw [e, resolvePath_name a hn.whole, resolveStep_name hn]
      have : resolvePath (a ++ ['/']) = resolvePath a := by
        rw [resolvePath_name a (p := []) (by simp)]
        rfl
      rw [← this, hb]
  · exact leads_resolve (hl.name hn)

theorem mkdirs_run {cwd : PathText} {base : List PathName} (hl : Leads cwd base) (names : List String) (hn : ∀ n ∈ names, IsName n.toList) :
    ∀ w : WorkDir, (runSteps w (names.map fun n => .mkdir (pathJoin cwd n.toList))).files = w.files ∧
      ∀ place, place ∈ (runSteps w (names.map fun n => .mkdir (pathJoin cwd n.toList))).dirs ↔
        place ∈ w.dirs ∨ (place ∈ names.map (fun n => base ++ [n.toList]) ∧ NothingAt w place) := by
  induction names with
  | nil => intro w; exact ⟨rfl, fun place => by simp [runSteps]⟩
  | cons n names ih =>
    intro w
    have hr := join_name hl (hn n (by simp))
    obtain ⟨i1, i2⟩ := ih (fun m hm => hn m (by simp [hm])) (CliStep.run w (.mkdir (pathJoin cwd n.toList)))
    have hrun : CliStep.run w (.mkdir (pathJoin cwd n.toList)) = if w.has (pathJoin cwd n.toList) then w else { w with dirs := (base ++ [n.toList]) :: w.dirs } := by
      show (if w.has (pathJoin cwd n.toList) then w else _) = _
      rw [hr]
    change (runSteps (CliStep.run w (.mkdir (pathJoin cwd n.toList))) _).files = _ ∧ ∀ place, place ∈ (runSteps (CliStep.run w (.mkdir (pathJoin cwd n.toList))) _).dirs ↔ _
    rw [i1]
    by_cases hh : w.has (pathJoin cwd n.toList) = true
    · rw [if_pos hh] at hrun
      rw [hrun] at i2 ⊢
      refine ⟨rfl, fun place => ?_⟩
      rw [i2 place]
      have hx := (has_iff w hr).1 hh
      rw [List.map_cons, List.mem_cons]
      constructor
      · rintro (h | ⟨h1, h2⟩)
        · exact .inl h
        · exact .inr ⟨.inr h1, h2⟩
      · rintro (h | ⟨rfl | h1, h2⟩)
        · exact .inl h
        · exact absurd h2 hx
        · exact .inr ⟨h1, h2⟩
    · rw [if_neg hh] at hrun
      rw [hrun] at i2 ⊢
      refine ⟨rfl, fun place => ?_⟩
      rw [i2 place]
      have hx : NothingAt w (base ++ [n.toList]) := by
        by_contra hc
        exact hh ((has_iff w hr).2 hc)
      rw [List.map_cons, List.mem_cons]
      unfold NothingAt FileAt
      simp only [List.mem_cons]
      constructor
      · rintro ((rfl | h) | ⟨h1, h2, h3⟩)
        · exact .inr ⟨.inl rfl, hx⟩
        · exact .inl h
        · exact .inr ⟨.inr h1, h2, fun h => h3 (.inr h)⟩
      · rintro (h | ⟨rfl | h1, h2⟩)
        · exact .inl (.inr h)
        · exact .inl (.inl rfl)
        · by_cases he : place = base ++ [n.toList]
          · exact .inl (.inl he)
          · exact .inr ⟨h1, h2.1, fun h => h.elim he h2.2⟩

theorem dbt_place {cwd : PathText} {base : List PathName} (hl : Leads cwd base) : resolvePath (cliDbtPath cwd) = base ++ ["dbt_project.yml".toList] := by
  have nm : IsName "dbt_project.yml".toList := ⟨by decide, by decide, by decide, by decide⟩
  unfold cliDbtPath pathJoin
  rw [if_neg (by decide)]
  split_ifs with hc
  · rcases hc with rfl | hc
    · have := leads_unique hl .root
      subst this
      decide
    · obtain ⟨a, rfl⟩ := List.getLast?_eq_some_iff.1 hc
      have hb : resolvePath (a ++ ['/']) = base := leads_resolve hl
      have h1 : resolvePath (a ++ ['/']) = resolvePath a := by
        rw [resolvePath_name a (p := []) (by simp)]
        rfl
      have e : a ++ ['/'] ++ "./dbt_project.yml".toList = (a ++ '/' :: ['.']) ++ '/' :: "dbt_project.yml".toList := by simp
      rw [e, resolvePath_name _ nm.whole, resolveStep_name nm, resolvePath_name a (p := ['.']) (by simp)]
      have : resolveStep (resolvePath a) ['.'] = resolvePath a := rfl
      rw [this, ← h1, hb]
  · have e : cwd ++ '/' :: "./dbt_project.yml".toList = (cwd ++ "/.".toList) ++ '/' :: "dbt_project.yml".toList := by simp
    rw [e]
    exact leads_resolve ((hl.dot).name nm)

/-- The folders of a new project. -/
theorem folderNames : ∀ n ∈ (["models", "views", "dashboards"] : List String), IsName n.toList := by
  intro n hn
  simp only [List.mem_cons, List.not_mem_nil, or_false] at hn
  rcases hn with rfl | rfl | rfl <;> exact ⟨by decide, by decide, by decide, by decide⟩

theorem inDbt_iff {cwd : PathText} {base : List PathName} (hl : Leads cwd base) (w : WorkDir) :
    inDbtProject cwd w = true ↔ ¬ NothingAt w (base ++ ["dbt_project.yml".toList]) := has_iff w (dbt_place hl)

/-- The folders `init` makes. -/
def initNames (dbt : Bool) : List String := if dbt then ["dashboards"] else ["models", "views", "dashboards"]

theorem initFolders_eq (cwd : PathText) (w : WorkDir) :
    initFolders cwd w = (initNames (inDbtProject cwd w)).map fun n => .mkdir (pathJoin cwd n.toList) := rfl

theorem initNames_ok (b : Bool) : ∀ n ∈ initNames b, IsName n.toList := by
  intro n hn
  apply folderNames
  cases b
  · exact hn
  · simp only [initNames, if_true, List.mem_singleton] at hn
    subst hn
    simp

/-- Making the folders makes no dbt project. -/
theorem inDbt_after {cwd : PathText} {base : List PathName} (hl : Leads cwd base) (w : WorkDir) (names : List String) (hn : ∀ n ∈ names, IsName n.toList)
    (hd : "dbt_project.yml" ∉ names) :
    inDbtProject cwd (runSteps w (names.map fun n => .mkdir (pathJoin cwd n.toList))) = inDbtProject cwd w := by
  obtain ⟨h1, h2⟩ := mkdirs_run hl names hn w
  rw [Bool.eq_iff_iff, inDbt_iff hl, inDbt_iff hl]
  unfold NothingAt FileAt
  rw [h1, h2]
  have : base ++ ["dbt_project.yml".toList] ∉ names.map (fun n => base ++ [n.toList]) := by
    intro hm
    obtain ⟨n, hn1, hn2⟩ := List.mem_map.1 hm
    have := List.append_cancel_left hn2
    have : n.toList = "dbt_project.yml".toList := by simpa using this
    exact hd (String.toList_inj.1 this ▸ hn1)
  tauto

theorem projectFile_after {cwd : PathText} {base : List PathName} (hl : Leads cwd base) (w : WorkDir) :
    projectFile cwd (runSteps w (initFolders cwd w)) = projectFile cwd w := by
  rw [initFolders_eq]
  have hn := initNames_ok (inDbtProject cwd w)
  have hd : "dbt_project.yml" ∉ initNames (inDbtProject cwd w) := by cases inDbtProject cwd w <;> decide
  unfold projectFile
  rw [inDbt_after hl w _ hn hd, (mkdirs_run hl _ hn w).1]

theorem readFile_mem {d : Disk} {t : PathText} {place : List PathName} (ht : resolvePath t = place) {v : Yaml} (h : readFile d t = .ok v) :
    (place, .ok v) ∈ d := by
  unfold readFile at h
  rw [ht] at h
  cases hf : d.find? (fun f => f.1 = place) with
  | none => rw [hf] at h; cases h
  | some f =>
    obtain ⟨q, y⟩ := f
    rw [hf] at h
    have h1 : q = place := by simpa using List.find?_some hf
    subst h1
    have hy : y = .ok v := h
    subst hy
    exact List.mem_of_find?_eq_some hf

theorem readFile_is {d : Disk} (hd : RealDisk d) {t : PathText} {place : List PathName} (ht : resolvePath t = place) {v : Res Yaml}
    (h : (place, v) ∈ d) : readFile d t = v := by
  unfold readFile
  rw [ht]
  cases hf : d.find? (fun f => f.1 = place) with
  | none => exact absurd (List.find?_eq_none.1 hf _ h) (by simp)
  | some f =>
    obtain ⟨q, x⟩ := f
    have h1 : q = place := by simpa using List.find?_some hf
    subst h1
    exact RealDisk.one hd (List.mem_of_find?_eq_some hf) h

theorem zen_place {cwd : PathText} {base : List PathName} (hl : Leads cwd base) :
    resolvePath (pathJoin cwd "zenlytic_project.yml".toList) = base ++ ["zenlytic_project.yml".toList] :=
  join_name hl ⟨by decide, by decide, by decide, by decide⟩

/-- The disk after `init` with a project file to write. -/
theorem init_state {cwd : PathText} {base : List PathName} (hl : Leads cwd base) (w : WorkDir) (d : FDef) (h : projectFile cwd w = .ok d) :
    cliInit cwd w = ({ runSteps w (initFolders cwd w) with
      files := putFile (putFile w.files (base ++ ["zenlytic_project.yml".toList]) .null) (base ++ ["zenlytic_project.yml".toList]) (.dict d) }, .ok ()) := by
  have e : initSteps cwd w = (initFolders cwd w ++ [.empty (pathJoin cwd "zenlytic_project.yml".toList),
      .write (pathJoin cwd "zenlytic_project.yml".toList) (.dict d)], .ok ()) := by
    unfold initSteps
    rw [projectFile_after hl, h]
  obtain ⟨h1, h2⟩ := mkdirs_run hl (initNames (inDbtProject cwd w)) (initNames_ok _) w
  rw [← initFolders_eq] at h1 h2
  unfold cliInit
  rw [e]
  refine Prod.ext ?_ rfl
  show runSteps w (initFolders cwd w ++ _) = _
  unfold runSteps at h1 ⊢
  rw [List.foldl_append]
  simp only [List.foldl_cons, List.foldl_nil, CliStep.run]
  rw [zen_place hl, h1]

/-- What `init` does with a project file to write. -/
theorem init_writes {cwd : PathText} {base : List PathName} (hl : Leads cwd base) (w : WorkDir) (d : FDef) (h : projectFile cwd w = .ok d) :
    (cliInit cwd w).2 = .ok () ∧ OnlyThis w (cliInit cwd w).1 (base ++ ["zenlytic_project.yml".toList])
      ((initNames (inDbtProject cwd w)).map fun n => base ++ [n.toList]) (.dict d) := by
  obtain ⟨h1, h2⟩ := mkdirs_run hl (initNames (inDbtProject cwd w)) (initNames_ok _) w
  rw [← initFolders_eq] at h1 h2
  have hw := init_state hl w d h
  refine ⟨by rw [hw], ?_, ?_, ?_⟩
  · intro x
    unfold FileAt
    rw [hw]
    show _ ∈ putFile _ _ _ ↔ _
    rw [mem_putFile]
    tauto
  · intro place x hp
    unfold FileAt
    rw [hw]
    show _ ∈ putFile _ _ _ ↔ _
    rw [mem_putFile, mem_putFile]
    tauto
  · intro place
    rw [hw]
    exact h2 place

/-- C72. `init` outside a dbt project: the project file says what the project file of a new project says, whatever there was before; the folders
`models`, `views` and `dashboards` are there; nothing else on the disk is changed. -/
theorem C72_init (cwd : PathText) (base : List PathName) (hl : Leads cwd base) (w : WorkDir)
    (h : NothingAt w (base ++ ["dbt_project.yml".toList])) :
    (cliInit cwd w).2 = .ok () ∧ OnlyThis w (cliInit cwd w).1 (base ++ ["zenlytic_project.yml".toList])
      [base ++ ["models".toList], base ++ ["views".toList], base ++ ["dashboards".toList]] (.dict newProject) := by
  have hn : inDbtProject cwd w = false := by
    rw [← Bool.not_eq_true, inDbt_iff hl]
    exact fun hc => hc h
  have hp : projectFile cwd w = .ok newProject := by
    unfold projectFile
    rw [hn]
    rfl
  have := init_writes hl w _ hp
  rw [hn] at this
  exact this

/-- The file of a dbt project, as it is read. -/
theorem dbt_read {cwd : PathText} {base : List PathName} (hl : Leads cwd base) {w : WorkDir} (hd : RealDisk w.files) {v : Res Yaml}
    (h : FileAt w (base ++ ["dbt_project.yml".toList]) v) : inDbtProject cwd w = true ∧ readFile w.files (cliDbtPath cwd) = v := by
  constructor
  · rw [inDbt_iff hl]
    exact fun hc => hc.1 _ h
  · exact readFile_is hd (dbt_place hl) h

/-- C72. `init` in a dbt project: name and profile of the project file are those of the dbt project, and of the folders only `dashboards` is made.
Without a name or a profile, or when the file cannot be read, it raises, and no file is changed. -/
theorem C72_init_dbt (cwd : PathText) (base : List PathName) (hl : Leads cwd base) (w : WorkDir) (hd : RealDisk w.files) :
    (∀ d n p, FileAt w (base ++ ["dbt_project.yml".toList]) (.ok (.dict d)) → Given d "name" n → Given d "profile" p →
      (cliInit cwd w).2 = .ok () ∧ OnlyThis w (cliInit cwd w).1 (base ++ ["zenlytic_project.yml".toList])
        [base ++ ["dashboards".toList]] (.dict (newDbtProject n p))) ∧
    (¬ NothingAt w (base ++ ["dbt_project.yml".toList]) →
      (¬ ∃ d, FileAt w (base ++ ["dbt_project.yml".toList]) (.ok (.dict d)) ∧ HasKey d "name" ∧ HasKey d "profile") →
      (∃ e, (cliInit cwd w).2 = .error e) ∧ (cliInit cwd w).1.files = w.files ∧
      ∀ place, place ∈ (cliInit cwd w).1.dirs ↔ place ∈ w.dirs ∨ (place = base ++ ["dashboards".toList] ∧ NothingAt w place)) := by
  constructor
  · intro d n p h hn hp
    obtain ⟨h1, h2⟩ := dbt_read hl hd h
    have hf : projectFile cwd w = .ok (newDbtProject n p) := by
      unfold projectFile
      rw [h1, if_pos rfl, h2]
      show ((dbtKey (.dict d) "name").bind fun n => (dbtKey (.dict d) "profile").map fun p => newDbtProject n p) = _
      have k1 : dbtKey (.dict d) "name" = .ok n := by unfold dbtKey; simp only; rw [hn]
      have k2 : dbtKey (.dict d) "profile" = .ok p := by unfold dbtKey; simp only; rw [hp]
      rw [k1, k2]
      rfl
    have := init_writes hl w _ hf
    rw [h1] at this
    exact this
  · intro hh hno
    have h1 : inDbtProject cwd w = true := (inDbt_iff hl w).2 hh
    obtain ⟨e, he⟩ : ∃ e, projectFile cwd w = .error e := by
      cases hf : projectFile cwd w with
      | error e => exact ⟨e, rfl⟩
      | ok x =>
        exfalso
        unfold projectFile at hf
        rw [h1, if_pos rfl] at hf
        cases hr : readFile w.files (cliDbtPath cwd) with
        | error e => rw [hr] at hf; cases hf
        | ok v =>
          rw [hr] at hf
          change ((dbtKey v "name").bind fun n => (dbtKey v "profile").map fun p => newDbtProject n p) = _ at hf
          have hm : FileAt w (base ++ ["dbt_project.yml".toList]) (.ok v) := readFile_mem (dbt_place hl) hr
          cases v with
          | dict d =>
            refine hno ⟨d, hm, ?_, ?_⟩
            · cases hk : dictGet d "name" with
              | some n => exact ⟨n, hk⟩
              | none =>
                unfold dbtKey at hf; simp only at hf; rw [hk] at hf; cases hf
            · cases hk : dictGet d "profile" with
              | some n => exact ⟨n, hk⟩
              | none =>
                exfalso
                cases hk' : dictGet d "name" with
                | none => unfold dbtKey at hf; simp only at hf; rw [hk'] at hf; cases hf
                | some n => unfold dbtKey at hf; simp only at hf; rw [hk, hk'] at hf; cases hf
          | _ => cases hf
    have es : initSteps cwd w = (initFolders cwd w, .error e) := by
      unfold initSteps
      rw [projectFile_after hl, he]
    obtain ⟨g1, g2⟩ := mkdirs_run hl (initNames (inDbtProject cwd w)) (initNames_ok _) w
    rw [← initFolders_eq] at g1 g2
    unfold cliInit
    rw [es]
    refine ⟨⟨e, rfl⟩, g1, fun place => ?_⟩
    rw [g2, h1]
    simp [initNames]

end ML
