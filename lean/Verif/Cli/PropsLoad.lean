import Verif.Cli.PropsAgain
/-
C72: which profile is used, and what becomes of a project that `init` has started.
-/
set_option autoImplicit false
namespace ML
open Spec

theorem noneAt_read {w : WorkDir} {t : PathText} {place : List PathName} (ht : resolvePath t = place) (h : NothingAt w place) : w.has t = false := by
  rw [← Bool.not_eq_true, has_iff w ht]
  exact fun hc => hc h

theorem fileAt_has {w : WorkDir} {t : PathText} {place : List PathName} (ht : resolvePath t = place) {v : Res Yaml} (h : FileAt w place v) :
    w.has t = true := (has_iff w ht).2 fun hc => hc.1 _ h

/-- C72. Without one in the command, the profile is the one the project file names; only without a project file it is that of the dbt project. A
project file without a profile is a KeyError and an empty one a TypeError, even in a dbt project; without either file it is a ValueError. -/
theorem C72_profile (cwd : PathText) (base : List PathName) (hl : Leads cwd base) (w : WorkDir) (hd : RealDisk w.files) :
    (∀ d p, FileAt w (base ++ ["zenlytic_project.yml".toList]) (.ok (.dict d)) → Given d "profile" p → cliProfile cwd w = .ok p) ∧
    (∀ d, FileAt w (base ++ ["zenlytic_project.yml".toList]) (.ok (.dict d)) → ¬ HasKey d "profile" → cliProfile cwd w = .error .keyError) ∧
    (FileAt w (base ++ ["zenlytic_project.yml".toList]) (.ok .null) → cliProfile cwd w = .error .typeError) ∧
    (∀ d p, NothingAt w (base ++ ["zenlytic_project.yml".toList]) → FileAt w (base ++ ["dbt_project.yml".toList]) (.ok (.dict d)) →
      Given d "profile" p → cliProfile cwd w = .ok p) ∧
    (∀ d, NothingAt w (base ++ ["zenlytic_project.yml".toList]) → FileAt w (base ++ ["dbt_project.yml".toList]) (.ok (.dict d)) →
      ¬ HasKey d "profile" → cliProfile cwd w = .error .keyError) ∧
    (NothingAt w (base ++ ["zenlytic_project.yml".toList]) → NothingAt w (base ++ ["dbt_project.yml".toList]) →
      cliProfile cwd w = .error .valueError) := by
  have own : ∀ v, FileAt w (base ++ ["zenlytic_project.yml".toList]) (.ok v) → cliProfile cwd w = dbtKey v "profile" := by
    intro v hv
    unfold cliProfile
    rw [fileAt_has (zen_place hl) hv, if_pos rfl, readFile_is hd (zen_place hl) hv]
    rfl
  have other : ∀ v, NothingAt w (base ++ ["zenlytic_project.yml".toList]) → FileAt w (base ++ ["dbt_project.yml".toList]) (.ok v) →
      cliProfile cwd w = dbtKey v "profile" := by
    intro v hn hv
    unfold cliProfile
    rw [noneAt_read (zen_place hl) hn, if_neg (by simp), (dbt_read hl hd hv).1, if_pos rfl, (dbt_read hl hd hv).2]
    rfl
  have given : ∀ d p, Given d "profile" p → dbtKey (.dict d) "profile" = .ok p := by
    intro d p hp
    unfold dbtKey
    simp only
    rw [hp]
  have missing : ∀ d, ¬ HasKey d "profile" → dbtKey (.dict d) "profile" = .error .keyError := by
    intro d hp
    unfold dbtKey
    simp only
    cases hk : dictGet d "profile" with
    | none => rfl
    | some v => exact absurd ⟨v, hk⟩ hp
  refine ⟨fun d p h hp => by rw [own _ h, given d p hp], fun d h hp => by rw [own _ h, missing d hp], fun h => by rw [own _ h]; rfl,
    fun d p hn h hp => by rw [other _ hn h, given d p hp], fun d hn h hp => by rw [other _ hn h, missing d hp], fun hn hn' => ?_⟩
  unfold cliProfile
  rw [noneAt_read (zen_place hl) hn, if_neg (by simp)]
  have : inDbtProject cwd w = false := noneAt_read (dbt_place hl) hn'
  rw [this]
  rfl

theorem realDisk_put {d : Disk} (hd : RealDisk d) {q : List PathName} (hq : ∀ p ∈ q, IsName p) (v : Yaml) : RealDisk (putFile d q v) := by
  constructor
  · intro place c hm p hp
    rcases (mem_putFile d q place v c).1 hm with ⟨rfl, _⟩ | ⟨_, hm⟩
    · exact hq p hp
    · exact hd.names place c hm p hp
  · unfold putFile
    rw [List.map_cons, List.nodup_cons]
    constructor
    · intro hm
      obtain ⟨f, hf, he⟩ := List.mem_map.1 hm
      exact absurd he (by simpa using (List.mem_filter.1 hf).2)
    · exact (List.filter_sublist.map _).nodup hd.apart

theorem zen_names {cwd : PathText} {base : List PathName} (hl : Leads cwd base) : ∀ p ∈ base ++ ["zenlytic_project.yml".toList], IsName p :=
  leads_names (hl.name ⟨by decide, by decide, by decide, by decide⟩)

theorem infix_cut {s a b : List Char} {c : Char} (hc : c ∉ s) (h : s <:+: a ++ c :: b) : s <:+: a ∨ s <:+: b := by
  obtain ⟨pre, post, h⟩ := h
  rcases List.append_eq_append_iff.1 h with ⟨a', h1, h2⟩ | ⟨a', h1, h2⟩
  · exact .inl ⟨pre, a', h1.symm⟩
  · cases a' with
    | nil => exact .inl ⟨pre, [], by simpa using h1⟩
    | cons x a'' =>
      obtain ⟨rfl, h2'⟩ := List.cons.inj h2
      rcases List.append_eq_append_iff.1 h1 with ⟨y, h3, h4⟩ | ⟨y, h3, h4⟩
      · exact absurd (by rw [h4]; simp) hc
      · cases y with
        | nil =>
          simp only [List.nil_append] at h4
          exact absurd (by rw [← h4]; simp) hc
        | cons z y' =>
          obtain ⟨_, h4'⟩ := List.cons.inj h4
          exact .inr ⟨y', post, by rw [h2', h4']; rfl⟩

/-- The folder the commands are called in, as a repository. -/
theorem local_here (disk : Disk) (hd : RealDisk disk) {cwd : PathText} {base : List PathName} (hl : Leads cwd base)
    (hc : ∀ u, cwd ≠ u ++ "/".toList) (h0 : cwd ≠ []) :
    (localRepo disk cwd cwd none).folder = cwd ++ "/".toList ∧ RealRepo (localRepo disk cwd cwd none) := by
  have habs : ∃ cs, cwd = '/' :: cs := by
    rcases leads_abs hl with h | h
    · exact absurd h h0
    · cases cwd with
      | nil => exact absurd rfl h0
      | cons a l => simp at h; exact ⟨l, by rw [h]⟩
  obtain ⟨l1, _, _, l4⟩ := C70_local disk cwd cwd none
  have hf := l1 habs
  refine ⟨hf, ⟨cwd, base, hf, hl⟩, ?_⟩
  intro u hu
  rw [l4, hf] at hu
  have hu : dbtPath disk (cwd ++ "/".toList) = u := by simpa using hu
  obtain ⟨d1, d2, d3, d4⟩ := C70_dbt disk hd cwd base hl hc h0
  have here : dbtPath disk (cwd ++ "/".toList) = cwd ++ "/".toList → ∃ t base, u = t ++ "/".toList ∧ Leads t base := by
    intro h
    exact ⟨cwd, base, by rw [← hu, h], hl⟩
  by_cases c1 : ∃ v, (base ++ ["dbt_project.yml".toList], v) ∈ disk
  · obtain ⟨v, hv⟩ := c1
    exact here (d1 v hv)
  · by_cases c2 : ∀ d v, (base ++ [d, "dbt_project.yml".toList], v) ∈ disk → Hidden d
    · exact here (d3 c2)
    · push Not at c2
      obtain ⟨d, v, hm, hh⟩ := c2
      by_cases c3 : ∀ d' v', (base ++ [d', "dbt_project.yml".toList], v') ∈ disk → ¬ Hidden d' → d' = d
      · have := d2 d v (by push Not at c1; exact c1) hm hh c3
        have hn : IsName d := hd.names _ _ hm d (by simp)
        exact ⟨cwd ++ '/' :: d, base ++ [d], by rw [← hu, this], hl.name hn⟩
      · push Not at c3
        obtain ⟨d', v', hm', hh', hne⟩ := c3
        exact here (d4 d' d v' v hne hm' hm hh' hh)

/-- What the project file written by `init` is to the repository. -/
theorem init_project {cwd : PathText} {base : List PathName} (hl : Leads cwd base) (hc : ∀ u, cwd ≠ u ++ "/".toList) (h0 : cwd ≠ []) {w : WorkDir}
    (hd : RealDisk w.files) {d : FDef} (hne : d ≠ []) (hp : projectFile cwd w = .ok d) :
    RealDisk (cliInit cwd w).1.files ∧ RealRepo (localRepo (cliInit cwd w).1.files cwd cwd none) ∧
    (localRepo (cliInit cwd w).1.files cwd cwd none).folder = cwd ++ "/".toList ∧
    ProjectFile (cliInit cwd w).1.files (localRepo (cliInit cwd w).1.files cwd cwd none) (.dict d) ∧
    (∀ k, (∀ v, Given d "mode" v → v = k) → (¬ HasKey d "mode" → k = .str "metrics_layer") →
      repoType (cliInit cwd w).1.files (localRepo (cliInit cwd w).1.files cwd cwd none) = .ok k ∨
      repoType (cliInit cwd w).1.files (localRepo (cliInit cwd w).1.files cwd cwd none) = .ok (.str "metrics_layer")) := by
  have hw : (cliInit cwd w).1.files = putFile (putFile w.files (base ++ ["zenlytic_project.yml".toList]) .null) (base ++ ["zenlytic_project.yml".toList]) (.dict d) := by
    rw [init_state hl w d hp]
  have hin : (base ++ ["zenlytic_project.yml".toList], .ok (.dict d)) ∈ (cliInit cwd w).1.files := by
    rw [hw, mem_putFile]
    exact .inl ⟨rfl, rfl⟩
  have hreal : RealDisk (cliInit cwd w).1.files := by
    rw [hw]
    exact realDisk_put (realDisk_put hd (zen_names hl) _) (zen_names hl) _
  generalize (cliInit cwd w).1.files = disk at hin hreal
  obtain ⟨hf, hr⟩ := local_here disk hreal hl hc h0
  have hkind : (localRepo disk cwd cwd none).kind = none := (C70_local disk cwd cwd none).2.2.1
  refine ⟨hreal, hr, hf, ?_, ?_⟩
  · refine .own ⟨base ++ ["zenlytic_project.yml".toList], ?_, hin⟩ ?_
    · rw [hf]
      have e : cwd ++ "/".toList ++ "zenlytic_project.yml".toList = cwd ++ '/' :: "zenlytic_project.yml".toList := by
        rw [List.append_assoc]; rfl
      rw [e]
      exact hl.name ⟨by decide, by decide, by decide, by decide⟩
    · intro h
      cases h
      exact hne rfl
  · intro k hk1 hk2
    obtain ⟨_, t2, t3, t4⟩ := C70_type disk hreal (localRepo disk cwd cwd none) cwd base hf hc hl
    by_cases hv : "venv".toList <:+: cwd
    · right
      apply t3 (.inl hkind)
      rintro ds name c ⟨_, _, _, hb⟩
      apply hb
      unfold Spelled
      exact hv.trans (List.prefix_append _ _).isInfix
    · have own : ProjectBelow disk cwd base [] "zenlytic_project.yml".toList (.ok (.dict d)) := by
        refine ⟨hin, by simp, .inl rfl, ?_⟩
        intro hb
        have hb : "venv".toList <:+: cwd ++ '/' :: "zenlytic_project.yml".toList := by
          unfold Spelled at hb
          simpa using hb
        rcases infix_cut (by decide) hb with hb | hb
        · exact hv hb
        · exact absurd hb (by decide)
      by_cases hu : ∀ ds' name' c', ProjectBelow disk cwd base ds' name' c' → ds' = [] ∧ name' = "zenlytic_project.yml".toList
      · left
        obtain ⟨u1, u2, _⟩ := t2 [] _ _ (.inl hkind) own hu
        by_cases hm : HasKey d "mode"
        · obtain ⟨v, hv⟩ := hm
          rw [u1 d v rfl hv, hk1 v hv]
        · rw [u2 d rfl hm, hk2 hm]
      · right
        push Not at hu
        obtain ⟨ds', name', c', hb, hne'⟩ := hu
        exact t4 _ _ _ _ _ _ (.inl hkind) own hb (fun he => by
          obtain ⟨e1, e2⟩ := Prod.mk.inj he
          exact hne' e1.symm e2.symm)

/-- C72. A project that `init` has started outside a dbt project can be read: as a project of this package, from the folders `models`, `views` and
`dashboards`. -/
theorem C72_started (conv : MfConvert) (ord : SetOrder) (cwd : PathText) (base : List PathName) (hl : Leads cwd base)
    (hc : ∀ u, cwd ≠ u ++ "/".toList) (h0 : cwd ≠ []) (w : WorkDir) (hd : RealDisk w.files) (h : NothingAt w (base ++ ["dbt_project.yml".toList])) :
    loadRepo conv ord (cliInit cwd w).1.files (localRepo (cliInit cwd w).1.files cwd cwd none) =
      readProject ord (cliInit cwd w).1.files (localRepo (cliInit cwd w).1.files cwd cwd none) ∧
    allFolders (cliInit cwd w).1.files (localRepo (cliInit cwd w).1.files cwd cwd none) =
      .ok [cwd ++ "/models".toList, cwd ++ "/views".toList, cwd ++ "/dashboards".toList] := by
  have hn : inDbtProject cwd w = false := noneAt_read (dbt_place hl) h
  have hp : projectFile cwd w = .ok newProject := by
    unfold projectFile
    rw [hn]
    rfl
  obtain ⟨hreal, hr, hf, hpf, ht⟩ := init_project hl hc h0 hd (by unfold newProject; simp) hp
  generalize (cliInit cwd w).1.files = disk at *
  constructor
  · have hk : repoType disk (localRepo disk cwd cwd none) = .ok (.str "metrics_layer") := by
      rcases ht (.str "metrics_layer") (fun v hv => by cases hv) (fun _ => rfl) with h | h <;> exact h
    exact (C70_kinds conv ord disk _ _ hk).1 rfl
  · obtain ⟨fs, h1, h2⟩ := C70_folders disk hreal _ hr newProject hpf (by unfold newProject; simp) ["models"] ["views"] ["dashboards"] rfl rfl (.inl rfl)
    rw [h1]
    have noSlash : ∀ {s : String}, s.toList.head? ≠ some '/' → ¬ ∃ cs, s.toList = '/' :: cs := by
      rintro s hs ⟨cs, hcs⟩
      exact hs (by rw [hcs]; rfl)
    have rel : ∀ s f, MeantFolder (localRepo disk cwd cwd none).folder s f → (¬ ∃ cs, s.toList = '/' :: cs) → f = cwd ++ '/' :: s.toList := by
      rintro s f (⟨hc, _⟩ | ⟨_, hf'⟩) hn
      · exact absurd hc hn
      · rw [hf', hf, List.append_assoc]; rfl
    rcases h2 with _ | ⟨a1, h2⟩
    rcases h2 with _ | ⟨a2, h2⟩
    rcases h2 with _ | ⟨a3, h2⟩
    cases h2
    rw [rel _ _ a1 (noSlash (by decide)),
      rel _ _ a2 (noSlash (by decide)),
      rel _ _ a3 (noSlash (by decide))]
    rfl

/-- C72, against the claim: a project that `init` has started in a dbt project can not be read, whatever is on the disk. Its mode is `dbt`, which is
unknown; and when the mode is not looked at, because there is another project file in a folder below, the paths of the models are missing. -/
theorem C72_dbt_unreadable (conv : MfConvert) (ord : SetOrder) (cwd : PathText) (base : List PathName) (hl : Leads cwd base)
    (hc : ∀ u, cwd ≠ u ++ "/".toList) (h0 : cwd ≠ []) (w : WorkDir) (hd : RealDisk w.files) (d : FDef) (n p : Yaml)
    (h : FileAt w (base ++ ["dbt_project.yml".toList]) (.ok (.dict d))) (hn : Given d "name" n) (hpr : Given d "profile" p) :
    loadRepo conv ord (cliInit cwd w).1.files (localRepo (cliInit cwd w).1.files cwd cwd none) = .error .typeError ∨
    loadRepo conv ord (cliInit cwd w).1.files (localRepo (cliInit cwd w).1.files cwd cwd none) = .error .keyError := by
  obtain ⟨h1, h2⟩ := dbt_read hl hd h
  have hp : projectFile cwd w = .ok (newDbtProject n p) := by
    unfold projectFile
    rw [h1, if_pos rfl, h2]
    show ((dbtKey (.dict d) "name").bind fun n => (dbtKey (.dict d) "profile").map fun p => newDbtProject n p) = _
    have k1 : dbtKey (.dict d) "name" = .ok n := by unfold dbtKey; simp only; rw [hn]
    have k2 : dbtKey (.dict d) "profile" = .ok p := by unfold dbtKey; simp only; rw [hpr]
    rw [k1, k2]
    rfl
  obtain ⟨hreal, hr, hf, hpf, ht⟩ := init_project hl hc h0 hd (by unfold newDbtProject; simp) hp
  generalize (cliInit cwd w).1.files = disk at *
  rcases ht (.str "dbt") (fun v hv => by cases hv; rfl) (fun hm => absurd ⟨_, rfl⟩ hm) with hk | hk
  · left
    refine (C70_kinds conv ord disk _ _ hk).2.2 ?_ ?_ <;> intro hc <;> exact absurd (Yaml.str.inj hc) (by decide)
  · right
    rw [(C70_kinds conv ord disk _ _ hk).1 rfl]
    have hz := zenlyticProject_is hreal hr hpf
    unfold readProject allFolders getFolders
    rw [hz]
    rfl

end ML
