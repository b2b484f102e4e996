import Verif.Repo.Props
/-
C70: the project file, the folders it names, and the kind of the repository.
-/
set_option autoImplicit false
namespace ML
open Spec

theorem last_slash {t : PathText} (h : '/' ∈ t) : ∃ a p, t = a ++ '/' :: p ∧ '/' ∉ p := by
  induction t using List.reverseRecOn with
  | nil => cases h
  | append_singleton l x ih =>
    by_cases hx : x = '/'
    · exact ⟨l, [], by rw [hx], by simp⟩
    · have hl : '/' ∈ l := by
        rw [List.mem_append, List.mem_singleton] at h
        rcases h with h | h
        · exact h
        · exact absurd h.symm hx
      obtain ⟨a, p, e, hp⟩ := ih hl
      refine ⟨a, p ++ [x], by rw [e]; simp, ?_⟩
      rw [List.mem_append, List.mem_singleton]
      rintro (h | h)
      · exact hp h
      · exact hx h.symm

/-- Every absolute path leads somewhere. -/
theorem leads_total (n : ℕ) : ∀ t : PathText, t.length ≤ n → (t = [] ∨ t.head? = some '/') → Leads t (resolvePath t) := by
  induction n with
  | zero =>
    intro t hn _
    have : t = [] := List.eq_nil_of_length_eq_zero (by omega)
    subst this
    exact .root
  | succ n ih =>
    intro t hn h
    rcases h with rfl | h
    · exact .root
    · have hx : '/' ∈ t := by
        cases t with
        | nil => cases h
        | cons x t => simp at h; simp [h]
      obtain ⟨a, p, e', hp⟩ := last_slash hx
      have ha : a = [] ∨ a.head? = some '/' := by
        cases har : a with
        | nil => exact .inl rfl
        | cons y b => rw [e', har] at h; simp at h; exact .inr (by simp [h])
      have hl : Leads a (resolvePath a) := ih _ (by rw [e'] at hn; simp at hn ⊢; omega) ha
      rw [e', resolvePath_name _ hp]
      by_cases h1 : p = []
      · subst h1; exact hl.slash
      · by_cases h2 : p = ['.']
        · subst h2; exact hl.dot
        · by_cases h3 : p = ['.', '.']
          · subst h3; exact hl.up
          · have hn : IsName p := ⟨h1, hp, h2, h3⟩
            rw [resolveStep_name hn]
            exact hl.name hn

theorem leads_abs {t : PathText} {place : List PathName} (h : Leads t place) : t = [] ∨ t.head? = some '/' := by
  induction h with
  | root => exact .inl rfl
  | name _ _ ih => rcases ih with rfl | ih; exacts [.inr rfl, .inr (by rw [List.head?_append, ih]; rfl)]
  | slash _ ih => rcases ih with rfl | ih; exacts [.inr rfl, .inr (by rw [List.head?_append, ih]; rfl)]
  | dot _ ih => rcases ih with rfl | ih; exacts [.inr rfl, .inr (by rw [List.head?_append, ih]; rfl)]
  | up _ ih => rcases ih with rfl | ih; exacts [.inr rfl, .inr (by rw [List.head?_append, ih]; rfl)]

theorem abs_more {t s : PathText} {place : List PathName} (h : Leads t place) : Leads (t ++ '/' :: s) (resolvePath (t ++ '/' :: s)) := by
  apply leads_total _ _ le_rfl
  rcases leads_abs h with rfl | h
  · exact .inr rfl
  · exact .inr (by rw [List.head?_append, h]; rfl)

theorem readIfExists_is {disk : Disk} (hd : RealDisk disk) {t : PathText} {v : Yaml} (h : FileIs disk t v) : readIfExists disk t = .ok v := by
  obtain ⟨place, hl, hm⟩ := h
  unfold readIfExists
  rw [readFile_of hd hl hm, if_pos]
  unfold fileExists
  rw [List.any_eq_true]
  exact ⟨_, hm, by simp [leads_resolve hl]⟩

theorem readIfExists_none {disk : Disk} {t s : PathText} {place : List PathName} (hl : Leads t place) (h : NoFile disk (t ++ '/' :: s)) :
    readIfExists disk (t ++ '/' :: s) = .ok .null := by
  unfold readIfExists
  rw [if_neg]
  unfold fileExists
  rw [List.any_eq_true]
  rintro ⟨⟨pl, c⟩, hm, he⟩
  have he : pl = resolvePath (t ++ '/' :: s) := by simpa using he
  subst he
  exact h _ _ (abs_more hl) hm

theorem join_project {u t : PathText} (hu : u = t ++ "/".toList) : pathJoin u "zenlytic_project.yml".toList = t ++ '/' :: "zenlytic_project.yml".toList := by
  subst hu
  unfold pathJoin
  rw [if_neg (by decide), if_pos (.inr (by rw [List.getLast?_append]; rfl))]
  rw [List.append_assoc]
  rfl

theorem dbtFolder_real {r : RepoAt} (hr : RealRepo r) : ∃ t base, dbtFolder r = t ++ "/".toList ∧ Leads t base := by
  unfold dbtFolder
  cases hd : r.dbt with
  | none => exact hr.folder
  | some u =>
    obtain ⟨t, base, h1, h2⟩ := hr.dbt u hd
    simp only
    rw [if_neg (by rw [h1]; simp)]
    exact ⟨t, base, h1, h2⟩

theorem zenlyticProject_is {disk : Disk} (hd : RealDisk disk) {r : RepoAt} (hr : RealRepo r) {v : Yaml} (h : ProjectFile disk r v) :
    zenlyticProject disk r = .ok v := by
  obtain ⟨t, base, ht, hl⟩ := hr.folder
  unfold zenlyticProject
  rw [join_project ht]
  have e : r.folder ++ "zenlytic_project.yml".toList = t ++ '/' :: "zenlytic_project.yml".toList := by rw [ht, List.append_assoc]; rfl
  cases h with
  | own h1 h2 =>
    rw [e] at h1
    rw [readIfExists_is hd h1]
    simp only
    rw [if_pos]
    rw [← truthy_iff] at h2
    simpa using h2
  | @dbt u _ hu h1 h2 =>
    rw [e] at h1
    obtain ⟨t', base', ht', hl'⟩ := hr.dbt u hu
    have ed : dbtFolder r = u := by
      unfold dbtFolder
      rw [hu]
      simp only
      rw [if_neg (by rw [ht']; simp)]
    have e' : u ++ "zenlytic_project.yml".toList = t' ++ '/' :: "zenlytic_project.yml".toList := by rw [ht', List.append_assoc]; rfl
    rw [ed, join_project ht', ← e', readIfExists_is hd h2]
    rcases h1 with h1 | ⟨w, h1, hw⟩
    · rw [readIfExists_none hl h1]; rfl
    · rw [readIfExists_is hd h1]
      simp only
      rw [if_neg]
      rw [(truthy_iff w).2 hw]
      decide

/-- C70. Without a project file, whatever else is in the repository, an empty project is read and nothing is complained about. -/
theorem C70_no_project (ord : SetOrder) (disk : Disk) (r : RepoAt) (hr : RealRepo r)
    (h1 : NoFile disk (r.folder ++ "zenlytic_project.yml".toList)) (h2 : ∀ t, r.dbt = some t → NoFile disk (t ++ "zenlytic_project.yml".toList)) :
    readProject ord disk r = .ok nothingRead := by
  have hz : zenlyticProject disk r = .ok .null := by
    obtain ⟨t, base, ht, hl⟩ := hr.folder
    unfold zenlyticProject
    have e : r.folder ++ "zenlytic_project.yml".toList = t ++ '/' :: "zenlytic_project.yml".toList := by rw [ht, List.append_assoc]; rfl
    rw [e] at h1
    rw [join_project ht, readIfExists_none hl h1]
    simp only [Yaml.truthy]
    obtain ⟨t', base', ht', hl'⟩ := dbtFolder_real hr
    rw [join_project ht']
    apply readIfExists_none hl'
    unfold dbtFolder at ht'
    cases hd : r.dbt with
    | none =>
      rw [hd] at ht'
      simp only at ht'
      have : t' = t := List.append_cancel_right (ht'.symm.trans ht)
      rw [this]; exact h1
    | some u =>
      rw [hd] at ht'
      simp only at ht'
      obtain ⟨t'', _, hu, _⟩ := hr.dbt u hd
      rw [if_neg (by rw [hu]; simp)] at ht'
      have := h2 u hd
      rw [ht', List.append_assoc] at this
      exact this
  have g : ∀ k b, getFolders disk r k b = .ok [] := by
    intro k b; unfold getFolders; rw [hz]; rfl
  unfold readProject allFolders
  rw [g, g, g]
  simp only [List.append_nil]
  have : yamlFiles ord disk [] = [] := by
    rw [List.eq_nil_iff_forall_not_mem]
    intro t ht
    unfold yamlFiles at ht
    rw [ord.mem] at ht
    simp [repoSearch] at ht
  rw [this]
  rfl

theorem mapM_absPath {r : RepoAt} (hr : RealRepo r) (l : List String) :
    ∃ fs, (l.map Yaml.str).mapM (absPath r) = .ok fs ∧ List.Forall₂ (MeantFolder r.folder) l fs := by
  obtain ⟨t, base, ht, _⟩ := hr.folder
  induction l with
  | nil => exact ⟨[], rfl, .nil⟩
  | cons s l ih =>
    obtain ⟨fs, h1, h2⟩ := ih
    have : ∃ f, absPath r (.str s) = .ok f ∧ MeantFolder r.folder s f := by
      simp only [absPath]
      by_cases h : s.toList.head? = some '/'
      · rw [if_pos h]
        refine ⟨_, rfl, .inl ⟨?_, rfl⟩⟩
        cases hs : s.toList with
        | nil => rw [hs] at h; cases h
        | cons x cs => rw [hs] at h; simp at h; exact ⟨cs, by rw [h]⟩
      · rw [if_neg h]
        refine ⟨_, rfl, .inr ⟨?_, ?_⟩⟩
        · rintro ⟨cs, hcs⟩; rw [hcs] at h; exact h rfl
        · unfold pathJoin
          rw [if_neg h, if_pos (.inr (by rw [ht, List.getLast?_append]; rfl))]
    obtain ⟨f, hf1, hf2⟩ := this
    refine ⟨f :: fs, ?_, .cons hf2 h2⟩
    rw [List.map_cons, List.mapM_cons, hf1, h1]
    rfl

/-- C70. The folders searched are those the project file names as its model, view and dashboard paths, in that order. -/
theorem C70_folders (disk : Disk) (hd : RealDisk disk) (r : RepoAt) (hr : RealRepo r) (d : FDef) (h : ProjectFile disk r (.dict d)) (hne : d ≠ [])
    (ms vs ds : List String) (hm : Given d "model-paths" (.list (ms.map .str))) (hv : Given d "view-paths" (.list (vs.map .str)))
    (hds : Given d "dashboard-paths" (.list (ds.map .str)) ∨ (¬ HasKey d "dashboard-paths" ∧ ds = [])) :
    ∃ fs, allFolders disk r = .ok fs ∧ List.Forall₂ (MeantFolder r.folder) (ms ++ vs ++ ds) fs := by
  have hz := zenlyticProject_is hd hr h
  have tr : (Yaml.dict d).truthy = true := by
    cases d with
    | nil => exact absurd rfl hne
    | cons _ _ => rfl
  have one : ∀ k b (l : List String), Given d k (.list (l.map .str)) → ∃ fs, getFolders disk r k b = .ok fs ∧ List.Forall₂ (MeantFolder r.folder) l fs := by
    intro k b l hk
    obtain ⟨fs, h1, h2⟩ := mapM_absPath hr l
    refine ⟨fs, ?_, h2⟩
    unfold getFolders
    rw [hz]
    simp only
    rw [if_neg (by rw [tr]; decide)]
    simp only [projectKey]
    rw [show dictGet d k = _ from hk]
    simp only [iterate]
    exact h1
  obtain ⟨f1, a1, a2⟩ := one _ true _ hm
  obtain ⟨f2, b1, b2⟩ := one _ true _ hv
  have third : ∃ fs, getFolders disk r "dashboard-paths" false = .ok fs ∧ List.Forall₂ (MeantFolder r.folder) ds fs := by
    rcases hds with hds | ⟨hno, rfl⟩
    · exact one _ _ _ hds
    · refine ⟨[], ?_, .nil⟩
      unfold getFolders
      rw [hz]
      simp only
      rw [if_neg (by rw [tr]; decide)]
      simp only [projectKey]
      cases hg : dictGet d "dashboard-paths" with
      | none => rfl
      | some v => exact absurd ⟨v, hg⟩ hno
  obtain ⟨f3, c1, c2⟩ := third
  refine ⟨f1 ++ f2 ++ f3, ?_, ?_⟩
  · unfold allFolders
    rw [a1]; simp only
    rw [b1]; simp only
    rw [c1]
  · exact List.rel_append (List.rel_append a2 b2) c2

/-- C70. A project file without model paths, or without view paths, is refused with a KeyError; and a text instead of a list of paths is taken for
a list of paths of one character each. -/
theorem C70_folders_wrong (ord : SetOrder) (disk : Disk) (hd : RealDisk disk) (r : RepoAt) (hr : RealRepo r) (d : FDef)
    (h : ProjectFile disk r (.dict d)) (hne : d ≠ []) :
    (¬ HasKey d "model-paths" → readProject ord disk r = .error .keyError) ∧
    (∀ ms : List String, Given d "model-paths" (.list (ms.map .str)) → ¬ HasKey d "view-paths" → readProject ord disk r = .error .keyError) ∧
    (∀ k s b, Given d k (.str s) → ∃ fs, getFolders disk r k b = .ok fs ∧
      List.Forall₂ (MeantFolder r.folder) (s.toList.map fun c => String.ofList [c]) fs) ∧
    (∀ v, Given d "model-paths" v → ¬ Listed v → ¬ Dictionary v → ¬ Text v → readProject ord disk r = .error .typeError) ∧
    (∀ l v, Given d "model-paths" (.list l) → v ∈ l → ¬ Text v → readProject ord disk r = .error .typeError) := by
  have hz := zenlyticProject_is hd hr h
  have tr : (Yaml.dict d).truthy = true := by
    cases d with
    | nil => exact absurd rfl hne
    | cons _ _ => rfl
  have missing : ∀ k, ¬ HasKey d k → getFolders disk r k true = .error .keyError := by
    intro k hk
    unfold getFolders
    rw [hz]
    simp only
    rw [if_neg (by rw [tr]; decide)]
    simp only [projectKey]
    cases hg : dictGet d k with
    | none => rfl
    | some v => exact absurd ⟨v, hg⟩ hk
  refine ⟨?_, ?_, ?_, ?_, ?_⟩
  · intro hk
    unfold readProject allFolders
    rw [missing _ hk]
  · intro ms hm hk
    obtain ⟨fs, h1, _⟩ := mapM_absPath hr ms
    have : getFolders disk r "model-paths" true = .ok fs := by
      unfold getFolders
      rw [hz]
      simp only
      rw [if_neg (by rw [tr]; decide)]
      simp only [projectKey]
      rw [show dictGet d "model-paths" = _ from hm]
      simp only [iterate]
      exact h1
    unfold readProject allFolders
    rw [this]
    simp only
    rw [missing _ hk]
  · intro k s b hk
    obtain ⟨fs, h1, h2⟩ := mapM_absPath hr (s.toList.map fun c => String.ofList [c])
    refine ⟨fs, ?_, h2⟩
    unfold getFolders
    rw [hz]
    simp only
    rw [if_neg (by rw [tr]; decide)]
    simp only [projectKey]
    rw [show dictGet d k = _ from hk]
    simp only [iterate]
    rw [List.map_map] at h1
    exact h1
  · intro v hv h1 h2 h3
    have : getFolders disk r "model-paths" true = .error .typeError := by
      unfold getFolders
      rw [hz]
      simp only
      rw [if_neg (by rw [tr]; decide)]
      simp only [projectKey]
      rw [show dictGet d "model-paths" = _ from hv]
      cases v with
      | list l => exact absurd ⟨l, rfl⟩ h1
      | dict l => exact absurd ⟨l, rfl⟩ h2
      | str s => exact absurd ⟨s, rfl⟩ h3
      | _ => rfl
    unfold readProject allFolders
    rw [this]
  · intro l v hl hv ht
    have hm : ∀ l : List Yaml, v ∈ l → l.mapM (absPath r) = .error .typeError := by
      intro l
      induction l with
      | nil => intro h; cases h
      | cons x l ih =>
        intro h
        rw [List.mapM_cons]
        rcases List.mem_cons.mp h with rfl | h
        · cases v with
          | str s => exact absurd ⟨s, rfl⟩ ht
          | _ => rfl
        · rw [ih h]
          cases x with
          | str s => rfl
          | _ => rfl
    have : getFolders disk r "model-paths" true = .error .typeError := by
      unfold getFolders
      rw [hz]
      simp only
      rw [if_neg (by rw [tr]; decide)]
      simp only [projectKey]
      rw [show dictGet d "model-paths" = _ from hl]
      simp only [iterate]
      exact hm l hv
    unfold readProject allFolders
    rw [this]

/-- C70. A path with `venv` in it is never read, so a repository in a folder with `venv` in its path is read as an empty project. -/
theorem C70_venv (ord : SetOrder) (disk : Disk) (hd : RealDisk disk) (r : RepoAt) (folders : List PathText) (hfs : allFolders disk r = .ok folders)
    (hf : ∀ f ∈ folders, ∃ h c place, Cut f h c place ∧ "venv".toList <:+: h) : readProject ord disk r = .ok nothingRead := by
  have : yamlFiles ord disk folders = [] := by
    rw [List.eq_nil_iff_forall_not_mem]
    intro t ht
    rw [C70_found ord disk hd folders (fun f hm => by obtain ⟨h, c, p, hc, _⟩ := hf f hm; exact ⟨h, c, p, hc⟩)] at ht
    obtain ⟨place, ⟨f, hm, hs⟩, _, hv⟩ := ht
    obtain ⟨h, c, p, hc, hi⟩ := hf f hm
    apply hv
    have same : ∀ h' c' p', Cut f h' c' p' → h' = h := by
      intro h' c' p' hc'
      have e := pathHead_cut hc'
      rw [pathHead_cut hc] at e
      unfold headText at e
      by_cases h1 : h = []
      · subst h1
        by_cases h2 : h' = []
        · exact h2
        · rw [if_pos rfl, if_neg h2] at e
          exact absurd e.symm (hc'.clean [])
      · rw [if_neg h1] at e
        by_cases h2 : h' = []
        · rw [if_pos h2] at e
          exact absurd e (hc.clean [])
        · rw [if_neg h2] at e; exact e.symm
    have pre : ∀ l, "venv".toList <:+: Spelled h l := by
      intro l
      exact hi.trans (List.infix_append_of_infix_left (List.infix_refl _))
    cases hs with
    | below hc' _ _ => rw [same _ _ _ hc']; exact pre _
    | beside hc' _ _ _ _ => rw [same _ _ _ hc']; exact pre _
  unfold readProject
  rw [hfs]
  simp only
  rw [this]
  rfl

/-- C70. A folder named twice in two ways is read twice: its files are found at two paths. -/
theorem C70_twice (ord : SetOrder) (disk : Disk) (hd : RealDisk disk) (folders : List PathText) (hf : ∀ f ∈ folders, ∃ h c place, Cut f h c place)
    (h h' : PathText) (place ds : List PathName) (name : PathName) (v : Res Yaml) (hl : Leads h place) (hl' : Leads h' place)
    (hc : ∀ u, h ≠ u ++ "/".toList) (hc' : ∀ u, h' ≠ u ++ "/".toList) (hne : h ≠ h') (hm : h ++ "/".toList ∈ folders) (hm' : h' ++ "/".toList ∈ folders)
    (hx : (place ++ (ds ++ [name]), v) ∈ disk) (hds : ∀ d ∈ ds, ¬ Hidden d) (hy : YamlName name)
    (hv : ¬ "venv".toList <:+: Spelled h (ds ++ [name])) (hv' : ¬ "venv".toList <:+: Spelled h' (ds ++ [name])) :
    ∃ t t', t ≠ t' ∧ t ∈ yamlFiles ord disk folders ∧ t' ∈ yamlFiles ord disk folders ∧
      Leads t (place ++ (ds ++ [name])) ∧ Leads t' (place ++ (ds ++ [name])) := by
  have hn : ∀ p ∈ ds ++ [name], IsName p := fun p hp => hd.names _ _ hx p (by rw [List.mem_append]; exact .inr hp)
  refine ⟨Spelled h (ds ++ [name]), Spelled h' (ds ++ [name]), ?_, C70_whole ord disk hd folders hf h place ds name v hl hc hm hx hds hy hv,
    C70_whole ord disk hd folders hf h' place ds name v hl' hc' hm' hx hds hy hv', leads_spelled hl hn, leads_spelled hl' hn⟩
  intro he
  unfold Spelled at he
  exact hne (List.append_cancel_right he)

/-- C70. The lists the reader itself offers are always empty, whatever it reads. -/
theorem C70_reader_lists (ord : SetOrder) (disk : Disk) (r : RepoAt) (ls : List FDef × List FDef × List FDef)
    (h : readerLists ord disk r = .ok ls) : ls = ([], [], []) := by
  unfold readerLists at h
  cases hr : readProject ord disk r with
  | error e => rw [hr] at h; cases h
  | ok out => rw [hr] at h; cases h; rfl

end ML
