import Verif.Repo.PropsMore
/-
C70: the kind of a repository, its dbt project, the folders of a project as it is started, and an example.
-/
set_option autoImplicit false
namespace ML
open Spec

theorem sublist_filterMap {α β γ : Type} {f : α → Option β} {g : β → γ} {k : α → γ} {l : List α} (h : ∀ a ∈ l, ∀ b, f a = some b → g b = k a) :
    ((l.filterMap f).map g).Sublist (l.map k) := by
  induction l with
  | nil => exact .slnil
  | cons a l ih =>
    have ih := ih (fun x hx => h x (by simp [hx]))
    rw [List.filterMap_cons]
    cases hf : f a with
    | none => exact ih.cons _
    | some b =>
      simp only [List.map_cons]
      rw [h a (by simp) b hf]
      exact ih.cons_cons _

theorem globDeep_nodup {disk : Disk} (hd : RealDisk disk) {f h : PathText} {place : List PathName} (hc : Cut f h [] place) (pat : FilePattern) :
    (globDeep disk f pat).Nodup := by
  have hs : ((globDeep disk f pat).map resolvePath).Sublist (disk.map Prod.fst) := by
    unfold globDeep
    apply sublist_filterMap
    rintro ⟨pl, c⟩ hm t ht
    simp only [leads_resolve (cut_leads hc)] at ht
    cases hb : placeBelow place pl with
    | none => rw [hb] at ht; cases ht
    | some rest =>
      rw [hb] at ht
      simp only at ht
      rw [placeBelow_iff] at hb
      cases hg : rest.getLast? with
      | none => rw [hg] at ht; cases ht
      | some name =>
        rw [hg] at ht
        simp only at ht
        split at ht
        · have hne : rest ≠ [] := by rintro rfl; cases hg
          have hn : ∀ p ∈ rest, IsName p := fun p hp => hd.names _ _ hm p (by rw [hb, List.mem_append]; exact .inr hp)
          rw [pathHead_cut hc, foldl_pathJoin hc.clean hn hne] at ht
          cases ht
          rw [leads_resolve (leads_spelled hc.leads hn), hb]
        · cases ht
  exact List.Nodup.of_map _ (hd.apart.sublist hs)

theorem projectSearch {disk : Disk} (hd : RealDisk disk) {f h : PathText} {base : List PathName} (hc : Cut f h [] base) :
    (repoSearch disk (.named "zenlytic_project.yaml") [f] ++ repoSearch disk (.named "zenlytic_project.yml") [f]).Nodup ∧
    ∀ t, t ∈ repoSearch disk (.named "zenlytic_project.yaml") [f] ++ repoSearch disk (.named "zenlytic_project.yml") [f] ↔
      ∃ ds name c, ProjectBelow disk h base ds name c ∧ t = Spelled h (ds ++ [name]) := by
  have sl := (cut_slash hc).2 rfl
  have gs : ∀ pat, globSearch disk f pat = globDeep disk f pat := fun pat => by unfold globSearch; rw [if_pos sl]
  have mem : ∀ n t, t ∈ repoSearch disk (.named n) [f] ↔ ∃ ds c, (base ++ (ds ++ [n.toList]), c) ∈ disk ∧ (∀ d ∈ ds, ¬ Hidden d) ∧
      ¬ "venv".toList <:+: Spelled h (ds ++ [n.toList]) ∧ t = Spelled h (ds ++ [n.toList]) := by
    intro n t
    rw [repoSearch_mem]
    constructor
    · rintro ⟨⟨f', hf', ht⟩, hv⟩
      rw [List.mem_singleton] at hf'
      subst hf'
      rw [gs, globDeep_mem hd hc] at ht
      obtain ⟨ds, name, ⟨c, hm⟩, hds, hh, rfl⟩ := ht
      have : name = n.toList := by simpa [FilePattern.hits] using hh
      subst this
      exact ⟨ds, c, hm, hds, hv, rfl⟩
    · rintro ⟨ds, c, hm, hds, hv, rfl⟩
      refine ⟨⟨f, by simp, ?_⟩, hv⟩
      rw [gs, globDeep_mem hd hc]
      exact ⟨ds, _, ⟨c, hm⟩, hds, by simp [FilePattern.hits], rfl⟩
  constructor
  · have one : ∀ n, (repoSearch disk (.named n) [f]).Nodup := by
      intro n
      unfold repoSearch
      simp only [List.flatMap_cons, List.flatMap_nil, List.append_nil]
      rw [gs]
      exact (globDeep_nodup hd hc _).filter _
    rw [List.nodup_append]
    refine ⟨one _, one _, ?_⟩
    rintro t h1 t' h2 rfl
    rw [mem] at h1 h2
    obtain ⟨ds, c, hm, _, _, e⟩ := h1
    obtain ⟨ds', c', hm', _, _, e'⟩ := h2
    have n1 : ∀ p ∈ ds ++ ["zenlytic_project.yaml".toList], IsName p := fun p hp => hd.names _ _ hm p (by rw [List.mem_append]; exact .inr hp)
    have n2 : ∀ p ∈ ds' ++ ["zenlytic_project.yml".toList], IsName p := fun p hp => hd.names _ _ hm' p (by rw [List.mem_append]; exact .inr hp)
    have l1 := leads_spelled hc.leads n1
    have l2 := leads_spelled hc.leads n2
    rw [← e] at l1
    rw [← e'] at l2
    have := List.append_cancel_left (leads_unique l1 l2)
    have := (List.append_inj' this rfl).2
    simp at this
  · intro t
    rw [List.mem_append, mem, mem]
    constructor
    · rintro (⟨ds, c, hm, hds, hv, rfl⟩ | ⟨ds, c, hm, hds, hv, rfl⟩)
      · exact ⟨ds, _, c, ⟨hm, hds, .inr rfl, hv⟩, rfl⟩
      · exact ⟨ds, _, c, ⟨hm, hds, .inl rfl, hv⟩, rfl⟩
    · rintro ⟨ds, name, c, ⟨hm, hds, hn | hn, hv⟩, rfl⟩
      · subst hn; exact .inr ⟨ds, c, hm, hds, hv, rfl⟩
      · subst hn; exact .inl ⟨ds, c, hm, hds, hv, rfl⟩

/-- C70. The kind of a repository is the one asked for, else the mode in the one project file anywhere below its folder; with none or with more
than one of them it is `metrics_layer`, whatever they say. -/
theorem C70_type (disk : Disk) (hd : RealDisk disk) (r : RepoAt) (h : PathText) (base : List PathName) (hf : r.folder = h ++ "/".toList)
    (hc : ∀ u, h ≠ u ++ "/".toList) (hl : Leads h base) :
    (∀ k, r.kind = some k → k ≠ "" → repoType disk r = .ok (.str k)) ∧
    (∀ ds name c, (r.kind = none ∨ r.kind = some "") → ProjectBelow disk h base ds name c →
      (∀ ds' name' c', ProjectBelow disk h base ds' name' c' → ds' = ds ∧ name' = name) →
      (∀ d v, c = .ok (.dict d) → Given d "mode" v → repoType disk r = .ok v) ∧
      (∀ d, c = .ok (.dict d) → ¬ HasKey d "mode" → repoType disk r = .ok (.str "metrics_layer")) ∧
      (∀ v, c = .ok v → ¬ Dictionary v → repoType disk r = .error .attributeError)) ∧
    ((r.kind = none ∨ r.kind = some "") → (∀ ds name c, ¬ ProjectBelow disk h base ds name c) → repoType disk r = .ok (.str "metrics_layer")) ∧
    (∀ ds name c ds' name' c', (r.kind = none ∨ r.kind = some "") → ProjectBelow disk h base ds name c → ProjectBelow disk h base ds' name' c' →
      (ds, name) ≠ (ds', name') → repoType disk r = .ok (.str "metrics_layer")) := by
  have hcut : Cut r.folder h [] base := ⟨⟨0, by rw [hf]; simp, fun _ => rfl⟩, by simp, hc, hl⟩
  obtain ⟨hnd, hmem⟩ := projectSearch hd hcut
  have ht : (r.kind = none ∨ r.kind = some "") → repoType disk r = repoType.searched disk r := by
    rintro (hk | hk)
    · unfold repoType; rw [hk]
    · unfold repoType; rw [hk]; rfl
  refine ⟨?_, ?_, ?_, ?_⟩
  · intro k hk hne
    unfold repoType
    rw [hk]
    simp only
    rw [if_neg hne]
  · intro ds name c hk hb hu
    have hL : repoSearch disk (.named "zenlytic_project.yaml") [r.folder] ++ repoSearch disk (.named "zenlytic_project.yml") [r.folder] =
        [Spelled h (ds ++ [name])] := by
      have hall : ∀ t ∈ repoSearch disk (.named "zenlytic_project.yaml") [r.folder] ++ repoSearch disk (.named "zenlytic_project.yml") [r.folder],
          t = Spelled h (ds ++ [name]) := by
        intro t htm
        obtain ⟨ds', name', c', hb', rfl⟩ := (hmem t).1 htm
        obtain ⟨rfl, rfl⟩ := hu _ _ _ hb'
        rfl
      have hin := (hmem (Spelled h (ds ++ [name]))).2 ⟨ds, name, c, hb, rfl⟩
      generalize repoSearch disk (.named "zenlytic_project.yaml") [r.folder] ++ repoSearch disk (.named "zenlytic_project.yml") [r.folder] = L
        at hnd hall hin
      match L, hnd, hall, hin with
      | [], _, _, hin => cases hin
      | [a], _, hall, _ => rw [hall a (by simp)]
      | a :: b :: L, hnd, hall, _ =>
        have e1 := hall a (by simp)
        have e2 := hall b (by simp)
        rw [List.nodup_cons] at hnd
        exact absurd (by simp [e1, e2]) hnd.1
    have hn : ∀ p ∈ ds ++ [name], IsName p := fun p hp => hd.names _ _ hb.1 p (by rw [List.mem_append]; exact .inr hp)
    have hr := readFile_of hd (leads_spelled hl hn) hb.1
    have hs : repoType disk r = match readFile disk (Spelled h (ds ++ [name])) with
      | .error e => .error e
      | .ok (.dict d) => .ok ((dictGet d "mode").getD (.str "metrics_layer"))
      | .ok _ => .error .attributeError := by
      rw [ht hk]
      unfold repoType.searched
      rw [hL]
      rfl
    rw [hs, hr]
    refine ⟨?_, ?_, ?_⟩
    · rintro d v rfl hv
      simp only
      rw [show dictGet d "mode" = _ from hv]
      rfl
    · rintro d rfl hv
      simp only
      cases hg : dictGet d "mode" with
      | none => rfl
      | some v => exact absurd ⟨v, hg⟩ hv
    · rintro v rfl hv
      cases v with
      | dict d => exact absurd ⟨d, rfl⟩ hv
      | _ => rfl
  · intro hk hno
    rw [ht hk]
    unfold repoType.searched
    have : repoSearch disk (.named "zenlytic_project.yaml") [r.folder] ++ repoSearch disk (.named "zenlytic_project.yml") [r.folder] = [] := by
      rw [List.eq_nil_iff_forall_not_mem]
      intro t htm
      obtain ⟨ds, name, c, hb, _⟩ := (hmem t).1 htm
      exact hno ds name c hb
    rw [this]
  · intro ds name c ds' name' c' hk hb hb' hne
    rw [ht hk]
    have n1 : ∀ p ∈ ds ++ [name], IsName p := fun p hp => hd.names _ _ hb.1 p (by rw [List.mem_append]; exact .inr hp)
    have n2 : ∀ p ∈ ds' ++ [name'], IsName p := fun p hp => hd.names _ _ hb'.1 p (by rw [List.mem_append]; exact .inr hp)
    have h1 := (hmem _).2 ⟨ds, name, c, hb, rfl⟩
    have h2 := (hmem _).2 ⟨ds', name', c', hb', rfl⟩
    have hne' : Spelled h (ds ++ [name]) ≠ Spelled h (ds' ++ [name']) := by
      intro e
      have l1 := leads_spelled hl n1
      have l2 := leads_spelled hl n2
      rw [e] at l1
      have := List.append_cancel_left (leads_unique l1 l2)
      have := List.append_inj' this rfl
      apply hne
      rw [this.1, (List.cons.inj this.2).1]
    unfold repoType.searched
    generalize repoSearch disk (.named "zenlytic_project.yaml") [r.folder] ++ repoSearch disk (.named "zenlytic_project.yml") [r.folder] = L
      at h1 h2
    match L, h1, h2 with
    | [], h1, _ => cases h1
    | [a], h1, h2 =>
      rw [List.mem_singleton] at h1 h2
      exact absurd (h1.trans h2.symm) hne'
    | _ :: _ :: _, _, _ => rfl

/-- C70. A project as it is started, with `models` and `views` as its paths: read are the YAML files that lie directly in a folder of the
repository whose name begins with `models` or `views`, and no others. -/
theorem C70_started (disk : Disk) (hd : RealDisk disk) (r : RepoAt) (hr : RealRepo r) (h : PathText) (base : List PathName)
    (hf : r.folder = h ++ "/".toList) (hc : ∀ u, h ≠ u ++ "/".toList) (hl : Leads h base) (d : FDef) (hp : ProjectFile disk r (.dict d))
    (hm : Given d "model-paths" (.list [.str "models"])) (hv : Given d "view-paths" (.list [.str "views"])) (hds : ¬ HasKey d "dashboard-paths") :
    ∃ folders, allFolders disk r = .ok folders ∧ (∀ f ∈ folders, ∃ h c place, Cut f h c place) ∧
      ∀ t place, Found disk folders t place ↔ ∃ dir name v, place = base ++ [dir, name] ∧ t = Spelled h [dir, name] ∧ (place, v) ∈ disk ∧
        ("models".toList <+: dir ∨ "views".toList <+: dir) ∧ YamlName name ∧ ¬ "venv".toList <:+: t := by
  have hne : d ≠ [] := by rintro rfl; cases hm
  obtain ⟨fs, h1, h2⟩ := C70_folders disk hd r hr d hp hne ["models"] ["views"] [] hm hv (.inr ⟨hds, rfl⟩)
  have rel : ∀ s f, MeantFolder r.folder s f → (¬ ∃ cs, s.toList = '/' :: cs) → f = h ++ '/' :: s.toList := by
    rintro s f (⟨hc, _⟩ | ⟨_, hf'⟩) hn
    · exact absurd hc hn
    · rw [hf', hf, List.append_assoc]; rfl
  obtain ⟨f1, f2, rfl, e1, e2⟩ : ∃ f1 f2, fs = [f1, f2] ∧ f1 = h ++ '/' :: "models".toList ∧ f2 = h ++ '/' :: "views".toList := by
    cases h2 with
    | cons a h2 =>
      cases h2 with
      | cons b h2 =>
        cases h2
        exact ⟨_, _, rfl, rel _ _ a (by rintro ⟨cs, h⟩; simp at h), rel _ _ b (by rintro ⟨cs, h⟩; simp at h)⟩
  have nm : IsName "models".toList := ⟨by decide, by decide, by decide, by decide⟩
  have nv : IsName "views".toList := ⟨by decide, by decide, by decide, by decide⟩
  have c1 : Cut f1 h "models".toList base := ⟨⟨0, by rw [e1]; simp, fun _ => rfl⟩, nm.whole, hc, hl⟩
  have c2 : Cut f2 h "views".toList base := ⟨⟨0, by rw [e2]; simp, fun _ => rfl⟩, nv.whole, hc, hl⟩
  have only : ∀ (f : PathText) (c : PathName), Cut f h c base → c ≠ [] → ¬ Hidden c → ∀ t place, Searched f t place →
      ∃ dir name, place = base ++ [dir, name] ∧ t = Spelled h [dir, name] ∧ c <+: dir ∧ YamlName name := by
    intro f c hcut hcne hhid t place hs
    cases hs with
    | below hc' _ _ => exact absurd ((cut_slash hcut).1 ((cut_slash hc').2 rfl)) hcne
    | @beside h' place' c' d' name' hc' _ hpre _ hy =>
      have et := pathTail_cut hc'
      rw [pathTail_cut hcut] at et
      have eh := pathHead_cut hc'
      rw [pathHead_cut hcut] at eh
      have eb := leads_resolve (leads_head hc'.leads)
      rw [← eh, leads_resolve (leads_head hl)] at eb
      have ehh : h' = h := by
        unfold headText at eh
        by_cases q1 : h = []
        · by_cases q2 : h' = []
          · rw [q1, q2]
          · rw [if_pos q1, if_neg q2] at eh
            exact absurd eh.symm (hc'.clean [])
        · by_cases q2 : h' = []
          · rw [if_neg q1, if_pos q2] at eh
            exact absurd eh (hc [])
          · rw [if_neg q1, if_neg q2] at eh
            exact eh.symm
      subst ehh; subst et; subst eb
      exact ⟨d', name', rfl, rfl, hpre, hy⟩
  have notHid : ∀ (c : PathName), ¬ Hidden c → c ≠ [] → ∀ dir, c <+: dir → ¬ Hidden dir := by
    rintro c hh hne dir ⟨x, hx⟩ ⟨cs, hcs⟩
    cases c with
    | nil => exact hne rfl
    | cons a c =>
      rw [hcs] at hx
      exact hh ⟨c, by rw [(List.cons.inj hx).1]⟩
  have hm' : ¬ Hidden "models".toList := by rintro ⟨cs, h⟩; simp at h
  have hv' : ¬ Hidden "views".toList := by rintro ⟨cs, h⟩; simp at h
  refine ⟨_, h1, ?_, ?_⟩
  · intro f hfm
    rcases List.mem_cons.1 hfm with rfl | hfm
    · exact ⟨_, _, _, c1⟩
    · rw [List.mem_singleton] at hfm
      subst hfm
      exact ⟨_, _, _, c2⟩
  · intro t place
    constructor
    · rintro ⟨⟨f, hfm, hs⟩, ⟨v, hx⟩, hvv⟩
      rcases List.mem_cons.1 hfm with rfl | hfm
      · obtain ⟨dir, name, a, b, c, e⟩ := only _ _ c1 nm.some hm' _ _ hs
        exact ⟨dir, name, v, a, b, hx, .inl c, e, hvv⟩
      · rw [List.mem_singleton] at hfm
        subst hfm
        obtain ⟨dir, name, a, b, c, e⟩ := only _ _ c2 nv.some hv' _ _ hs
        exact ⟨dir, name, v, a, b, hx, .inr c, e, hvv⟩
    · rintro ⟨dir, name, v, rfl, rfl, hx, hpre | hpre, hy, hvv⟩
      · exact ⟨⟨f1, by simp, .beside c1 nm.some hpre (fun hh => absurd hh (notHid _ hm' nm.some _ hpre)) hy⟩, ⟨v, hx⟩, hvv⟩
      · exact ⟨⟨f2, by simp, .beside c2 nv.some hpre (fun hh => absurd hh (notHid _ hv' nv.some _ hpre)) hy⟩, ⟨v, hx⟩, hvv⟩

/-- C70. What a repository of each kind is read with; another kind is a TypeError. -/
theorem C70_kinds (conv : MfConvert) (ord : SetOrder) (disk : Disk) (r : RepoAt) (k : Yaml) (h : repoType disk r = .ok k) :
    (k = .str "metrics_layer" → loadRepo conv ord disk r = readProject ord disk r) ∧
    (k = .str "metricflow" → loadRepo conv ord disk r = readMetricflow conv disk r) ∧
    (k ≠ .str "metrics_layer" → k ≠ .str "metricflow" → loadRepo conv ord disk r = .error .typeError) := by
  unfold loadRepo
  rw [h]
  refine ⟨?_, ?_, ?_⟩
  · rintro rfl; rfl
  · rintro rfl; rfl
  · intro h1 h2
    split
    · rename_i he; cases he
    · rename_i he; cases he; exact absurd rfl h2
    · rename_i he; cases he; exact absurd rfl h1
    · rfl

/-- C70. A Metricflow project is what the converter makes of the dbt project, with the profile of the project file, else the dbt project's, else
the dbt project's name; it has no dashboards, and without a dbt project it is a QueryError. -/
theorem C70_metricflow (conv : MfConvert) (disk : Disk) (hd : RealDisk disk) (r : RepoAt) (hr : RealRepo r) (u : PathText) (hu : r.dbt = some u) :
    (NoFile disk (u ++ "dbt_project.yml".toList) → readMetricflow conv disk r = .error .query) ∧
    (∀ v, FileIs disk (u ++ "dbt_project.yml".toList) v → v ≠ .null → ¬ Dictionary v → readMetricflow conv disk r = .error .typeError) ∧
    (∀ dbt, FileIs disk (u ++ "dbt_project.yml".toList) (.dict dbt) → ¬ HasKey dbt "name" → readMetricflow conv disk r = .error .keyError) ∧
    ∀ dbt name p z, FileIs disk (u ++ "dbt_project.yml".toList) (.dict dbt) → Given dbt "name" name → ProjectFile disk r (.dict z) →
      (Given z "profile" p ∨ ¬ HasKey z "profile" ∧ (Given dbt "profile" p ∨ ¬ HasKey dbt "profile" ∧ p = name)) →
      (∀ e, conv u p p = .error e → readMetricflow conv disk r = .error e) ∧
      ∀ ms vs, conv u p p = .ok (ms, vs) → readMetricflow conv disk r = .ok ⟨ms, vs, [], [], []⟩ := by
  obtain ⟨t, base, ht, hl⟩ := hr.dbt u hu
  have ed : dbtFolder r = u := by
    unfold dbtFolder
    rw [hu]
    simp only
    rw [if_neg (by rw [ht]; simp)]
  have ej : pathJoin u "dbt_project.yml".toList = t ++ '/' :: "dbt_project.yml".toList := by
    rw [ht]
    unfold pathJoin
    rw [if_neg (by decide), if_pos (.inr (by rw [List.getLast?_append]; rfl)), List.append_assoc]
    rfl
  have eu : u ++ "dbt_project.yml".toList = t ++ '/' :: "dbt_project.yml".toList := by rw [ht, List.append_assoc]; rfl
  have get : ∀ (d : FDef) k v, ¬ HasKey d k → (dictGet d k).getD v = v := by
    intro d k v hk
    cases hg : dictGet d k with
    | none => rfl
    | some w => exact absurd ⟨w, hg⟩ hk
  refine ⟨?_, ?_, ?_, ?_⟩
  · intro hno
    rw [eu] at hno
    unfold readMetricflow
    rw [ed, ej, readIfExists_none hl hno]
  · intro v hfile hnn hnd
    unfold readMetricflow
    rw [ed, ej, ← eu, readIfExists_is hd hfile]
    cases v with
    | null => exact absurd rfl hnn
    | dict d => exact absurd ⟨d, rfl⟩ hnd
    | _ => rfl
  · intro dbt hfile hno
    unfold readMetricflow
    rw [ed, ej, ← eu, readIfExists_is hd hfile]
    simp only [mfProfile]
    cases hg : dictGet dbt "name" with
    | none => rfl
    | some w => exact absurd ⟨w, hg⟩ hno
  · intro dbt name p z hfile hname hz hp
    have hprof : mfProfile disk r dbt = .ok p := by
      unfold mfProfile
      rw [show dictGet dbt "name" = _ from hname]
      simp only
      rw [zenlyticProject_is hd hr hz]
      simp only
      have inner : ¬ HasKey z "profile" → (dictGet dbt "profile").getD name = p := by
        intro hk
        rcases hp with hp | ⟨_, hp | ⟨hp, rfl⟩⟩
        · exact absurd ⟨p, hp⟩ hk
        · rw [show dictGet dbt "profile" = _ from hp]; rfl
        · rw [get dbt _ _ hp]
      by_cases hk : HasKey z "profile"
      · obtain ⟨q, hq⟩ := hk
        have hqp : q = p := by
          rcases hp with hp | ⟨hp, _⟩
          · have : some q = some p := (show dictGet z "profile" = some q from hq).symm.trans hp
            exact Option.some.inj this
          · exact absurd ⟨q, hq⟩ hp
        have tr : (Yaml.dict z).truthy = true := by
          cases z with
          | nil => cases hq
          | cons _ _ => rfl
        rw [if_pos tr, show dictGet z "profile" = _ from hq, hqp]
        rfl
      · split
        · rw [get z _ _ hk, inner hk]
        · rw [inner hk]
    constructor
    · intro e he
      unfold readMetricflow
      rw [ed, ej, ← eu, readIfExists_is hd hfile]
      simp only
      rw [hprof]
      simp only
      rw [he]
    · intro ms vs he
      unfold readMetricflow
      rw [ed, ej, ← eu, readIfExists_is hd hfile]
      simp only
      rw [hprof]
      simp only
      rw [he]

/-- C70. A project file that is no dictionary: nothing is searched if it is empty; a list or a text is refused, with a TypeError if it has the
words `model-paths` as an item or in it, and with a KeyError if not; a number or `true` is refused with a TypeError. -/
theorem C70_file_strange (ord : SetOrder) (disk : Disk) (hd : RealDisk disk) (r : RepoAt) (hr : RealRepo r) (v : Yaml) (h : ProjectFile disk r v) :
    (Nothing v → allFolders disk r = .ok []) ∧
    (∀ l, v = .list l → Yaml.str "model-paths" ∈ l → readProject ord disk r = .error .typeError) ∧
    (∀ l, v = .list l → l ≠ [] → Yaml.str "model-paths" ∉ l → readProject ord disk r = .error .keyError) ∧
    (∀ t, v = .str t → "model-paths".toList <:+: t.toList → readProject ord disk r = .error .typeError) ∧
    (∀ t, v = .str t → t ≠ "" → ¬ "model-paths".toList <:+: t.toList → readProject ord disk r = .error .keyError) ∧
    (¬ Nothing v → ¬ Dictionary v → ¬ Listed v → ¬ Text v → readProject ord disk r = .error .typeError) := by
  have hz := zenlyticProject_is hd hr h
  have stop : ∀ e, v.truthy = true → projectKey v "model-paths" = .error e → readProject ord disk r = .error e := by
    intro e ht hk
    unfold readProject allFolders getFolders
    rw [hz]
    simp only
    rw [if_neg (by rw [ht]; simp), hk]
  have miss : v.truthy = true → projectKey v "model-paths" = .ok none → readProject ord disk r = .error .keyError := by
    intro ht hk
    unfold readProject allFolders getFolders
    rw [hz]
    simp only
    rw [if_neg (by rw [ht]; simp), hk]
    rfl
  have some' : ∀ w : Yaml, ¬ Nothing w → w.truthy = true := by
    intro w hw
    cases ht : w.truthy with
    | true => rfl
    | false => exact absurd ((truthy_iff w).1 ht) hw
  have textOf : ∀ w : Yaml, w.text? = some "model-paths" ↔ w = .str "model-paths" := by
    intro w; cases w <;> simp [Yaml.text?]
  refine ⟨?_, ?_, ?_, ?_, ?_, ?_⟩
  · intro hn
    have ht : v.truthy = false := (truthy_iff v).2 hn
    have one : ∀ k b, getFolders disk r k b = .ok [] := by
      intro k b
      unfold getFolders
      rw [hz]
      simp only
      rw [if_pos ht]
    unfold allFolders
    rw [one, one, one]
    rfl
  · rintro l rfl hm
    refine stop _ ?_ ?_
    · cases l with
      | nil => cases hm
      | cons a l => rfl
    · unfold projectKey
      simp only
      rw [if_pos (List.any_eq_true.mpr ⟨_, hm, by simp [Yaml.text?]⟩)]
  · rintro l rfl hne hm
    refine miss ?_ ?_
    · cases l with
      | nil => exact absurd rfl hne
      | cons a l => rfl
    · unfold projectKey
      simp only
      rw [if_neg]
      intro hc
      obtain ⟨w, hw, hx⟩ := List.any_eq_true.mp hc
      rw [decide_eq_true_eq, textOf] at hx
      exact hm (hx ▸ hw)
  · rintro t rfl hin
    refine stop _ ?_ ?_
    · refine some' _ fun hn => ?_
      cases hn
      exact absurd hin (by decide +kernel)
    · unfold projectKey
      simp only
      rw [if_pos]
      obtain ⟨a, b, hab⟩ := hin
      exact (containsSub_iff _ _).2 ⟨a, b, by rw [← hab]⟩
  · rintro t rfl hne hin
    refine miss ?_ ?_
    · refine some' _ fun hn => ?_
      cases hn
      exact hne rfl
    · unfold projectKey
      simp only
      rw [if_neg]
      intro hc
      obtain ⟨a, b, hab⟩ := (containsSub_iff _ _).1 hc
      exact hin ⟨a, b, by rw [hab]⟩
  · intro hn h1 h2 h3
    refine stop _ (some' _ hn) ?_
    cases v with
    | dict d => exact absurd ⟨d, rfl⟩ h1
    | list l => exact absurd ⟨l, rfl⟩ h2
    | str t => exact absurd ⟨t, rfl⟩ h3
    | _ => rfl

end ML
