import Verif.Repo.Search
import Verif.FieldCheck.Lemmas
/-
C70: a project is what is in the YAML files of the folders its project file names.
-/
set_option autoImplicit false
namespace ML
open Spec

/-- C70. The files that are read are exactly those found: `Found` says for each folder which paths are searched. -/
theorem C70_found (ord : SetOrder) (disk : Disk) (hd : RealDisk disk) (folders : List PathText)
    (hf : ∀ f ∈ folders, ∃ h c place, Cut f h c place) (t : PathText) :
    t ∈ yamlFiles ord disk folders ↔ ∃ place, Found disk folders t place := by
  unfold yamlFiles
  rw [ord.mem, List.mem_append, repoSearch_mem, repoSearch_mem]
  constructor
  · rintro (⟨⟨f, hm, ht⟩, hv⟩ | ⟨⟨f, hm, ht⟩, hv⟩)
    · obtain ⟨place, hs, hx⟩ := (globSearch_yaml hd (hf f hm) t).1 (.inl ht)
      exact ⟨place, ⟨f, hm, hs⟩, hx, hv⟩
    · obtain ⟨place, hs, hx⟩ := (globSearch_yaml hd (hf f hm) t).1 (.inr ht)
      exact ⟨place, ⟨f, hm, hs⟩, hx, hv⟩
  · rintro ⟨place, ⟨f, hm, hs⟩, hx, hv⟩
    rcases (globSearch_yaml hd (hf f hm) t).2 ⟨place, hs, hx⟩ with h | h
    · exact .inl ⟨⟨f, hm, h⟩, hv⟩
    · exact .inr ⟨⟨f, hm, h⟩, hv⟩

/-- C70. A folder written with a slash at its end is read as a whole: every YAML file below it, at any depth, unless something on the way is
hidden or the path has `venv` in it. -/
theorem C70_whole (ord : SetOrder) (disk : Disk) (hd : RealDisk disk) (folders : List PathText)
    (hf : ∀ f ∈ folders, ∃ h c place, Cut f h c place) (h : PathText) (place ds : List PathName) (name : PathName) (v : Res Yaml)
    (hc : Leads h place) (hcl : ∀ h', h ≠ h' ++ "/".toList) (hm : h ++ "/".toList ∈ folders) (hx : (place ++ (ds ++ [name]), v) ∈ disk)
    (hds : ∀ d ∈ ds, ¬ Hidden d) (hy : YamlName name) (hv : ¬ "venv".toList <:+: Spelled h (ds ++ [name])) :
    Spelled h (ds ++ [name]) ∈ yamlFiles ord disk folders := by
  rw [C70_found ord disk hd folders hf]
  refine ⟨_, ⟨_, hm, .below (h := h) (place := place) ⟨⟨0, by simp, fun _ => rfl⟩, by simp, hcl, hc⟩ hds hy⟩, ⟨v, hx⟩, hv⟩

/-- C70. A folder written without a slash at its end is not: whatever is found through it lies exactly one folder below the folder's parent, so
nothing in its subfolders is read, and what is in another folder whose name begins the same is. -/
theorem C70_subfolders (h : PathText) (place : List PathName) (c : PathName) (hc : Leads h place) (hcl : ∀ h', h ≠ h' ++ "/".toList)
    (hn : IsName c) :
    (∀ t pl, Searched (h ++ '/' :: c) t pl → pl.length = place.length + 2) ∧
    (∀ ds name t, ds ≠ [] → ¬ Searched (h ++ '/' :: c) t (place ++ [c] ++ (ds ++ [name]))) ∧
    ∀ d name, c <+: d → (Hidden d → Hidden c) → YamlName name → Searched (h ++ '/' :: c) (Spelled h [d, name]) (place ++ [d, name]) := by
  have hcut : Cut (h ++ '/' :: c) h c place := ⟨⟨0, by simp, fun _ => rfl⟩, hn.whole, hcl, hc⟩
  have key : ∀ t pl, Searched (h ++ '/' :: c) t pl → pl.length = place.length + 2 := by
    intro t pl hs
    cases hs with
    | below hc' _ _ =>
      have := (cut_slash hcut).1 ((cut_slash hc').2 rfl)
      exact absurd this hn.some
    | beside hc' _ _ _ _ =>
      have e := pathHead_cut hcut
      rw [pathHead_cut hc'] at e
      have := leads_resolve (leads_head hc'.leads)
      rw [e, leads_resolve (leads_head hc)] at this
      simp [this]
  refine ⟨key, ?_, ?_⟩
  · intro ds name t hne hs
    have := key _ _ hs
    cases ds with
    | nil => exact hne rfl
    | cons d ds => simp at this
  · intro d name hp hi hy
    exact .beside hcut hn.some hp hi hy

/-- C70. When a project can be read, its models are the files found of the type `model`, one for one, with what is in them and where they are;
and so for the views and the dashboards. -/
theorem C70_load (ord : SetOrder) (disk : Disk) (hd : RealDisk disk) (r : RepoAt) (base : List PathName) (hb : Leads r.folder base)
    (folders : List PathText) (hfs : allFolders disk r = .ok folders) (hf : ∀ f ∈ folders, ∃ h c place, Cut f h c place)
    (out : ReadIn) (h : readProject ord disk r = .ok out) :
    LoadedOf disk r.folder folders "model" out.models ∧ LoadedOf disk r.folder folders "view" out.views ∧
    LoadedOf disk r.folder folders "dashboard" out.dashboards := by
  unfold readProject at h
  rw [hfs] at h
  simp only at h
  obtain ⟨_, h1, h2, h3, _, _⟩ := readFiles_ok h
  simp only [nothingRead, List.nil_append] at h1 h2 h3
  have gen : ∀ k, LoadedOf disk r.folder folders k ((yamlFiles ord disk folders).filterMap (loadedOne disk r k)) :=
    fun k => loadedOf_files hd hb (ord.nodup _) (C70_found ord disk hd folders hf) k
  exact ⟨h1 ▸ gen _, h2 ▸ gen _, h3 ▸ gen _⟩

/-- C70. Reading fails with an exception when, and only when, a file that is found cannot be read or is not a dictionary: an empty file does. -/
theorem C70_load_fails (ord : SetOrder) (disk : Disk) (hd : RealDisk disk) (r : RepoAt) (folders : List PathText)
    (hfs : allFolders disk r = .ok folders) (hf : ∀ f ∈ folders, ∃ h c place, Cut f h c place) :
    (∃ e, readProject ord disk r = .error e) ↔ ∃ t place, Found disk folders t place ∧ ∀ d, (place, .ok (.dict d)) ∉ disk := by
  unfold readProject
  rw [hfs]
  simp only
  rw [readFiles_fails]
  constructor
  · rintro ⟨t, ht, hn⟩
    obtain ⟨place, hfd⟩ := (C70_found ord disk hd folders hf t).1 ht
    exact ⟨t, place, hfd, fun d hm => hn d (readFile_of hd (found_leads hd hfd) hm)⟩
  · rintro ⟨t, place, hfd, hn⟩
    refine ⟨t, (C70_found ord disk hd folders hf t).2 ⟨place, hfd⟩, ?_⟩
    intro d hr
    obtain ⟨_, ⟨v, hv⟩, _⟩ := id hfd
    rw [readFile_of hd (found_leads hd hfd) hv] at hr
    subst hr
    exact hn d hv

theorem readFiles_error {disk : Disk} {r : RepoAt} {l : List PathText} : ∀ {acc : ReadIn} {e : Err}, readFiles disk r l acc = .error e →
    e = .typeError ∨ ∃ t ∈ l, readFile disk t = .error e := by
  induction l with
  | nil => intro acc e h; cases h
  | cons t l ih =>
    intro acc e h
    unfold readFiles at h
    cases hs : readFileStep disk r acc t with
    | ok acc' =>
      rw [hs] at h
      rcases ih h with h | ⟨u, hu, hr⟩
      · exact .inl h
      · exact .inr ⟨u, List.mem_cons_of_mem _ hu, hr⟩
    | error e' =>
      rw [hs] at h
      cases h
      unfold readFileStep at hs
      cases hr : readFile disk t with
      | error e'' => rw [hr] at hs; cases hs; exact .inr ⟨t, List.mem_cons_self, hr⟩
      | ok v =>
        rw [hr] at hs
        left
        cases v with
        | dict d =>
          simp only at hs
          split at hs
          · cases hs
          · split at hs <;> cases hs
        | _ => cases hs; rfl

/-- C70. The exception is the one of a file that cannot be read, or a TypeError. -/
theorem C70_load_raises (ord : SetOrder) (disk : Disk) (hd : RealDisk disk) (r : RepoAt) (folders : List PathText)
    (hfs : allFolders disk r = .ok folders) (hf : ∀ f ∈ folders, ∃ h c place, Cut f h c place) (e : Err) (h : readProject ord disk r = .error e) :
    e = .typeError ∨ ∃ t place, Found disk folders t place ∧ (place, .error e) ∈ disk := by
  unfold readProject at h
  rw [hfs] at h
  rcases readFiles_error h with h | ⟨t, ht, hr⟩
  · exact .inl h
  · obtain ⟨place, hfd⟩ := (C70_found ord disk hd folders hf t).1 ht
    refine .inr ⟨t, place, hfd, ?_⟩
    obtain ⟨_, ⟨v, hv⟩, _⟩ := id hfd
    rw [readFile_of hd (found_leads hd hfd) hv] at hr
    exact hr ▸ hv

/-- C70. The order in which the files are read does not matter, except for the order of what is read. -/
theorem C70_order (o o' : SetOrder) (disk : Disk) (r : RepoAt) (out out' : ReadIn) (h : readProject o disk r = .ok out)
    (h' : readProject o' disk r = .ok out') :
    out.models.Perm out'.models ∧ out.views.Perm out'.views ∧ out.dashboards.Perm out'.dashboards ∧ out.noType.Perm out'.noType ∧
    out.strange.Perm out'.strange := by
  unfold readProject at h h'
  cases hfs : allFolders disk r with
  | error e => rw [hfs] at h; cases h
  | ok folders =>
    rw [hfs] at h h'
    simp only at h h'
    obtain ⟨_, a1, a2, a3, a4, a5⟩ := readFiles_ok h
    obtain ⟨_, b1, b2, b3, b4, b5⟩ := readFiles_ok h'
    have hp : (yamlFiles o disk folders).Perm (yamlFiles o' disk folders) := by
      unfold yamlFiles
      rw [List.perm_ext_iff_of_nodup (o.nodup _) (o'.nodup _)]
      intro t
      rw [o.mem, o'.mem]
    rw [a1, a2, a3, a4, a5, b1, b2, b3, b4, b5]
    exact ⟨(hp.filterMap _).append_left _, (hp.filterMap _).append_left _, (hp.filterMap _).append_left _, (hp.filter _).append_left _,
      (hp.filter _).append_left _⟩

/-- C70. The files complained about: those without a type, unless their path has `zenlytic_project` in it, and those with a type that is none of
the three. An empty type is not complained about. -/
theorem C70_complaints (ord : SetOrder) (disk : Disk) (hd : RealDisk disk) (r : RepoAt) (folders : List PathText)
    (hfs : allFolders disk r = .ok folders) (hf : ∀ f ∈ folders, ∃ h c place, Cut f h c place)
    (out : ReadIn) (h : readProject ord disk r = .ok out) :
    (∀ t, t ∈ out.noType ↔ ∃ place d, Found disk folders t place ∧ (place, .ok (.dict d)) ∈ disk ∧ ¬ HasKey d "type" ∧
      ¬ "zenlytic_project".toList <:+: t) ∧
    ∀ t, t ∈ out.strange ↔ ∃ place d v, Found disk folders t place ∧ (place, .ok (.dict d)) ∈ disk ∧ Given d "type" v ∧ ¬ Nothing v ∧
      v ≠ .str "model" ∧ v ≠ .str "view" ∧ v ≠ .str "dashboard" := by
  unfold readProject at h
  rw [hfs] at h
  simp only at h
  obtain ⟨h0, _, _, _, h4, h5⟩ := readFiles_ok h
  simp only [nothingRead, List.nil_append] at h4 h5
  have place : ∀ t ∈ yamlFiles ord disk folders, ∃ place d, Found disk folders t place ∧ (place, .ok (.dict d)) ∈ disk ∧
      readFile disk t = .ok (.dict d) := by
    intro t ht
    obtain ⟨place, hfd⟩ := (C70_found ord disk hd folders hf t).1 ht
    obtain ⟨d, hdd⟩ := h0 t ht
    obtain ⟨_, ⟨v, hv⟩, _⟩ := id hfd
    have := readFile_of hd (found_leads hd hfd) hv
    rw [hdd] at this
    exact ⟨place, d, hfd, this ▸ hv, hdd⟩
  have uniq : ∀ t place d d', Found disk folders t place → (place, .ok (.dict d)) ∈ disk → readFile disk t = .ok (.dict d') → d = d' := by
    intro t place d d' hfd hm hr
    rw [readFile_of hd (found_leads hd hfd) hm] at hr
    cases hr; rfl
  constructor
  · intro t
    rw [h4, List.mem_filter]
    constructor
    · rintro ⟨ht, hu⟩
      obtain ⟨pl, d, hfd, hm, hr⟩ := place t ht
      unfold untyped at hu
      rw [hr] at hu
      simp only [Bool.and_eq_true, Option.isNone_iff_eq_none] at hu
      refine ⟨pl, d, hfd, hm, ?_, ?_⟩
      · rintro ⟨v, hv⟩
        rw [Given, hu.1] at hv; cases hv
      · rw [← containsSub_iff]; simpa using hu.2
    · rintro ⟨pl, d, hfd, hm, hk, hz⟩
      have hr := readFile_of hd (found_leads hd hfd) hm
      refine ⟨(C70_found ord disk hd folders hf t).2 ⟨pl, hfd⟩, ?_⟩
      unfold untyped
      rw [hr]
      simp only [Bool.and_eq_true, Option.isNone_iff_eq_none]
      refine ⟨?_, ?_⟩
      · cases hg : dictGet d "type" with
        | none => rfl
        | some v => exact absurd ⟨v, hg⟩ hk
      · rw [← containsSub_iff] at hz; simpa using hz
  · intro t
    rw [h5, List.mem_filter]
    have odd : ∀ v, oddValue (some v) = true ↔ ¬ Nothing v ∧ v ≠ .str "model" ∧ v ≠ .str "view" ∧ v ≠ .str "dashboard" := by
      intro v
      have tx : ∀ k, v.text? = some k ↔ v = .str k := fun k => ⟨text_some, fun h => by rw [h]; rfl⟩
      unfold oddValue
      rw [← truthy_iff]
      simp only [Bool.and_eq_true, Bool.not_eq_true', Bool.or_eq_false_iff, decide_eq_false_iff_not, tx, Bool.not_eq_false, and_assoc, ne_eq]
    constructor
    · rintro ⟨ht, hu⟩
      obtain ⟨pl, d, hfd, hm, hr⟩ := place t ht
      unfold oddType at hu
      rw [hr] at hu
      simp only at hu
      cases hg : dictGet d "type" with
      | none => rw [hg] at hu; cases hu
      | some v =>
        rw [hg] at hu
        exact ⟨pl, d, v, hfd, hm, hg, (odd v).1 hu⟩
    · rintro ⟨pl, d, v, hfd, hm, hg, hv⟩
      have hr := readFile_of hd (found_leads hd hfd) hm
      refine ⟨(C70_found ord disk hd folders hf t).2 ⟨pl, hfd⟩, ?_⟩
      unfold oddType
      rw [hr]
      simp only
      rw [show dictGet d "type" = _ from hg]
      exact (odd v).2 hv

end ML
