import Verif.Repo.Lemmas
import Mathlib.Data.List.Nodup
/-
Which files a search finds.
-/
set_option autoImplicit false
namespace ML
open Spec

theorem globDeep_mem {disk : Disk} (hd : RealDisk disk) {f h : PathText} {place : List PathName} (hc : Cut f h [] place) (pat : FilePattern)
    (t : PathText) :
    t ∈ globDeep disk f pat ↔ ∃ ds name, (∃ c, (place ++ (ds ++ [name]), c) ∈ disk) ∧ (∀ d ∈ ds, ¬ Hidden d) ∧ pat.hits name = true ∧
      t = Spelled h (ds ++ [name]) := by
  unfold globDeep
  rw [List.mem_filterMap]
  have hr := leads_resolve (cut_leads hc)
  have hh := pathHead_cut hc
  have fold : ∀ (ds : List PathName) (name : PathName) (c : Res Yaml), (place ++ (ds ++ [name]), c) ∈ disk →
      (ds ++ [name]).foldl pathJoin (pathHead f) = Spelled h (ds ++ [name]) := by
    intro ds name c hm
    rw [hh]
    exact foldl_pathJoin hc.clean (fun p hp => hd.names _ _ hm p (by rw [List.mem_append]; exact .inr hp)) (by simp)
  constructor
  · rintro ⟨⟨pl, c⟩, hm, h⟩
    simp only [hr] at h
    cases hb : placeBelow place pl with
    | none => rw [hb] at h; cases h
    | some rest =>
      rw [hb] at h
      simp only at h
      rw [placeBelow_iff] at hb
      rcases List.eq_nil_or_concat rest with rfl | ⟨ds, name, rfl⟩
      · cases h
      · rw [List.concat_eq_append] at *
        simp only [List.getLast?_append, List.getLast?_singleton, Option.some_or, List.dropLast_concat] at h
        split at h
        · rename_i hif
          rw [Bool.and_eq_true, List.all_eq_true] at hif
          subst hb
          refine ⟨ds, name, ⟨c, hm⟩, fun d hd' => (hiddenName_false d).1 (hif.1 d hd'), hif.2, ?_⟩
          rw [← fold ds name c hm]
          exact (Option.some.inj h).symm
        · cases h
  · rintro ⟨ds, name, ⟨c, hm⟩, hds, hhit, rfl⟩
    refine ⟨(_, c), hm, ?_⟩
    simp only [hr]
    rw [(placeBelow_iff _ _ _).2 rfl]
    simp only [List.getLast?_append, List.getLast?_singleton, Option.some_or, List.dropLast_concat]
    rw [if_pos, fold ds name c hm]
    rw [Bool.and_eq_true, List.all_eq_true]
    exact ⟨fun d hd' => (hiddenName_false d).2 (hds d hd'), hhit⟩

theorem globShallow_mem {disk : Disk} (hd : RealDisk disk) {f h : PathText} {c : PathName} {place : List PathName} (hc : Cut f h c place)
    (pat : FilePattern) (t : PathText) :
    t ∈ globShallow disk f pat ↔ ∃ d name, (∃ v, (place ++ [d, name], v) ∈ disk) ∧ c <+: d ∧ (Hidden d → Hidden c) ∧ pat.hits name = true ∧
      t = Spelled h [d, name] := by
  unfold globShallow
  rw [List.mem_filterMap, pathTail_cut hc, pathHead_cut hc]
  have hr := leads_resolve (leads_head hc.leads)
  have join : ∀ d name v, (place ++ [d, name], v) ∈ disk → pathJoin (pathJoin (headText h) d) name = Spelled h [d, name] := by
    intro d name v hm
    have := foldl_pathJoin hc.clean (l := [d, name]) (fun p hp => hd.names _ _ hm p (by rw [List.mem_append]; exact .inr hp)) (by simp)
    exact this
  have cond : ∀ d name, (c.isPrefixOf d && (hiddenName c || !hiddenName d) && pat.hits name) = true ↔
      c <+: d ∧ (Hidden d → Hidden c) ∧ pat.hits name = true := by
    intro d name
    rw [Bool.and_eq_true, Bool.and_eq_true, List.isPrefixOf_iff_prefix, Bool.or_eq_true, hiddenName_iff, hiddenName_false, and_assoc]
    by_cases h1 : Hidden d <;> by_cases h2 : Hidden c <;> simp [h1, h2]
  constructor
  · rintro ⟨⟨pl, v⟩, hm, h⟩
    simp only [hr] at h
    cases hb : placeBelow place pl with
    | none => rw [hb] at h; cases h
    | some rest =>
      rw [hb] at h
      rw [placeBelow_iff] at hb
      match rest, h, hb with
      | [], h, _ => cases h
      | [_], h, _ => cases h
      | _ :: _ :: _ :: _, h, _ => cases h
      | [d, name], h, hb =>
        subst hb
        simp only at h
        split at h
        · rename_i hif
          obtain ⟨h1, h2, h3⟩ := (cond d name).1 hif
          refine ⟨d, name, ⟨v, hm⟩, h1, h2, h3, ?_⟩
          rw [← join d name v hm]
          exact (Option.some.inj h).symm
        · cases h
  · rintro ⟨d, name, ⟨v, hm⟩, h1, h2, h3, rfl⟩
    refine ⟨(_, v), hm, ?_⟩
    simp only [hr]
    rw [(placeBelow_iff _ _ _).2 rfl]
    simp only
    rw [if_pos ((cond d name).2 ⟨h1, h2, h3⟩), join d name v hm]

/-- The paths of a search and the places they lead to. -/
theorem globSearch_yaml {disk : Disk} (hd : RealDisk disk) {f : PathText} (hf : ∃ h c place, Cut f h c place) (t : PathText) :
    (t ∈ globSearch disk f (.ends ".yml") ∨ t ∈ globSearch disk f (.ends ".yaml")) ↔ ∃ place, Searched f t place ∧ ∃ v, (place, v) ∈ disk := by
  have hits : ∀ (s : String) (p : PathName), (FilePattern.ends s).hits p = true ↔ ¬ Hidden p ∧ s.toList <:+ p := by
    intro s p
    rw [FilePattern.hits, Bool.and_eq_true, hiddenName_false, List.isSuffixOf_iff_suffix]
  have yaml : ∀ p, YamlName p ↔ (FilePattern.ends ".yml").hits p = true ∨ (FilePattern.ends ".yaml").hits p = true := by
    intro p
    rw [hits, hits]
    unfold YamlName
    tauto
  unfold globSearch
  obtain ⟨h, c, place, hc⟩ := hf
  constructor
  · by_cases hl : f.getLast? = some '/'
    · rw [if_pos hl, if_pos hl]
      have hc0 := (cut_slash hc).1 hl
      subst hc0
      rintro (h1 | h1)
      · obtain ⟨ds, name, hv, hds, hh, rfl⟩ := (globDeep_mem hd hc _ t).1 h1
        exact ⟨_, .below hc hds ((yaml _).2 (.inl hh)), hv⟩
      · obtain ⟨ds, name, hv, hds, hh, rfl⟩ := (globDeep_mem hd hc _ t).1 h1
        exact ⟨_, .below hc hds ((yaml _).2 (.inr hh)), hv⟩
    · rw [if_neg hl, if_neg hl]
      have hc0 : c ≠ [] := fun h => hl ((cut_slash hc).2 h)
      rintro (h1 | h1)
      · obtain ⟨d, name, hv, hp, hi, hh, rfl⟩ := (globShallow_mem hd hc _ t).1 h1
        exact ⟨_, .beside hc hc0 hp hi ((yaml _).2 (.inl hh)), hv⟩
      · obtain ⟨d, name, hv, hp, hi, hh, rfl⟩ := (globShallow_mem hd hc _ t).1 h1
        exact ⟨_, .beside hc hc0 hp hi ((yaml _).2 (.inr hh)), hv⟩
  · rintro ⟨pl, hs, hv⟩
    cases hs with
    | below hc' hds hy =>
      have hl := (cut_slash hc').2 rfl
      rw [if_pos hl, if_pos hl]
      rcases (yaml _).1 hy with hy | hy
      · exact .inl ((globDeep_mem hd hc' _ _).2 ⟨_, _, hv, hds, hy, rfl⟩)
      · exact .inr ((globDeep_mem hd hc' _ _).2 ⟨_, _, hv, hds, hy, rfl⟩)
    | beside hc' hne hp hi hy =>
      have hl : ¬ f.getLast? = some '/' := fun h => hne ((cut_slash hc').1 h)
      rw [if_neg hl, if_neg hl]
      rcases (yaml _).1 hy with hy | hy
      · exact .inl ((globShallow_mem hd hc' _ _).2 ⟨_, _, hv, hp, hi, hy, rfl⟩)
      · exact .inr ((globShallow_mem hd hc' _ _).2 ⟨_, _, hv, hp, hi, hy, rfl⟩)

theorem repoSearch_mem (disk : Disk) (pat : FilePattern) (folders : List PathText) (t : PathText) :
    t ∈ repoSearch disk pat folders ↔ (∃ f ∈ folders, t ∈ globSearch disk f pat) ∧ ¬ "venv".toList <:+: t := by
  unfold repoSearch
  rw [List.mem_flatMap]
  constructor
  · rintro ⟨f, hf, ht⟩
    rw [List.mem_filter] at ht
    refine ⟨⟨f, hf, ht.1⟩, ?_⟩
    rw [← containsSub_iff]
    simpa using ht.2
  · rintro ⟨⟨f, hf, ht⟩, hv⟩
    refine ⟨f, hf, ?_⟩
    rw [List.mem_filter]
    refine ⟨ht, ?_⟩
    rw [← containsSub_iff] at hv
    simpa using hv

theorem searched_leads {disk : Disk} (hd : RealDisk disk) {f t : PathText} {place : List PathName} (h : Searched f t place)
    (hv : ∃ v, (place, v) ∈ disk) : Leads t place := by
  obtain ⟨v, hv⟩ := hv
  cases h with
  | below hc _ _ => exact leads_spelled hc.leads (fun p hp => hd.names _ _ hv p (by rw [List.mem_append]; exact .inr hp))
  | beside hc _ _ _ _ => exact leads_spelled hc.leads (fun p hp => hd.names _ _ hv p (by rw [List.mem_append]; exact .inr hp))

theorem found_leads {disk : Disk} (hd : RealDisk disk) {fs : List PathText} {t : PathText} {place : List PathName} (h : Found disk fs t place) :
    Leads t place := by
  obtain ⟨⟨f, _, hs⟩, hv, _⟩ := h
  exact searched_leads hd hs hv

theorem RealDisk.one {disk : Disk} (hd : RealDisk disk) {place : List PathName} {c c' : Res Yaml} (h : (place, c) ∈ disk)
    (h' : (place, c') ∈ disk) : c = c' := by
  have := List.inj_on_of_nodup_map hd.apart h h' rfl
  exact congrArg Prod.snd this

theorem readFile_of {disk : Disk} (hd : RealDisk disk) {t : PathText} {place : List PathName} (hl : Leads t place) {v : Res Yaml}
    (hm : (place, v) ∈ disk) : readFile disk t = v := by
  unfold readFile
  rw [leads_resolve hl]
  cases hf : disk.find? (fun f => f.1 = place) with
  | none =>
    rw [List.find?_eq_none] at hf
    exact absurd (by simp) (hf _ hm)
  | some f =>
    have h1 := List.find?_some hf
    have h2 := List.mem_of_find?_eq_some hf
    simp only [decide_eq_true_eq] at h1
    obtain ⟨pl, w⟩ := f
    simp only at h1
    subst h1
    exact RealDisk.one hd h2 hm

theorem leads_rel {t : PathText} {place : List PathName} (hl : Leads t place) {l : List PathName} (hn : ∀ p ∈ l, IsName p ∨ p = "..".toList)
    (h0 : l ≠ []) : Leads (t ++ '/' :: List.intercalate ['/'] l) (l.foldl resolveStep place) := by
  induction l generalizing t place with
  | nil => exact absurd rfl h0
  | cons p l ih =>
    have step : Leads (t ++ '/' :: p) (resolveStep place p) := by
      rcases hn p (by simp) with hp | hp
      · rw [resolveStep_name hp]; exact hl.name hp
      · subst hp; exact hl.up
    by_cases hlz : l = []
    · subst hlz
      simpa [List.intercalate] using step
    · have := ih step (fun q hq => hn q (by simp [hq])) hlz
      rw [List.foldl_cons]
      obtain ⟨q, l', rfl⟩ := List.exists_cons_of_ne_nil hlz
      simpa [List.intercalate, List.intersperse] using this

theorem foldl_names (place : List PathName) {l : List PathName} (hn : ∀ p ∈ l, IsName p) : l.foldl resolveStep place = place ++ l := by
  induction l generalizing place with
  | nil => simp
  | cons p l ih =>
    rw [List.foldl_cons, resolveStep_name (hn p (by simp)), ih _ (fun q hq => hn q (by simp [hq]))]
    simp

theorem foldl_ups (place up : List PathName) : (up.map fun _ => ['.', '.']).foldl resolveStep (place ++ up) = place := by
  induction up using List.reverseRecOn with
  | nil => simp
  | append_singleton up a ih =>
    have e : ((up ++ [a]).map fun _ => ['.', '.']) = (['.', '.'] : PathName) :: up.map fun _ => ['.', '.'] := by
      simp only [List.map_append, List.map_cons, List.map_nil, List.map_const']
      rw [← List.replicate_succ', List.replicate_succ]
    rw [e, List.foldl_cons]
    have s : resolveStep (place ++ (up ++ [a])) ['.', '.'] = place ++ up := by
      unfold resolveStep
      rw [if_neg (by decide), if_pos rfl, ← List.append_assoc, List.dropLast_concat]
    rw [s, ih]

theorem relPlace_spec (com up l : List PathName) : ∃ com' a b, com ++ up = com' ++ a ∧ com ++ l = com' ++ b ∧
    relPlace up l = (a.map fun _ => ['.', '.']) ++ b ∧ (∀ x ∈ a, x ∈ up) ∧ ∀ x ∈ b, x ∈ l := by
  induction up generalizing com l with
  | nil => exact ⟨com, [], l, by simp, rfl, by simp [relPlace], by simp, fun _ h => h⟩
  | cons x up ih =>
    cases l with
    | nil => exact ⟨com, x :: up, [], rfl, by simp, by simp [relPlace], fun _ h => h, by simp⟩
    | cons y l =>
      unfold relPlace
      by_cases h : x = y
      · rw [if_pos h]
        subst h
        obtain ⟨com', a, b, h1, h2, h3, h4, h5⟩ := ih (com ++ [x]) l
        exact ⟨com', a, b, by simpa using h1, by simpa using h2, h3, fun z hz => by simp [h4 z hz], fun z hz => by simp [h5 z hz]⟩
      · rw [if_neg h]
        exact ⟨com, x :: up, y :: l, rfl, rfl, by simp, fun _ h => h, fun _ h => h⟩

theorem leads_relPath {folder t : PathText} {base place : List PathName} (hb : Leads folder base) (ht : Leads t place) :
    Leads (folder ++ '/' :: relPathText folder t) place := by
  unfold relPathText
  rw [leads_resolve hb, leads_resolve ht]
  obtain ⟨com, a, b, h1, h2, h3, h4, h5⟩ := relPlace_spec [] base place
  rw [List.nil_append] at h1 h2
  cases hr : relPlace base place with
  | nil =>
    rw [hr] at h3
    have := List.append_eq_nil_iff.1 h3.symm
    rw [List.map_eq_nil_iff] at this
    obtain ⟨ha, hb'⟩ := this
    subst ha; subst hb'
    have e : place = base := by rw [h2, h1]
    rw [e]
    exact hb.dot
  | cons p ps =>
    simp only
    rw [← hr, h3]
    have hne : (a.map fun _ => (['.', '.'] : PathName)) ++ b ≠ [] := by rw [← h3, hr]; simp
    have hn : ∀ x ∈ (a.map fun _ => (['.', '.'] : PathName)) ++ b, IsName x ∨ x = "..".toList := by
      intro x hx
      rw [List.mem_append] at hx
      rcases hx with hx | hx
      · rw [List.mem_map] at hx
        obtain ⟨_, _, rfl⟩ := hx
        exact .inr rfl
      · exact .inl (leads_names ht x (h5 x hx))
    have := leads_rel hb hn hne
    have e : ((a.map fun _ => (['.', '.'] : PathName)) ++ b).foldl resolveStep base = place := by
      rw [List.foldl_append, h1, foldl_ups, h2]
      exact foldl_names _ (fun x hx => leads_names ht x (h5 x hx))
    rw [e] at this
    exact this

/-! The files one by one. -/

theorem text_some {v : Yaml} {k : String} (h : v.text? = some k) : v = .str k := by
  cases v <;> simp [Yaml.text?] at h
  rw [h]

/-- What one file is loaded as when it is of the type. -/
def loadedOne (disk : Disk) (r : RepoAt) (k : String) (t : PathText) : Option FDef :=
  match readFile disk t with
  | .ok (.dict d) =>
    if (dictGet d "type").bind Yaml.text? == some k then some (dictSet d "_file_path" (.str (String.ofList (relPathText r.folder t)))) else none
  | _ => none

/-- The file has no type, and that is complained about. -/
def untyped (disk : Disk) (t : PathText) : Bool :=
  match readFile disk t with
  | .ok (.dict d) => (dictGet d "type").isNone && !containsSub "zenlytic_project".toList t
  | _ => false

/-- Another type. -/
def oddValue : Option Yaml → Bool
  | some v => v.truthy && !(v.text? = some "model" || v.text? = some "view" || v.text? = some "dashboard")
  | none => false

/-- The file has another type. -/
def oddType (disk : Disk) (t : PathText) : Bool :=
  match readFile disk t with
  | .ok (.dict d) => oddValue (dictGet d "type")
  | _ => false

theorem readFileStep_ok {disk : Disk} {r : RepoAt} {acc acc' : ReadIn} {t : PathText} (h : readFileStep disk r acc t = .ok acc') :
    (∃ d, readFile disk t = .ok (.dict d)) ∧
    acc'.models = acc.models ++ (loadedOne disk r "model" t).toList ∧ acc'.views = acc.views ++ (loadedOne disk r "view" t).toList ∧
    acc'.dashboards = acc.dashboards ++ (loadedOne disk r "dashboard" t).toList ∧
    acc'.noType = acc.noType ++ (if untyped disk t then [t] else []) ∧ acc'.strange = acc.strange ++ (if oddType disk t then [t] else []) := by
  unfold readFileStep at h
  cases hr : readFile disk t with
  | error e => rw [hr] at h; cases h
  | ok v =>
    rw [hr] at h
    cases v with
    | dict d =>
      simp only [dictGet_set] at h
      rw [if_neg (by decide)] at h
      refine ⟨⟨d, rfl⟩, ?_⟩
      have e1 : ∀ k, loadedOne disk r k t = if (dictGet d "type").bind Yaml.text? == some k then
          some (dictSet d "_file_path" (.str (String.ofList (relPathText r.folder t)))) else none := by
        intro k; unfold loadedOne; rw [hr]
      have e2 : untyped disk t = ((dictGet d "type").isNone && !containsSub "zenlytic_project".toList t) := by unfold untyped; rw [hr]
      have e3 : oddType disk t = oddValue (dictGet d "type") := by unfold oddType; rw [hr]
      rw [e1, e1, e1, e2, e3]
      cases ht : dictGet d "type" with
      | none =>
        rw [ht] at h
        simp only at h
        split at h
        · rename_i hz
          cases h
          simp [oddValue]
          exact hz
        · rename_i hz
          cases h
          simp [oddValue]
          simpa using hz
      | some w =>
        rw [ht] at h
        simp only at h
        split at h
        · cases h; simp [Yaml.text?, oddValue]
        · cases h; simp [Yaml.text?, oddValue]
        · cases h; simp [Yaml.text?, oddValue]
        · rename_i h1 h2 h3
          have n : ∀ k, (k = "model" ∨ k = "view" ∨ k = "dashboard") → w.text? ≠ some k := by
            intro k hk hw
            have := text_some hw
            subst this
            rcases hk with rfl | rfl | rfl
            · exact h1 rfl
            · exact h2 rfl
            · exact h3 rfl
          have n1 := n "model" (by simp)
          have n2 := n "view" (by simp)
          have n3 := n "dashboard" (by simp)
          split at h
          · rename_i hz
            cases h
            simp [n1, n2, n3, hz, oddValue]
          · rename_i hz
            cases h
            simp [n1, n2, n3, hz, oddValue]
    | _ => cases h

theorem readFiles_ok {disk : Disk} {r : RepoAt} {l : List PathText} {acc acc' : ReadIn} (h : readFiles disk r l acc = .ok acc') :
    (∀ t ∈ l, ∃ d, readFile disk t = .ok (.dict d)) ∧
    acc'.models = acc.models ++ l.filterMap (loadedOne disk r "model") ∧ acc'.views = acc.views ++ l.filterMap (loadedOne disk r "view") ∧
    acc'.dashboards = acc.dashboards ++ l.filterMap (loadedOne disk r "dashboard") ∧
    acc'.noType = acc.noType ++ l.filter (untyped disk) ∧ acc'.strange = acc.strange ++ l.filter (oddType disk) := by
  induction l generalizing acc with
  | nil => unfold readFiles at h; cases h; simp
  | cons t l ih =>
    unfold readFiles at h
    cases hs : readFileStep disk r acc t with
    | error e => rw [hs] at h; cases h
    | ok acc1 =>
      rw [hs] at h
      obtain ⟨b0, b1, b2, b3, b4, b5⟩ := readFileStep_ok hs
      obtain ⟨c0, c1, c2, c3, c4, c5⟩ := ih h
      have fm : ∀ (f : PathText → Option FDef), (t :: l).filterMap f = (f t).toList ++ l.filterMap f := by
        intro f
        rw [List.filterMap_cons]
        cases f t <;> rfl
      have fl : ∀ (f : PathText → Bool), (t :: l).filter f = (if f t then [t] else []) ++ l.filter f := by
        intro f
        rw [List.filter_cons]
        split <;> rfl
      refine ⟨?_, ?_, ?_, ?_, ?_, ?_⟩
      · intro u hu
        rcases List.mem_cons.1 hu with rfl | hu
        · exact b0
        · exact c0 u hu
      · rw [c1, b1, fm, List.append_assoc]
      · rw [c2, b2, fm, List.append_assoc]
      · rw [c3, b3, fm, List.append_assoc]
      · rw [c4, b4, fl, List.append_assoc]
      · rw [c5, b5, fl, List.append_assoc]

theorem readFileStep_dict {disk : Disk} {r : RepoAt} (acc : ReadIn) {t : PathText} {d : FDef} (h : readFile disk t = .ok (.dict d)) :
    ∃ acc', readFileStep disk r acc t = .ok acc' := by
  unfold readFileStep
  rw [h]
  simp only
  split
  · exact ⟨_, rfl⟩
  · split <;> exact ⟨_, rfl⟩

theorem readFiles_fails {disk : Disk} {r : RepoAt} {l : List PathText} {acc : ReadIn} :
    (∃ e, readFiles disk r l acc = .error e) ↔ ∃ t ∈ l, ∀ d, readFile disk t ≠ .ok (.dict d) := by
  constructor
  · intro he
    by_contra hc
    push Not at hc
    obtain ⟨e, he⟩ := he
    have : ∀ acc, ∃ acc', readFiles disk r l acc = .ok acc' := by
      clear he
      induction l with
      | nil => exact fun acc => ⟨acc, rfl⟩
      | cons t l ih =>
        intro acc
        obtain ⟨d, hd⟩ := hc t (by simp)
        obtain ⟨a1, ha1⟩ := readFileStep_dict (r := r) acc hd
        obtain ⟨a2, ha2⟩ := ih (fun u hu => hc u (by simp [hu])) a1
        exact ⟨a2, by unfold readFiles; rw [ha1]; exact ha2⟩
    obtain ⟨a, ha⟩ := this acc
    rw [ha] at he; cases he
  · rintro ⟨t, ht, hn⟩
    cases hr : readFiles disk r l acc with
    | error e => exact ⟨e, rfl⟩
    | ok a =>
      obtain ⟨d, hd⟩ := (readFiles_ok hr).1 t ht
      exact absurd hd (hn d)

theorem loadedOf_files {disk : Disk} (hd : RealDisk disk) {r : RepoAt} {base : List PathName} (hb : Leads r.folder base) {folders : List PathText}
    {files : List PathText} (hn : files.Nodup) (hm : ∀ t, t ∈ files ↔ ∃ place, Found disk folders t place) (k : String) :
    LoadedOf disk r.folder folders k (files.filterMap (loadedOne disk r k)) := by
  refine ⟨(files.filter fun t => (loadedOne disk r k t).isSome).map fun t => (t, resolvePath t), ?_, ?_, ?_⟩
  · rw [List.map_map]
    have : (Prod.fst ∘ fun t : PathText => (t, resolvePath t)) = id := rfl
    rw [this, List.map_id]
    exact hn.filter _
  · intro t place
    rw [List.mem_map]
    constructor
    · rintro ⟨t', ht', he⟩
      cases he
      rw [List.mem_filter] at ht'
      obtain ⟨h1, h2⟩ := ht'
      obtain ⟨place, hf⟩ := (hm t).1 h1
      have hl := found_leads hd hf
      rw [leads_resolve hl]
      refine ⟨hf, ?_⟩
      obtain ⟨_, ⟨v, hv⟩, _⟩ := id hf
      unfold loadedOne at h2
      rw [readFile_of hd hl hv] at h2
      match v, h2, hv with
      | .ok (.dict d), h2, hv =>
        simp only at h2
        split at h2
        · rename_i hk
          cases ht : dictGet d "type" with
          | none => rw [ht] at hk; cases hk
          | some w =>
            rw [ht, Option.bind_some, beq_iff_eq] at hk
            exact ⟨d, hv, by rw [Given, ht, text_some hk]⟩
        · cases h2
      | .error _, h2, _ => cases h2
      | .ok .null, h2, _ => cases h2
      | .ok (.bool _), h2, _ => cases h2
      | .ok (.int _), h2, _ => cases h2
      | .ok (.float _), h2, _ => cases h2
      | .ok (.str _), h2, _ => cases h2
      | .ok (.list _), h2, _ => cases h2
    · rintro ⟨hf, d, hv, hk⟩
      have hl := found_leads hd hf
      refine ⟨t, ?_, by rw [leads_resolve hl]⟩
      rw [List.mem_filter]
      refine ⟨(hm t).2 ⟨_, hf⟩, ?_⟩
      unfold loadedOne
      rw [readFile_of hd hl hv]
      simp only
      rw [show dictGet d "type" = _ from hk]
      simp [Yaml.text?]
  · have hall : ∀ t ∈ files, ∃ place, Found disk folders t place := fun t ht => (hm t).1 ht
    clear hm hn
    induction files with
    | nil => exact .nil
    | cons t files ih =>
      have ih := ih (fun u hu => hall u (by simp [hu]))
      rw [List.filterMap_cons, List.filter_cons]
      cases ho : loadedOne disk r k t with
      | none => simpa [ho] using ih
      | some d =>
        rw [if_pos (by rfl), List.map_cons]
        refine .cons ?_ ih
        obtain ⟨place, hf⟩ := hall t (by simp)
        have hl := found_leads hd hf
        obtain ⟨_, ⟨v, hv⟩, _⟩ := id hf
        unfold loadedOne at ho
        rw [readFile_of hd hl hv] at ho
        match v, ho, hv with
        | .ok (.dict d0), ho, hv =>
          simp only at ho
          split at ho
          · rename_i hk
            cases ht : dictGet d0 "type" with
            | none => rw [ht] at hk; cases hk
            | some w =>
              rw [ht, Option.bind_some, beq_iff_eq] at hk
              cases ho
              simp only [leads_resolve hl]
              refine ⟨⟨d0, hv, by rw [Given, ht, text_some hk], ?_⟩, ⟨String.ofList (relPathText r.folder t), ?_, ?_⟩⟩
              · intro key v hkey
                unfold Given
                rw [dictGet_set, if_neg (fun h => hkey h.symm)]
              · unfold Given
                rw [dictGet_set, if_pos rfl]
              · rw [String.toList_ofList]
                exact leads_relPath hb hl
          · cases ho
        | .error _, ho, _ => cases ho
        | .ok .null, ho, _ => cases ho
        | .ok (.bool _), ho, _ => cases ho
        | .ok (.int _), ho, _ => cases ho
        | .ok (.float _), ho, _ => cases ho
        | .ok (.str _), ho, _ => cases ho
        | .ok (.list _), ho, _ => cases ho

end ML
