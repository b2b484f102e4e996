import Verif.MergePlan.Lemmas
import Mathlib.Tactic.IntervalCases
/-
Helper lemmas for C36 and C37: canonical dates, mappings, conditions.
-/
set_option autoImplicit false
namespace ML
open Spec

/-! ### Canonical dates -/

theorem dateStep_cases (b : Bool) (acc : List (Option String) × List (List String)) (f : PField) :
    (dateStep b acc f).1 = acc.1 ++ [f.canon] ∨ (dateStep b acc f).1 = acc.1 := by
  unfold dateStep
  exact (ite_eq_or_eq _ _ _).imp (congrArg Prod.fst) (congrArg Prod.fst)

theorem dateStep_mono (b : Bool) (acc : List (Option String) × List (List String)) (f : PField) (c : Option String) (h : c ∈ acc.1) :
    c ∈ (dateStep b acc f).1 := by
  rcases dateStep_cases b acc f with e | e <;> rw [e]
  · exact List.mem_append_left _ h
  · exact h

theorem foldDates_mono (b : Bool) (fs : List PField) (acc : List (Option String) × List (List String)) (c : Option String) (h : c ∈ acc.1) :
    c ∈ (fs.foldl (dateStep b) acc).1 := by
  induction fs generalizing acc with
  | nil => exact h
  | cons f fs ih => exact ih _ (dateStep_mono b acc f c h)

theorem dateStep_own (b : Bool) (acc : List (Option String) × List (List String)) (f : PField) (c : String) (hm : f.measure = true)
    (hc : f.canon = some c) (hne : c ≠ "") : some c ∈ (dateStep b acc f).1 := by
  by_cases hin : some c ∈ acc.1
  · exact dateStep_mono b acc f _ hin
  · unfold dateStep
    dsimp only
    rw [if_pos (by
      rw [Bool.and_eq_true, Bool.or_eq_true]
      refine ⟨?_, Or.inr ?_⟩
      · rw [Bool.and_eq_true, hc]; exact ⟨rfl, decide_eq_true (fun e => hne (Option.some.inj e))⟩
      · rw [Bool.and_eq_true, hc]; exact ⟨decide_eq_true hin, hm⟩)]
    rw [hc]
    exact List.mem_append_right _ (List.mem_singleton.mpr rfl)

theorem foldDates_own (b : Bool) (fs : List PField) (acc : List (Option String) × List (List String)) (f : PField) (hf : f ∈ fs)
    (c : String) (hm : f.measure = true) (hc : f.canon = some c) (hne : c ≠ "") : some c ∈ (fs.foldl (dateStep b) acc).1 := by
  induction fs generalizing acc with
  | nil => cases hf
  | cons x fs ih =>
    rcases List.mem_cons.mp hf with rfl | hf
    · exact foldDates_mono b fs _ _ (dateStep_own b acc f c hm hc hne)
    · exact ih _ hf

theorem foldDates_only (b : Bool) (fs : List PField) (acc : List (Option String) × List (List String)) (c : Option String)
    (h : c ∈ (fs.foldl (dateStep b) acc).1) : c ∈ acc.1 ∨ ∃ f ∈ fs, f.canon = c := by
  induction fs generalizing acc with
  | nil => exact .inl h
  | cons x fs ih =>
    rcases ih _ h with h | ⟨f, hf, e⟩
    · rcases dateStep_cases b acc x with e | e <;> rw [e] at h
      · rcases List.mem_append.mp h with h | h
        · exact .inl h
        · simp only [List.mem_singleton] at h
          exact .inr ⟨x, by simp, h.symm⟩
      · exact .inl h
    · exact .inr ⟨f, by simp [hf], e⟩

theorem mem_canonDates (env : PlanEnv) (mg sec dims : List PField) (q : List (String × List PField)) (k : String) (l : List PField)
    (hkl : (k, l) ∈ q) (f : PField) (hf : f ∈ l) (c : String) (hm : f.measure = true) (hc : f.canon = some c) (hne : c ≠ "") :
    c ∈ canonDates env mg sec dims q := by
  unfold canonDates
  simp only
  rw [List.mem_insertionSort, List.mem_dedup, List.mem_filterMap]
  refine ⟨some c, foldDates_own _ _ _ f ?_ c hm hc hne, rfl⟩
  exact List.mem_append_left _ (List.mem_flatMap.mpr ⟨(k, l), hkl, hf⟩)

theorem canonDates_only (env : PlanEnv) (mg sec dims : List PField) (q : List (String × List PField)) (c : String)
    (h : c ∈ canonDates env mg sec dims q) :
    (∃ m ∈ mg, ∃ f, some f ∈ env.refs m ∧ f.canon = some c) ∨ (∃ k l, (k, l) ∈ q ∧ ∃ f ∈ l, f.canon = some c) ∨ ∃ f ∈ dims, f.canon = some c := by
  unfold canonDates at h
  simp only at h
  rw [List.mem_insertionSort, List.mem_dedup, List.mem_filterMap] at h
  obtain ⟨o, ho, rfl⟩ := h
  rcases foldDates_only _ _ _ _ ho with h | ⟨f, hf, e⟩
  · unfold refDates at h
    obtain ⟨m, hm, h⟩ := List.mem_flatMap.mp h
    obtain ⟨r, hr, e⟩ := List.mem_map.mp h
    cases r with
    | none => cases e
    | some f => exact .inl ⟨m, hm, f, hr, e⟩
  · rcases List.mem_append.mp hf with hf | hf
    · obtain ⟨⟨k, l⟩, hp, hf⟩ := List.mem_flatMap.mp hf
      exact .inr (.inl ⟨k, l, hp, f, hf, e⟩)
    · exact .inr (.inr ⟨f, hf, e⟩)

/-- An entry that leads from the date `dst` to the date `fr`. -/
def DateEntry (env : PlanEnv) (dst fr : String) (m : DimMap) : Prop :=
  fr ≠ dst ∧ ∃ b g, env.getFieldByName fr = .ok b ∧ joinHashKey env b = .ok g ∧ m = ⟨fr, cteName fr g, none⟩

theorem dateMapInner_spec (env : PlanEnv) (dst : String) (frs : List String) (acc acc' : List (String × List DimMap) × List String)
    (h : dateMapInner env dst frs acc = .ok acc') :
    (∀ x ∈ acc.2, x ∈ acc'.2) ∧
    (∀ k m, m ∈ (dictGet acc.1 k).getD [] → m ∈ (dictGet acc'.1 k).getD []) ∧
    (∀ fr ∈ frs, fr ≠ dst → ∃ m, DateEntry env dst fr m ∧ m.fromHash ∈ acc'.2 ∧ m ∈ (dictGet acc'.1 dst).getD []) ∧
    (∀ k m, m ∈ (dictGet acc'.1 k).getD [] → m ∈ (dictGet acc.1 k).getD [] ∨ (k = dst ∧ ∃ fr ∈ frs, DateEntry env dst fr m)) := by
  induction frs generalizing acc with
  | nil =>
    simp only [dateMapInner, Except.ok.injEq] at h; subst h
    exact ⟨fun _ h => h, fun _ _ h => h, by simp, fun _ _ h => .inl h⟩
  | cons fr frs ih =>
    simp only [dateMapInner] at h
    by_cases hd : dst = fr
    · rw [if_pos hd] at h
      obtain ⟨i1, i2, i3, i4⟩ := ih acc h
      refine ⟨i1, i2, ?_, ?_⟩
      · intro x hx hne
        rcases List.mem_cons.mp hx with rfl | hx
        · exact absurd hd.symm hne
        · exact i3 x hx hne
      · intro k m hm
        rcases i4 k m hm with h | ⟨e, x, hx, e'⟩
        · exact .inl h
        · exact .inr ⟨e, x, by simp [hx], e'⟩
    · rw [if_neg hd] at h
      cases hb : env.getFieldByName fr with
      | error e => rw [hb] at h; cases h
      | ok b =>
        rw [hb] at h
        simp only at h
        cases hg : joinHashKey env b with
        | error e => rw [hg] at h; cases h
        | ok g =>
          rw [hg] at h
          simp only at h
          obtain ⟨i1, i2, i3, i4⟩ := ih _ h
          have hentry : DateEntry env dst fr ⟨fr, cteName fr g, none⟩ := ⟨fun c => hd c.symm, b, g, hb, hg, rfl⟩
          refine ⟨fun x hx => i1 x (by simp [hx]), ?_, ?_, ?_⟩
          · intro k m hm
            apply i2
            rw [dictGet_append]
            split
            · simp [hm]
            · exact hm
          · intro x hx hne
            rcases List.mem_cons.mp hx with rfl | hx
            · refine ⟨_, hentry, i1 _ (by simp), i2 _ _ ?_⟩
              rw [dictGet_append, if_pos rfl]; simp
            · exact i3 x hx hne
          · intro k m hm
            rcases i4 k m hm with h | ⟨e, x, hx, e'⟩
            · rw [dictGet_append] at h
              split at h
              · rename_i e
                rcases List.mem_append.mp h with h | h
                · exact .inl h
                · simp only [List.mem_singleton] at h
                  subst h
                  exact .inr ⟨e.symm, fr, by simp, hentry⟩
              · exact .inl h
            · exact .inr ⟨e, x, by simp [hx], e'⟩

theorem dateMap_spec (env : PlanEnv) (dates dsts : List String) (acc acc' : List (String × List DimMap) × List String)
    (h : dateMap env dates dsts acc = .ok acc') :
    (∀ x ∈ acc.2, x ∈ acc'.2) ∧
    (∀ k m, m ∈ (dictGet acc.1 k).getD [] → m ∈ (dictGet acc'.1 k).getD []) ∧
    (∀ dst ∈ dsts, ∀ fr ∈ dates, fr ≠ dst → ∃ m, DateEntry env dst fr m ∧ m.fromHash ∈ acc'.2 ∧ m ∈ (dictGet acc'.1 dst).getD []) ∧
    (∀ k m, m ∈ (dictGet acc'.1 k).getD [] → m ∈ (dictGet acc.1 k).getD [] ∨ (k ∈ dsts ∧ ∃ fr ∈ dates, DateEntry env k fr m)) := by
  induction dsts generalizing acc with
  | nil =>
    simp only [dateMap, Except.ok.injEq] at h; subst h
    exact ⟨fun _ h => h, fun _ _ h => h, by simp, fun _ _ h => .inl h⟩
  | cons d ds ih =>
    simp only [dateMap] at h
    cases h1 : dateMapInner env d dates acc with
    | error e => rw [h1] at h; cases h
    | ok acc1 =>
      rw [h1] at h
      simp only at h
      obtain ⟨a1, a2, a3, a4⟩ := dateMapInner_spec env d dates acc acc1 h1
      obtain ⟨i1, i2, i3, i4⟩ := ih _ h
      refine ⟨fun x hx => i1 x (a1 x hx), fun k m hm => i2 k m (a2 k m hm), ?_, ?_⟩
      · intro dst hdst fr hfr hne
        rcases List.mem_cons.mp hdst with rfl | hdst
        · obtain ⟨m, e1, e2, e3⟩ := a3 fr hfr hne
          exact ⟨m, e1, i1 _ e2, i2 _ _ e3⟩
        · exact i3 dst hdst fr hfr hne
      · intro k m hm
        rcases i4 k m hm with h | ⟨e, h⟩
        · rcases a4 k m h with h | ⟨rfl, h⟩
          · exact .inl h
          · exact .inr ⟨by simp, h⟩
        · exact .inr ⟨by simp [e], h⟩

/-! ### Mappings -/

theorem mapToUsed_spec (key : String) (m : MapTo) (hs : List String) (fr : String)
    (acc : List (String × List DimMap) × List (String × List (String × String))) :
    (∀ k x, x ∈ (dictGet acc.1 k).getD [] → x ∈ (dictGet (mapToUsed key m hs fr acc).1 k).getD []) ∧
    (∀ h ∈ hs, hashContains h [m.toHash] = true → ⟨m.field, h, some m.toHash⟩ ∈ (dictGet (mapToUsed key m hs fr acc).1 key).getD []) ∧
    (∀ k x, x ∈ (dictGet (mapToUsed key m hs fr acc).1 k).getD [] → x ∈ (dictGet acc.1 k).getD [] ∨
      (k = key ∧ x.field = m.field ∧ x.toHash = some m.toHash ∧ (x.fromHash = fr ∨ hashContains x.fromHash [m.toHash] = true))) := by
  induction hs generalizing fr acc with
  | nil => exact ⟨fun _ _ h => h, by simp, fun _ _ h => .inl h⟩
  | cons h hs ih =>
    simp only [mapToUsed]
    by_cases hc : hashContains h [m.toHash] = true
    · rw [if_pos hc]
      obtain ⟨i1, i2, i3⟩ := ih h (dictAppend acc.1 key ⟨m.field, h, some m.toHash⟩, dictAppend acc.2 key (m.field, h))
      refine ⟨?_, ?_, ?_⟩
      · intro k x hx
        apply i1
        rw [dictGet_append]
        split
        · simp [hx]
        · exact hx
      · intro h' hh' hc'
        rcases List.mem_cons.mp hh' with rfl | hh'
        · apply i1
          rw [dictGet_append, if_pos rfl]; simp
        · exact i2 h' hh' hc'
      · intro k x hx
        rcases i3 k x hx with h1 | ⟨e, e1, e2, e3⟩
        · rw [dictGet_append] at h1
          split at h1
          · rename_i e
            rcases List.mem_append.mp h1 with h1 | h1
            · exact .inl h1
            · simp only [List.mem_singleton] at h1
              subst h1
              exact .inr ⟨e.symm, rfl, rfl, .inr hc⟩
          · exact .inl h1
        · refine .inr ⟨e, e1, e2, .inr ?_⟩
          rcases e3 with e3 | e3
          · rw [e3]; exact hc
          · exact e3
    · rw [if_neg hc]
      obtain ⟨i1, i2, i3⟩ := ih fr (dictAppend acc.1 key ⟨m.field, fr, some m.toHash⟩, acc.2)
      refine ⟨?_, ?_, ?_⟩
      · intro k x hx
        apply i1
        rw [dictGet_append]
        split
        · simp [hx]
        · exact hx
      · intro h' hh' hc'
        rcases List.mem_cons.mp hh' with rfl | hh'
        · exact absurd hc' hc
        · exact i2 h' hh' hc'
      · intro k x hx
        rcases i3 k x hx with h1 | h1
        · rw [dictGet_append] at h1
          split at h1
          · rename_i e
            rcases List.mem_append.mp h1 with h1 | h1
            · exact .inl h1
            · simp only [List.mem_singleton] at h1
              subst h1
              exact .inr ⟨e.symm, rfl, rfl, .inl rfl⟩
          · exact .inl h1
        · exact .inr h1

theorem refsFold_spec (used : List String) (key fr : String) (refs : List MapTo)
    (acc : List (String × List DimMap) × List (String × List (String × String))) :
    (∀ k x, x ∈ (dictGet acc.1 k).getD [] → x ∈ (dictGet (refs.foldl (fun acc m => mapToUsed key m used fr acc) acc).1 k).getD []) ∧
    (∀ m ∈ refs, ∀ h ∈ used, hashContains h [m.toHash] = true →
      ⟨m.field, h, some m.toHash⟩ ∈ (dictGet (refs.foldl (fun acc m => mapToUsed key m used fr acc) acc).1 key).getD []) ∧
    (∀ k x, x ∈ (dictGet (refs.foldl (fun acc m => mapToUsed key m used fr acc) acc).1 k).getD [] → x ∈ (dictGet acc.1 k).getD [] ∨
      (k = key ∧ ∃ m ∈ refs, x.field = m.field ∧ x.toHash = some m.toHash ∧ (x.fromHash = fr ∨ hashContains x.fromHash [m.toHash] = true))) := by
  induction refs generalizing acc with
  | nil => exact ⟨fun _ _ h => h, by simp, fun _ _ h => .inl h⟩
  | cons m refs ih =>
    rw [List.foldl_cons]
    obtain ⟨a1, a2, a3⟩ := mapToUsed_spec key m used fr acc
    obtain ⟨i1, i2, i3⟩ := ih (mapToUsed key m used fr acc)
    refine ⟨fun k x hx => i1 k x (a1 k x hx), ?_, ?_⟩
    · intro m' hm' h hh hc
      rcases List.mem_cons.mp hm' with rfl | hm'
      · exact i1 _ _ (a2 h hh hc)
      · exact i2 m' hm' h hh hc
    · intro k x hx
      rcases i3 k x hx with h | ⟨e, m', hm', h⟩
      · rcases a3 k x h with h | ⟨e, h⟩
        · exact .inl h
        · exact .inr ⟨e, m, by simp, h⟩
      · exact .inr ⟨e, m', by simp [hm'], h⟩

theorem addMappings_spec (used : List String) (data : List MapData)
    (acc : List (String × List DimMap) × List (String × List (String × String))) :
    let r := data.foldl (fun acc d => d.refs.foldl (fun acc m => mapToUsed d.key m used d.fromHash acc) acc) acc
    (∀ k x, x ∈ (dictGet acc.1 k).getD [] → x ∈ (dictGet r.1 k).getD []) ∧
    (∀ d ∈ data, ∀ m ∈ d.refs, ∀ h ∈ used, hashContains h [m.toHash] = true → ⟨m.field, h, some m.toHash⟩ ∈ (dictGet r.1 d.key).getD []) ∧
    (∀ k x, x ∈ (dictGet r.1 k).getD [] → x ∈ (dictGet acc.1 k).getD [] ∨
      ∃ d ∈ data, d.key = k ∧ ∃ m ∈ d.refs, x.field = m.field ∧ x.toHash = some m.toHash ∧
        (x.fromHash = d.fromHash ∨ hashContains x.fromHash [m.toHash] = true)) := by
  induction data generalizing acc with
  | nil => exact ⟨fun _ _ h => h, by simp, fun _ _ h => .inl h⟩
  | cons d data ih =>
    rw [List.foldl_cons]
    obtain ⟨a1, a2, a3⟩ := refsFold_spec used d.key d.fromHash d.refs acc
    obtain ⟨i1, i2, i3⟩ := ih (d.refs.foldl (fun acc m => mapToUsed d.key m used d.fromHash acc) acc)
    refine ⟨fun k x hx => i1 k x (a1 k x hx), ?_, ?_⟩
    · intro d' hd' m hm h hh hc
      rcases List.mem_cons.mp hd' with rfl | hd'
      · exact i1 _ _ (a2 m hm h hh hc)
      · exact i2 d' hd' m hm h hh hc
    · intro k x hx
      rcases i3 k x hx with h | ⟨d', hd', h⟩
      · rcases a3 k x h with h | ⟨e, h⟩
        · exact .inl h
        · exact .inr ⟨d, by simp, e.symm, h⟩
      · exact .inr ⟨d', by simp [hd'], h⟩

/-! ### Metrics stay where they are -/

theorem joinHashKey_dim (env : PlanEnv) (f : PField) (h : f.measure = false) :
    joinHashKey env f = .ok (underscoreJoin (f.graphs.filter (fun j => !containsSub "merged_result".toList j.toList))) := by
  unfold joinHashKey; rw [h]

theorem Spec.PlainDimension.contains {env : PlanEnv} {f : PField} (h : PlainDimension f) {c g : String} (hc : f.canon = some c)
    (hg : joinHashKey env f = .ok g) : hashContains (cteName c g) f.graphs = true := by
  obtain ⟨ns, hne, e⟩ := h.graphs
  rw [joinHashKey_dim env f h.dim, e] at hg
  injection hg with hg
  subst hg
  rw [hashContains_iff c (h.date c hc)]
  obtain ⟨n, hn⟩ := List.exists_mem_of_ne_nil ns hne
  refine ⟨n, hn, ?_⟩
  have : graphName n ∈ f.graphs.filter (fun j => !containsSub "merged_result".toList j.toList) := by
    rw [e]; exact List.mem_map.mpr ⟨n, hn, rfl⟩
  exact (List.mem_filter.mp this).1

theorem attachDimension_metrics (env : PlanEnv) (dm : List (String × List DimMap)) (dates used : List String) (hu : used.Nodup) (name : String)
    (acc acc' : List (String × List PField) × List (String × List PField)) (hok : attachDimension env dm dates used name acc = .ok acc')
    (hd : ∀ f, env.getField name = .ok f → PlainDimension f) :
    ((acc.1.map (·.1)).Nodup → (acc'.1.map (·.1)).Nodup) ∧
    (∀ k ∈ used, dictGet acc'.1 k = dictGet acc.1 k) ∧
    (∀ k, dictGet acc'.1 k = dictGet acc.1 k ∨ dictGet acc'.1 k = some []) := by
  unfold attachDimension at hok
  cases hf : env.getField name with
  | error e => rw [hf] at hok; cases hok
  | ok f =>
    rw [hf] at hok
    simp only at hok
    cases hg : joinHashKey env f with
    | error e => rw [hg] at hok; cases hok
    | ok g =>
      rw [hg] at hok
      simp only at hok
      by_cases hk : f.key ∈ dates
      · rw [if_pos hk] at hok
        cases ha : attachDates env f.group ((dictGet dm f.key).getD []) (dictAppend acc.2 (cteName f.key g) f) with
        | error e => rw [ha] at hok; cases hok
        | ok qd =>
          rw [ha] at hok
          simp only [Except.ok.injEq] at hok
          subst hok
          exact ⟨id, fun _ _ => rfl, fun _ => .inl rfl⟩
      · rw [if_neg hk] at hok
        cases ha : attachUsed env (acc.1.map (·.1)) dm f used true acc.2 with
        | error e => rw [ha] at hok; cases hok
        | ok p =>
          obtain ⟨b, qd⟩ := p
          rw [ha] at hok
          cases b with
          | false =>
            simp only [Except.ok.injEq] at hok
            subst hok
            exact ⟨id, fun _ _ => rfl, fun _ => .inl rfl⟩
          | true =>
            simp only at hok
            cases hc : f.canon with
            | none => rw [hc] at hok; cases hok
            | some c =>
              rw [hc] at hok
              simp only at hok
              cases ho : attachOwn env ((dictGet dm f.key).getD []) (dictAppend qd (cteName c g) f) with
              | error e => rw [ho] at hok; cases hok
              | ok qd2 =>
                rw [ho] at hok
                simp only [Except.ok.injEq] at hok
                subst hok
                obtain ⟨s1, _⟩ := attachUsed_spec env _ dm f used hu true true acc.2 qd ha
                have hnone := (s1.mp rfl).2
                have hin := (hd f hf).contains hc hg
                refine ⟨fun h => dictSet_nodup h _ _, ?_, ?_⟩
                · intro k hk
                  simp only
                  rw [dictGet_set, if_neg]
                  rintro rfl
                  rw [hnone _ hk] at hin
                  cases hin
                · intro k
                  simp only
                  rw [dictGet_set]
                  split
                  · exact .inr rfl
                  · exact .inl rfl

theorem attachDimensions_metrics (env : PlanEnv) (dm : List (String × List DimMap)) (dates used : List String) (hu : used.Nodup) (ds : List String)
    (acc acc' : List (String × List PField) × List (String × List PField)) (hok : attachDimensions env dm dates used ds acc = .ok acc')
    (hd : ∀ d ∈ ds, ∀ f, env.getField d = .ok f → PlainDimension f) :
    ((acc.1.map (·.1)).Nodup → (acc'.1.map (·.1)).Nodup) ∧
    (∀ k ∈ used, dictGet acc'.1 k = dictGet acc.1 k) ∧
    (∀ k, dictGet acc'.1 k = dictGet acc.1 k ∨ dictGet acc'.1 k = some []) := by
  induction ds generalizing acc with
  | nil =>
    simp only [attachDimensions, Except.ok.injEq] at hok
    subst hok
    exact ⟨id, fun _ _ => rfl, fun _ => .inl rfl⟩
  | cons d ds ih =>
    simp only [attachDimensions] at hok
    cases h1 : attachDimension env dm dates used d acc with
    | error e => rw [h1] at hok; cases hok
    | ok acc1 =>
      rw [h1] at hok
      obtain ⟨a1, a2, a3⟩ := attachDimension_metrics env dm dates used hu d acc acc1 h1 (hd d (by simp))
      obtain ⟨i1, i2, i3⟩ := ih acc1 hok (fun x hx => hd x (by simp [hx]))
      refine ⟨fun h => i1 (a1 h), fun k hk => (i2 k hk).trans (a2 k hk), ?_⟩
      intro k
      rcases i3 k with h | h
      · rw [h]; exact a3 k
      · exact .inr h

theorem getFields_mem (env : PlanEnv) (ds : List String) (fs : List PField) (h : getFields env ds = .ok fs) :
    ∀ f, f ∈ fs ↔ ∃ d ∈ ds, env.getField d = .ok f := by
  induction ds generalizing fs with
  | nil => simp only [getFields, Except.ok.injEq] at h; subst h; simp
  | cons d ds ih =>
    simp only [getFields] at h
    cases hf : env.getField d with
    | error e => rw [hf] at h; cases h
    | ok f =>
      rw [hf] at h
      cases hs : getFields env ds with
      | error e => rw [hs] at h; cases h
      | ok l =>
        rw [hs] at h
        simp only [Except.ok.injEq] at h
        subst h
        intro x
        rw [List.mem_cons, ih l hs]
        simp only [List.mem_cons, exists_eq_or_imp, hf, Except.ok.injEq, eq_comm (a := x)]

/-! ### Conditions -/

mutual
theorem MWhere.same_iff : ∀ a b : MWhere, a.same b = true ↔ a = b
  | .cond f r, b => by cases b <;> simp [MWhere.same]
  | .group r c, .group r' c' => by simp [MWhere.same, MWhere.sameList_iff c c']
  | .group r c, .cond _ _ => by simp [MWhere.same]
  | .group r c, .literal _ => by simp [MWhere.same]
  | .group r c, .null => by simp [MWhere.same]
  | .literal t, b => by cases b <;> simp [MWhere.same]
  | .null, b => by cases b <;> simp [MWhere.same]

theorem MWhere.sameList_iff : ∀ a b : List MWhere, MWhere.sameList a b = true ↔ a = b
  | [], b => by cases b <;> simp [MWhere.sameList]
  | x :: a, [] => by simp [MWhere.sameList]
  | x :: a, y :: b => by simp [MWhere.sameList, MWhere.same_iff x y, MWhere.sameList_iff a b]
end

theorem cleanWhere_spec (seen ws out : List MWhere) (h : cleanWhere seen ws = .ok out) (hn : seen.Nodup) :
    out.Nodup ∧ (∃ t, out = seen ++ t ∧ t.Sublist ws) ∧ ∀ w ∈ ws, w ∈ out := by
  induction ws generalizing seen with
  | nil => simp only [cleanWhere, Except.ok.injEq] at h; subst h; exact ⟨hn, ⟨[], by simp, by simp⟩, by simp⟩
  | cons w ws ih =>
    have hnn : w ≠ .null := by rintro rfl; cases h
    have h' : (if seen.any (fun x => x.same w) then cleanWhere seen ws else cleanWhere (seen ++ [w]) ws) = .ok out := by
      cases w with
      | null => exact absurd rfl hnn
      | cond _ _ => exact h
      | group _ _ => exact h
      | literal _ => exact h
    by_cases ha : seen.any (fun x => x.same w) = true
    · rw [if_pos ha] at h'
      obtain ⟨i1, ⟨t, i2, i3⟩, i4⟩ := ih seen h' hn
      refine ⟨i1, ⟨t, i2, i3.trans (List.sublist_cons_self _ _)⟩, ?_⟩
      intro x hx
      rcases List.mem_cons.mp hx with rfl | hx
      · obtain ⟨y, hy, e⟩ := List.any_eq_true.mp ha
        rw [MWhere.same_iff] at e
        subst e
        rw [i2]; simp [hy]
      · exact i4 x hx
    · rw [if_neg ha] at h'
      have hw : w ∉ seen := fun hm => ha (List.any_eq_true.mpr ⟨w, hm, (MWhere.same_iff w w).mpr rfl⟩)
      obtain ⟨i1, ⟨t, i2, i3⟩, i4⟩ := ih (seen ++ [w]) h' (by
        rw [List.nodup_append]
        refine ⟨hn, by simp, ?_⟩
        intro a hin b hb
        simp only [List.mem_singleton] at hb
        subst hb
        rintro rfl
        exact hw hin)
      refine ⟨i1, ⟨w :: t, by rw [i2]; simp, i3.cons_cons w⟩, ?_⟩
      intro x hx
      rcases List.mem_cons.mp hx with rfl | hx
      · rw [i2]; simp
      · exact i4 x hx

mutual
theorem resolveWhere_rewritten (env : PlanEnv) (qm : List (String × List PField)) (dm : List (String × List DimMap)) (h : String)
    (R : String → String → Prop) (hR : ∀ field rest w, resolveWhereLeaf env qm dm h field rest = .ok w → ∃ field', w = .cond field' rest ∧ R field field') :
    ∀ w w', Structured w → resolveWhere env qm dm h w = .ok w' → Rewritten R w w'
  | .cond field rest, w', _, e => by
    obtain ⟨field', rfl, r⟩ := hR field rest w' (by rw [resolveWhere] at e; exact e)
    exact .cond field field' rest r
  | .group rest cs, w', hs, e => by
    rw [resolveWhere] at e
    cases hc : resolveWheres env qm dm h cs with
    | error x => rw [hc] at e; cases e
    | ok ds =>
      rw [hc] at e
      simp only [Except.ok.injEq] at e
      subst e
      exact .group rest cs ds (resolveWheres_rewritten env qm dm h R hR cs ds (by simpa [Structured] using hs) hc)
  | .literal _, _, hs, _ => by simp [Structured] at hs
  | .null, _, hs, _ => by simp [Structured] at hs

theorem resolveWheres_rewritten (env : PlanEnv) (qm : List (String × List PField)) (dm : List (String × List DimMap)) (h : String)
    (R : String → String → Prop) (hR : ∀ field rest w, resolveWhereLeaf env qm dm h field rest = .ok w → ∃ field', w = .cond field' rest ∧ R field field') :
    ∀ ws ws', StructuredList ws → resolveWheres env qm dm h ws = .ok ws' → List.Forall₂ (Rewritten R) ws ws'
  | [], ws', _, e => by
    rw [resolveWheres] at e
    simp only [Except.ok.injEq] at e
    subst e
    exact .nil
  | w :: ws, ws', hs, e => by
    rw [resolveWheres] at e
    simp only [StructuredList] at hs
    cases h1 : resolveWhere env qm dm h w with
    | error x => rw [h1] at e; cases e
    | ok c =>
      rw [h1] at e
      simp only at e
      cases h2 : resolveWheres env qm dm h ws with
      | error x => rw [h2] at e; cases e
      | ok cs =>
        rw [h2] at e
        simp only [Except.ok.injEq] at e
        subst e
        exact .cons (resolveWhere_rewritten env qm dm h R hR w c hs.1 h1) (resolveWheres_rewritten env qm dm h R hR ws cs hs.2 h2)
end

theorem mapWhere_spec (env : PlanEnv) (f : PField) (h field rest : String) (ms : List DimMap) (w : MWhere)
    (hok : mapWhere env f.group h field rest ms = .ok w) :
    (w = .cond field rest ∧ ∀ m ∈ ms, m.fromHash ≠ h) ∨ ∃ m ∈ ms, m.fromHash = h ∧ ∃ g, IsVersion env f m.field g ∧ w = .cond g.id rest := by
  induction ms with
  | nil => simp only [mapWhere, Except.ok.injEq] at hok; exact .inl ⟨hok.symm, by simp⟩
  | cons m ms ih =>
    simp only [mapWhere] at hok
    by_cases hm : m.fromHash = h
    · rw [if_pos hm] at hok
      right
      refine ⟨m, by simp, hm, ?_⟩
      unfold IsVersion
      cases hgr : f.group with
      | none =>
        rw [hgr] at hok
        simp only at hok ⊢
        cases hg : env.getField m.field with
        | error e => rw [hg] at hok; cases hok
        | ok g =>
          rw [hg] at hok
          simp only [Except.ok.injEq] at hok
          exact ⟨g, rfl, hok.symm⟩
      | some x =>
        rw [hgr] at hok
        simp only at hok ⊢
        cases hg : env.getField (m.field ++ "_" ++ x) with
        | error e => rw [hg] at hok; cases hok
        | ok g =>
          rw [hg] at hok
          simp only [Except.ok.injEq] at hok
          exact ⟨g, rfl, hok.symm⟩
    · rw [if_neg hm] at hok
      rcases ih hok with ⟨e, hn⟩ | ⟨m', hm', e⟩
      · left
        refine ⟨e, ?_⟩
        intro x hx
        rcases List.mem_cons.mp hx with rfl | hx
        · exact hm
        · exact hn x hx
      · exact .inr ⟨m', by simp [hm'], e⟩

theorem allWheres_spec (env : PlanEnv) (qm : List (String × List PField)) (dm : List (String × List DimMap)) (wheres : List MWhere) (hs : List String)
    (out : List (String × List MWhere)) (h : allWheres env qm dm wheres hs = .ok out) :
    out.map (·.1) = hs ∧ ∀ k ∈ hs, ∃ ws, (k, ws) ∈ out ∧ subqueryWhere env qm dm wheres k = .ok ws := by
  induction hs generalizing out with
  | nil => simp only [allWheres, Except.ok.injEq] at h; subst h; simp
  | cons k hs ih =>
    simp only [allWheres] at h
    cases h1 : subqueryWhere env qm dm wheres k with
    | error e => rw [h1] at h; cases h
    | ok w =>
      rw [h1] at h
      cases h2 : allWheres env qm dm wheres hs with
      | error e => rw [h2] at h; cases h
      | ok l =>
        rw [h2] at h
        simp only [Except.ok.injEq] at h
        subst h
        obtain ⟨i1, i2⟩ := ih l h2
        refine ⟨by simp [i1], ?_⟩
        intro k' hk'
        rcases List.mem_cons.mp hk' with rfl | hk'
        · exact ⟨w, by simp, h1⟩
        · obtain ⟨ws, e1, e2⟩ := i2 k' hk'
          exact ⟨ws, by simp [e1], e2⟩

/-! ### Joinable sub-queries -/

theorem containsSub_cons_ne (c : Char) (l : List Char) (h : c ≠ '_') : containsSub ['_', '_'] (c :: l) = containsSub ['_', '_'] l := by
  rw [containsSub]
  simp [List.isPrefixOf, h.symm]

theorem containsSub_under_cons (c : Char) (l : List Char) (h : c ≠ '_') : containsSub ['_', '_'] ('_' :: c :: l) = containsSub ['_', '_'] l := by
  rw [containsSub, containsSub_cons_ne c l h]
  simp [List.isPrefixOf, h.symm]

theorem containsSub_digits (ds l : List Char) (h : ∀ c ∈ ds, c ≠ '_') : containsSub ['_', '_'] (ds ++ l) = containsSub ['_', '_'] l := by
  induction ds with
  | nil => rfl
  | cons d ds ih =>
    rw [List.cons_append, containsSub_cons_ne d _ (h d (by simp)), ih (fun c hc => h c (by simp [hc]))]

theorem graphs_no_double (ns : List ℕ) : containsSub ['_', '_'] (underscoreJoin (ns.map graphName)).toList = false ∧
    (ns ≠ [] → ∃ l, (underscoreJoin (ns.map graphName)).toList = 's' :: l) := by
  have hword : ∀ l : List Char, containsSub ['_', '_'] ("subquery".toList ++ l) = containsSub ['_', '_'] l := by
    intro l
    exact containsSub_digits _ l (by decide)
  have hnum : ∀ (n : ℕ) (l : List Char), containsSub ['_', '_'] ('_' :: ((toString n).toList ++ l)) = containsSub ['_', '_'] l := by
    intro n l
    cases hd : (toString n).toList with
    | nil => exact absurd hd (digits_nonempty n)
    | cons d ds =>
      have hall : ∀ c ∈ d :: ds, c ≠ '_' := fun c hc => underscore_not_digit c (digits_isDigit n c (hd ▸ hc))
      rw [List.cons_append, containsSub_under_cons d _ (hall d (by simp)), containsSub_digits ds l (fun c hc => hall c (by simp [hc]))]
  have hg : ∀ n : ℕ, (graphName n).toList = "subquery".toList ++ ('_' :: (toString n).toList) := by
    intro n
    unfold graphName
    rw [String.toList_append, show "subquery_".toList = "subquery".toList ++ ['_'] from by decide]
    simp
  induction ns with
  | nil => exact ⟨by decide, by simp⟩
  | cons n ns ih =>
    cases ns with
    | nil =>
      simp only [List.map_cons, List.map_nil, underscoreJoin]
      rw [hg]
      refine ⟨?_, fun _ => ⟨"ubquery".toList ++ ('_' :: (toString n).toList), by rw [sep_eq]; rfl⟩⟩
      rw [hword]
      have := hnum n []
      rw [List.append_nil] at this
      rw [this]; rfl
    | cons m ns =>
      simp only [List.map_cons, underscoreJoin, String.toList_append] at ih ⊢
      rw [hg]
      obtain ⟨i1, i2⟩ := ih
      obtain ⟨l, hl⟩ := i2 (by simp)
      constructor
      · rw [show "_".toList = ['_'] from by decide, List.append_assoc, List.append_assoc, hword, List.cons_append, hnum]
        rw [hl] at i1 ⊢
        rw [List.singleton_append, containsSub_under_cons 's' l (by decide)]
        rw [containsSub_cons_ne 's' l (by decide)] at i1
        exact i1
      · intro _
        rw [sep_eq]
        exact ⟨_, by rw [List.append_assoc, List.append_assoc, List.cons_append]⟩

theorem split_double (D T : List Char) (hD : containsSub ['_', '_'] D = false) (hl : D.getLast? ≠ some '_') (hT : containsSub ['_', '_'] T = false) :
    splitSub ['_', '_'] (D ++ '_' :: '_' :: T) = [D, T] := by
  unfold splitSub
  induction D with
  | nil =>
    rw [List.nil_append, splitSubGo]
    rw [if_pos (by simp [List.isPrefixOf])]
    have := splitSub_none ['_', '_'] T hT
    unfold splitSub at this
    simp only [List.length_cons, List.length_nil]
    rw [splitSubGo_skip _ _ _ (by simp)]
    simp only [Nat.zero_add, Nat.reduceAdd, Nat.add_one_sub_one, List.drop_one, List.tail_cons]
    rw [this]
  | cons c D ih =>
    rw [containsSub, Bool.or_eq_false_iff] at hD
    have hnp : (['_', '_'] : List Char).isPrefixOf (c :: (D ++ '_' :: '_' :: T)) = false := by
      cases D with
      | nil =>
        have : c ≠ '_' := by rintro rfl; exact hl rfl
        simp [List.isPrefixOf, this.symm]
      | cons d D =>
        have := hD.1
        simpa [List.isPrefixOf] using this
    rw [List.cons_append, splitSubGo, if_neg (by rw [hnp]; decide), ih hD.2 (by
      cases D with
      | nil => simp
      | cons d D => simpa using hl)]

theorem split_graphs_raw (ns : List ℕ) : ∀ a : List Char, containsSub "subquery".toList a = false →
    ∃ P, splitSub "subquery".toList (a ++ (underscoreJoin (ns.map graphName)).toList) = a :: P ∧
      P.map (fun g => String.ofList (stripUnderscores ("subquery".toList ++ g))) = ns.map graphName ∧
      ∀ p ∈ P, ∃ n ∈ ns, p = '_' :: (toString n).toList ∨ p = '_' :: (toString n).toList ++ ['_'] := by
  have hstrip : ∀ (n post : ℕ), String.ofList (stripUnderscores ("subquery".toList ++ ('_' :: (toString n).toList ++ List.replicate post '_'))) = graphName n := by
    intro n post
    have hlast : ((graphName n).toList).getLast? ≠ some '_' := by
      unfold graphName
      rw [String.toList_append]
      cases hd : (toString n).toList with
      | nil => exact absurd hd (digits_nonempty n)
      | cons d ds =>
        rw [List.getLast?_append_of_ne_nil _ (by simp)]
        intro h
        exact underscore_not_digit '_' (digits_isDigit n _ (hd ▸ List.mem_of_getLast? h)) rfl
    have hhead : ((graphName n).toList).head? ≠ some '_' := by
      unfold graphName
      rw [String.toList_append, show "subquery_".toList = 's' :: "ubquery_".toList from by decide]
      simp
    have e : "subquery".toList ++ ('_' :: (toString n).toList ++ List.replicate post '_') = List.replicate 0 '_' ++ (graphName n).toList ++ List.replicate post '_' := by
      unfold graphName
      rw [String.toList_append, show "subquery_".toList = "subquery".toList ++ ['_'] from by decide]
      simp only [List.replicate_zero, List.nil_append, List.append_assoc, List.cons_append]
    rw [e]
    rcases strip_nonunder _ hhead hlast 0 post with h | h
    · rw [h, String.ofList_toList]
    · exfalso
      unfold graphName at h
      rw [String.toList_append] at h
      exact digits_nonempty n (List.append_eq_nil_iff.mp h).2
  induction ns with
  | nil =>
    intro a ha
    refine ⟨[], ?_, rfl, by simp⟩
    simp only [List.map_nil, underscoreJoin]
    rw [show "".toList = [] from by decide, List.append_nil, splitSub_none _ _ ha]
  | cons n ns ih =>
    intro a ha
    have hdig : 's' ∉ '_' :: (toString n).toList := by
      rw [List.mem_cons]
      rintro (h | h)
      · exact absurd h (by decide)
      · exact absurd (digits_isDigit n _ h) (by decide)
    cases ns with
    | nil =>
      have e : a ++ (underscoreJoin ([n].map graphName)).toList = a ++ ('s' :: "ubquery".toList) ++ ('_' :: (toString n).toList) := by
        simp only [List.map_cons, List.map_nil, underscoreJoin, graphName, String.toList_append]
        rw [show "subquery_".toList = ('s' :: "ubquery".toList) ++ ['_'] from by decide]
        simp
      refine ⟨['_' :: (toString n).toList], ?_, ?_, fun p hp => ⟨n, by simp, .inl (by simpa using hp)⟩⟩
      · rw [e, sep_eq, splitSub_append _ _ _ _ (by decide) (by rw [← sep_eq]; exact ha), ← sep_eq,
          splitSub_none _ _ (no_subquery_of_no_s _ hdig)]
      · have := hstrip n 0
        rw [List.replicate_zero, List.append_nil] at this
        rw [List.map_cons, this]; rfl
    | cons m ns =>
      have e : a ++ (underscoreJoin ((n :: m :: ns).map graphName)).toList =
          a ++ ('s' :: "ubquery".toList) ++ (('_' :: (toString n).toList ++ ['_']) ++
            (underscoreJoin ((m :: ns).map graphName)).toList) := by
        simp only [List.map_cons, underscoreJoin, String.toList_append]
        have : (graphName n).toList = ('s' :: "ubquery".toList) ++ '_' :: (toString n).toList := by
          unfold graphName
          rw [String.toList_append, show "subquery_".toList = ('s' :: "ubquery".toList) ++ ['_'] from by decide]
          simp
        rw [this, show "_".toList = ['_'] from by decide]
        simp
      have hdig2 : 's' ∉ '_' :: (toString n).toList ++ ['_'] := by
        intro h
        rcases List.mem_append.mp h with h | h
        · exact hdig h
        · simp at h
      obtain ⟨P, p1, p2, p3⟩ := ih _ (no_subquery_of_no_s _ hdig2)
      refine ⟨('_' :: (toString n).toList ++ ['_']) :: P, ?_, ?_, ?_⟩
      · rw [e, sep_eq, splitSub_append _ _ _ _ (by decide) (by rw [← sep_eq]; exact ha), ← sep_eq, p1]
      · have := hstrip n 1
        rw [List.replicate_one] at this
        rw [List.map_cons, this, p2]; rfl
      · intro p hp
        rcases List.mem_cons.mp hp with rfl | hp
        · exact ⟨n, by simp, .inr rfl⟩
        · obtain ⟨k, hk, e⟩ := p3 p hp
          exact ⟨k, by simp [hk], e⟩

theorem joinable_eq (date : String) (hd : TidyDate date) (ns : List ℕ) :
    joinableSubqueries (cteName date (underscoreJoin (ns.map graphName))) = ns.map graphName := by
  unfold joinableSubqueries
  simp only
  have e2 : "__".toList = ['_', '_'] := by decide
  have hdate : containsSub ['_', '_'] (dotsToUnderscores date).toList = false := by
    rw [Bool.eq_false_iff, Ne, containsSub_iff, ← e2]; exact hd.1
  rw [cteName_toList, e2, List.append_assoc]
  rw [show (['_', '_'] : List Char) ++ (underscoreJoin (ns.map graphName)).toList = '_' :: '_' :: (underscoreJoin (ns.map graphName)).toList from rfl,
    split_double _ _ hdate hd.2 (graphs_no_double ns).1]
  obtain ⟨P, p1, p2, p3⟩ := split_graphs_raw ns [] (by decide)
  rw [List.nil_append] at p1
  simp only [List.getLast?_cons_cons, List.getLast?_singleton, Option.getD_some]
  rw [p1, List.filter_cons_of_neg (by simp), List.filter_eq_self.mpr (by
    intro p hp
    obtain ⟨n, _, e | e⟩ := p3 p hp <;> rw [e] <;> simp), p2]

theorem splitSub_ne_nil (sep : List Char) (k : ℕ) (l : List Char) : splitSubGo sep k l ≠ [] := by
  induction l generalizing k with
  | nil => cases k <;> simp [splitSubGo]
  | cons c cs ih =>
    cases k with
    | succ k => simp only [splitSubGo]; exact ih k
    | zero =>
      simp only [splitSubGo]
      split
      · simp
      · split <;> simp

theorem splitSub_concat (s : Char) (tl : List Char) (hs : s ∉ tl) (r : List Char) : ∀ (n : ℕ) (x : List Char), x.length ≤ n →
    splitSub (s :: tl) (x ++ (s :: tl) ++ r) = splitSub (s :: tl) x ++ splitSub (s :: tl) r := by
  intro n
  induction n with
  | zero =>
    intro x hx
    have : x = [] := List.length_eq_zero_iff.mp (Nat.le_zero.mp hx)
    subst this
    exact splitSub_append s tl [] r hs (by rw [Bool.eq_false_iff, Ne, containsSub_iff]; simp)
  | succ n ih =>
    intro x hx
    cases x with
    | nil => exact splitSub_append s tl [] r hs (by rw [Bool.eq_false_iff, Ne, containsSub_iff]; simp)
    | cons c x =>
      by_cases hp : (s :: tl).isPrefixOf (c :: x) = true
      · obtain ⟨y, hy⟩ := List.isPrefixOf_iff_prefix.mp hp
        rw [← hy]
        have h1 : splitSub (s :: tl) ((s :: tl) ++ y ++ (s :: tl) ++ r) = [] :: splitSub (s :: tl) (y ++ (s :: tl) ++ r) := by
          have := splitSub_append s tl [] (y ++ (s :: tl) ++ r) hs (by rw [Bool.eq_false_iff, Ne, containsSub_iff]; simp)
          rw [List.nil_append] at this
          rw [← this]
          simp only [List.append_assoc]
        have h2 : splitSub (s :: tl) ((s :: tl) ++ y) = [] :: splitSub (s :: tl) y := by
          have := splitSub_append s tl [] y hs (by rw [Bool.eq_false_iff, Ne, containsSub_iff]; simp)
          rwa [List.nil_append] at this
        rw [h1, h2, ih y (by
          have := congrArg List.length hy
          simp only [List.length_append, List.length_cons] at this hx
          omega)]
        rfl
      · have hp' : ¬ (s :: tl).isPrefixOf (c :: (x ++ (s :: tl) ++ r)) = true := by
          intro h
          rw [List.isPrefixOf_iff_prefix] at h hp
          obtain ⟨y, hy⟩ := h
          have hy' : (s :: tl) ++ y = (c :: x) ++ ((s :: tl) ++ r) := by
            rw [hy]; simp
          by_cases hlen : (s :: tl).length ≤ (c :: x).length
          · apply hp
            have := List.prefix_of_prefix_length_le (l₁ := s :: tl) (l₂ := c :: x) (l₃ := (s :: tl) ++ y) ⟨y, rfl⟩ ⟨_, hy'.symm⟩ hlen
            exact this
          · have hpre : (c :: x) <+: (s :: tl) :=
              List.prefix_of_prefix_length_le (l₃ := (s :: tl) ++ y) ⟨_, hy'.symm⟩ ⟨y, rfl⟩ (by omega)
            obtain ⟨z, hz⟩ := hpre
            rw [← hz, List.append_assoc] at hy'
            have hz2 := List.append_cancel_left hy'
            cases z with
            | nil => rw [List.append_nil] at hz; rw [← hz] at hlen; simp at hlen
            | cons z0 z =>
              rw [List.cons_append, hz, List.cons_append] at hz2
              injection hz2 with e _
              rw [List.cons_append] at hz
              injection hz with _ hz
              apply hs
              rw [← hz, ← e]; simp
        have e1 : ∀ p ps, splitSub (s :: tl) (x ++ (s :: tl) ++ r) = p :: ps → splitSub (s :: tl) (c :: x ++ (s :: tl) ++ r) = (c :: p) :: ps := by
          intro p ps h
          unfold splitSub at h ⊢
          rw [List.cons_append, List.cons_append, splitSubGo, if_neg hp', h]
        have e2 : ∀ p ps, splitSub (s :: tl) x = p :: ps → splitSub (s :: tl) (c :: x) = (c :: p) :: ps := by
          intro p ps h
          unfold splitSub at h ⊢
          rw [splitSubGo, if_neg hp, h]
        have hi := ih x (by simp only [List.length_cons] at hx; omega)
        cases hq : splitSub (s :: tl) x with
        | nil => exact absurd hq (splitSub_ne_nil _ _ _)
        | cons p ps =>
          rw [hq, List.cons_append] at hi
          rw [e1 _ _ hi, e2 _ _ hq]
          rfl

theorem digit_of_lt (n : ℕ) (h : n < 10) : ∃ d, (toString n).toList = [d] := by
  rw [show toString n = Nat.repr n from rfl, Nat.toList_repr]
  interval_cases n <;> exact ⟨_, rfl⟩

theorem toString_inj (a b : ℕ) (ha : a < 10) (hb : b < 10) (h : (toString a).toList = (toString b).toList) : a = b := by
  rw [String.toList_inj] at h
  interval_cases a <;> interval_cases b <;> first | rfl | exact absurd h (by decide)

/-- With fewer than ten join graphs the names of the graphs do not overlap. -/
theorem infix_graph (date : String) (hd : PlainDate date) (ns : List ℕ) (hns : ∀ n ∈ ns, n < 10) (k : ℕ) (hk : k < 10)
    (h : (graphName k).toList <:+: (cteName date (underscoreJoin (ns.map graphName))).toList) : k ∈ ns := by
  obtain ⟨x, y, e⟩ := h
  have hsub : containsSub "subquery".toList ((dotsToUnderscores date).toList ++ "__".toList) = false := by
    apply containsSub_append_of_not_mem
    · rw [Bool.eq_false_iff, Ne, containsSub_iff]; exact hd.word
    · intro c hc
      have : c = '_' := by
        rw [show "__".toList = ['_', '_'] from by decide] at hc
        simpa using hc
      subst this
      decide
    · decide
  obtain ⟨P, p1, _, p3⟩ := split_graphs_raw ns _ hsub
  rw [← cteName_toList, ← e] at p1
  have hw : x ++ (graphName k).toList ++ y = x ++ ('s' :: "ubquery".toList) ++ ('_' :: (toString k).toList ++ y) := by
    unfold graphName
    rw [String.toList_append, show "subquery_".toList = ('s' :: "ubquery".toList) ++ ['_'] from by decide]
    simp
  rw [hw, sep_eq, splitSub_concat 's' "ubquery".toList (by decide) _ x.length x (le_refl _)] at p1
  obtain ⟨d, hdk⟩ := digit_of_lt k hk
  have hd1 : d ≠ 's' := by
    rintro rfl
    exact absurd (digits_isDigit k 's' (by rw [hdk]; simp)) (by decide)
  rw [hdk] at p1
  cases hx : splitSub ('s' :: "ubquery".toList) x with
  | nil => exact absurd hx (splitSub_ne_nil _ _ _)
  | cons a0 as =>
    rw [hx] at p1
    have hfirst : ∃ p ps, splitSub ('s' :: "ubquery".toList) ('_' :: [d] ++ y) = ('_' :: d :: p) :: ps := by
      unfold splitSub
      have n1 : ¬ ('s' :: "ubquery".toList).isPrefixOf ('_' :: d :: y) = true := by
        rw [List.isPrefixOf_cons_cons]; simp
      have n2 : ¬ ('s' :: "ubquery".toList).isPrefixOf (d :: y) = true := by
        rw [List.isPrefixOf_cons_cons]
        simp [hd1.symm]
      show ∃ p ps, splitSubGo ('s' :: "ubquery".toList) 0 ('_' :: d :: y) = _
      rw [splitSubGo, if_neg n1, splitSubGo, if_neg n2]
      cases hq : splitSubGo ('s' :: "ubquery".toList) 0 y with
      | nil => exact absurd hq (splitSub_ne_nil _ _ _)
      | cons p ps => exact ⟨p, ps, rfl⟩
    obtain ⟨p, ps, hfirst⟩ := hfirst
    rw [hfirst, List.cons_append] at p1
    injection p1 with _ p1
    have hm : ('_' :: d :: p) ∈ P := by rw [← p1]; simp
    obtain ⟨n, hn, e | e⟩ := p3 _ hm
    · obtain ⟨d', hdn⟩ := digit_of_lt n (hns n hn)
      rw [hdn] at e
      injection e with _ e
      injection e with e _
      subst e
      rw [toString_inj k n hk (hns n hn) (by rw [hdk, hdn])]
      exact hn
    · obtain ⟨d', hdn⟩ := digit_of_lt n (hns n hn)
      rw [hdn] at e
      injection e with _ e
      injection e with e _
      subst e
      rw [toString_inj k n hk (hns n hn) (by rw [hdk, hdn])]
      exact hn

/-! ### The dimensions of the sub-queries -/

/-- How a turn of the loop over the dimensions attaches `x` to `k` for the dimension `f`. -/
def TurnAttached (env : PlanEnv) (dm : List (String × List DimMap)) (dates : List String) (k : String) (f x : PField) : Prop :=
  (x = f ∧ (hashContains k f.graphs = true ∨ ∃ c g, (c = f.key ∨ f.canon = some c) ∧ joinHashKey env f = .ok g ∧ k = cteName c g)) ∨
  ∃ m ∈ (dictGet dm f.key).getD [], (f.key ∈ dates ∧ env.getField (m.field ++ "_" ++ f.group.getD "None") = .ok x ∧ k = m.fromHash) ∨
    (f.key ∉ dates ∧ env.getField m.field = .ok x ∧ (m.fromHash = k ∨ ∃ t, m.toHash = some t ∧ (t.toList <:+: k.toList ∨ ∃ c, x.canon = some c ∧ k = cteName c t)))

theorem mem_append_old {V : Type} (d : List (String × List V)) (k k' : String) (v x : V) (h : x ∈ (dictGet d k').getD []) :
    x ∈ (dictGet (dictAppend d k v) k').getD [] := by
  rw [dictGet_append]
  split
  · exact List.mem_append_left _ h
  · exact h

theorem mem_append_cases {V : Type} (d : List (String × List V)) (k k' : String) (v x : V) (h : x ∈ (dictGet (dictAppend d k v) k').getD []) :
    x ∈ (dictGet d k').getD [] ∨ (k' = k ∧ x = v) := by
  rw [dictGet_append] at h
  split at h
  · rename_i e
    rcases List.mem_append.mp h with h | h
    · exact .inl h
    · exact .inr ⟨e.symm, by simpa using h⟩
  · exact .inl h

theorem mem_append_new {V : Type} (d : List (String × List V)) (k : String) (v : V) : v ∈ (dictGet (dictAppend d k v) k).getD [] := by
  rw [dictGet_append, if_pos rfl]; simp

theorem attachDates_spec (env : PlanEnv) (group : Option String) (ms : List DimMap) (qd qd' : List (String × List PField))
    (h : attachDates env group ms qd = .ok qd') :
    (∀ k x, x ∈ (dictGet qd k).getD [] → x ∈ (dictGet qd' k).getD []) ∧
    (∀ m ∈ ms, ∃ x, env.getField (m.field ++ "_" ++ group.getD "None") = .ok x ∧ x ∈ (dictGet qd' m.fromHash).getD []) ∧
    (∀ k x, x ∈ (dictGet qd' k).getD [] → x ∈ (dictGet qd k).getD [] ∨ ∃ m ∈ ms, env.getField (m.field ++ "_" ++ group.getD "None") = .ok x ∧ k = m.fromHash) := by
  induction ms generalizing qd with
  | nil => simp only [attachDates, Except.ok.injEq] at h; subst h; exact ⟨fun _ _ h => h, by simp, fun _ _ h => .inl h⟩
  | cons m ms ih =>
    simp only [attachDates] at h
    cases hf : env.getField (m.field ++ "_" ++ group.getD "None") with
    | error e => rw [hf] at h; cases h
    | ok f =>
      rw [hf] at h
      simp only at h
      obtain ⟨i1, i2, i3⟩ := ih _ h
      refine ⟨fun k x hx => i1 k x (mem_append_old _ _ _ _ _ hx), ?_, ?_⟩
      · intro m' hm'
        rcases List.mem_cons.mp hm' with rfl | hm'
        · exact ⟨f, hf, i1 _ _ (mem_append_new _ _ _)⟩
        · exact i2 m' hm'
      · intro k x hx
        rcases i3 k x hx with h | ⟨m', hm', e⟩
        · rcases mem_append_cases _ _ _ _ _ h with h | ⟨e, e'⟩
          · exact .inl h
          · subst e'; exact .inr ⟨m, by simp, hf, e⟩
        · exact .inr ⟨m', by simp [hm'], e⟩

theorem attachOwn_spec (env : PlanEnv) (ms : List DimMap) (qd qd' : List (String × List PField)) (h : attachOwn env ms qd = .ok qd') :
    (∀ k x, x ∈ (dictGet qd k).getD [] → x ∈ (dictGet qd' k).getD []) ∧
    (∀ k x, x ∈ (dictGet qd' k).getD [] → x ∈ (dictGet qd k).getD [] ∨
      ∃ m ∈ ms, env.getField m.field = .ok x ∧ ∃ t, m.toHash = some t ∧ ∃ c, x.canon = some c ∧ k = cteName c t) := by
  induction ms generalizing qd with
  | nil => simp only [attachOwn, Except.ok.injEq] at h; subst h; exact ⟨fun _ _ h => h, fun _ _ h => .inl h⟩
  | cons m ms ih =>
    simp only [attachOwn] at h
    cases hf : env.getField m.field with
    | error e => rw [hf] at h; cases h
    | ok f =>
      rw [hf] at h
      simp only at h
      cases hc : f.canon with
      | none => rw [hc] at h; cases h
      | some c =>
        rw [hc] at h
        simp only at h
        cases ht : m.toHash with
        | none => rw [ht] at h; cases h
        | some t =>
          rw [ht] at h
          simp only at h
          obtain ⟨i1, i3⟩ := ih _ h
          refine ⟨fun k x hx => i1 k x (mem_append_old _ _ _ _ _ hx), ?_⟩
          intro k x hx
          rcases i3 k x hx with h | ⟨m', hm', e⟩
          · rcases mem_append_cases _ _ _ _ _ h with h | ⟨e, e'⟩
            · exact .inl h
            · subst e'; exact .inr ⟨m, by simp, hf, t, ht, c, hc, e⟩
          · exact .inr ⟨m', by simp [hm'], e⟩

theorem attachDimension_dims (env : PlanEnv) (dm : List (String × List DimMap)) (dates used : List String) (hu : used.Nodup) (name : String)
    (acc acc' : List (String × List PField) × List (String × List PField)) (hok : attachDimension env dm dates used name acc = .ok acc') :
    (∀ k x, x ∈ (dictGet acc.2 k).getD [] → x ∈ (dictGet acc'.2 k).getD []) ∧
    (∀ k x, x ∈ (dictGet acc'.2 k).getD [] → x ∈ (dictGet acc.2 k).getD [] ∨ ∃ f, env.getField name = .ok f ∧ TurnAttached env dm dates k f x) ∧
    (∀ f, env.getField name = .ok f → f.key ∉ dates → ∀ h ∈ used, hashContains h f.graphs = true → f ∈ (dictGet acc'.2 h).getD []) ∧
    (∀ f, env.getField name = .ok f → f.key ∈ dates → (∀ g, joinHashKey env f = .ok g → f ∈ (dictGet acc'.2 (cteName f.key g)).getD []) ∧
      ∀ m ∈ (dictGet dm f.key).getD [], ∃ x, env.getField (m.field ++ "_" ++ f.group.getD "None") = .ok x ∧ x ∈ (dictGet acc'.2 m.fromHash).getD []) := by
  unfold attachDimension at hok
  cases hf : env.getField name with
  | error e => rw [hf] at hok; cases hok
  | ok f =>
    rw [hf] at hok
    simp only at hok
    cases hg : joinHashKey env f with
    | error e => rw [hg] at hok; cases hok
    | ok g =>
      rw [hg] at hok
      simp only at hok
      by_cases hk : f.key ∈ dates
      · rw [if_pos hk] at hok
        cases ha : attachDates env f.group ((dictGet dm f.key).getD []) (dictAppend acc.2 (cteName f.key g) f) with
        | error e => rw [ha] at hok; cases hok
        | ok qd =>
          rw [ha] at hok
          simp only [Except.ok.injEq] at hok
          subst hok
          obtain ⟨s1, s2, s3⟩ := attachDates_spec env _ _ _ _ ha
          refine ⟨fun k x hx => s1 k x (mem_append_old _ _ _ _ _ hx), ?_, ?_, ?_⟩
          · intro k x hx
            rcases s3 k x hx with h | ⟨m, hm, e1, e2⟩
            · rcases mem_append_cases _ _ _ _ _ h with h | ⟨e, e'⟩
              · exact .inl h
              · exact .inr ⟨f, rfl, .inl ⟨e', .inr ⟨f.key, g, .inl rfl, hg, e⟩⟩⟩
            · exact .inr ⟨f, rfl, .inr ⟨m, hm, .inl ⟨hk, e1, e2⟩⟩⟩
          · intro f' e hk'
            injection e with e
            subst e
            exact absurd hk hk'
          · intro f' e _
            injection e with e
            subst e
            refine ⟨?_, s2⟩
            intro g' hg'
            rw [hg] at hg'
            injection hg' with hg'
            subst hg'
            exact s1 _ _ (mem_append_new _ _ _)
      · rw [if_neg hk] at hok
        cases ha : attachUsed env (acc.1.map (·.1)) dm f used true acc.2 with
        | error e => rw [ha] at hok; cases hok
        | ok p =>
          obtain ⟨b, qd⟩ := p
          rw [ha] at hok
          obtain ⟨s1, s2, s3, s4⟩ := attachUsed_spec env _ dm f used hu true b acc.2 qd ha
          have mono : ∀ k x, x ∈ (dictGet acc.2 k).getD [] → x ∈ (dictGet qd k).getD [] := by
            intro k x hx
            by_cases hku : k ∈ used
            · cases hc : hashContains k f.graphs with
              | true => rw [s3 k hku hc]; exact List.mem_append_left _ hx
              | false =>
                obtain ⟨_, new, _, e, _⟩ := s4 k hku hc
                rw [e]; exact List.mem_append_left _ hx
            · rw [s2 k hku]; exact hx
          have only : ∀ k x, x ∈ (dictGet qd k).getD [] → x ∈ (dictGet acc.2 k).getD [] ∨ TurnAttached env dm dates k f x := by
            intro k x hx
            by_cases hku : k ∈ used
            · cases hc : hashContains k f.graphs with
              | true =>
                rw [s3 k hku hc] at hx
                rcases List.mem_append.mp hx with hx | hx
                · exact .inl hx
                · exact .inr (.inl ⟨by simpa using hx, .inl hc⟩)
              | false =>
                obtain ⟨ms, new, e0, e, e1⟩ := s4 k hku hc
                rw [e] at hx
                rcases List.mem_append.mp hx with hx | hx
                · exact .inl hx
                · obtain ⟨m, hm, e2, e3⟩ := e1 x hx
                  refine .inr (.inr ⟨m, by rw [e0]; exact hm, .inr ⟨hk, e2, ?_⟩⟩)
                  rcases e3 with e3 | ⟨t, e4, e5⟩
                  · exact .inl e3
                  · exact .inr ⟨t, e4, .inl e5⟩
            · rw [s2 k hku] at hx; exact .inl hx
          have direct : ∀ h ∈ used, hashContains h f.graphs = true → f ∈ (dictGet qd h).getD [] := by
            intro h hh hc
            rw [s3 h hh hc]; simp
          cases b with
          | false =>
            simp only [Except.ok.injEq] at hok
            subst hok
            refine ⟨mono, ?_, ?_, ?_⟩
            · intro k x hx
              exact (only k x hx).imp id (fun h => ⟨f, rfl, h⟩)
            · intro f' e _ h hh hc
              injection e with e
              subst e
              exact direct h hh hc
            · intro f' e hk'
              injection e with e
              subst e
              exact absurd hk' hk
          | true =>
            simp only at hok
            cases hc : f.canon with
            | none => rw [hc] at hok; cases hok
            | some c =>
              rw [hc] at hok
              simp only at hok
              cases ho : attachOwn env ((dictGet dm f.key).getD []) (dictAppend qd (cteName c g) f) with
              | error e => rw [ho] at hok; cases hok
              | ok qd2 =>
                rw [ho] at hok
                simp only [Except.ok.injEq] at hok
                subst hok
                obtain ⟨o1, o2⟩ := attachOwn_spec env _ _ _ ho
                refine ⟨fun k x hx => o1 k x (mem_append_old _ _ _ _ _ (mono k x hx)), ?_, ?_, ?_⟩
                · intro k x hx
                  rcases o2 k x hx with h | ⟨m, hm, e1, t, e2, e3⟩
                  · rcases mem_append_cases _ _ _ _ _ h with h | ⟨e, e'⟩
                    · exact (only k x h).imp id (fun h => ⟨f, rfl, h⟩)
                    · exact .inr ⟨f, rfl, .inl ⟨e', .inr ⟨c, g, .inr hc, hg, e⟩⟩⟩
                  · exact .inr ⟨f, rfl, .inr ⟨m, hm, .inr ⟨hk, e1, .inr ⟨t, e2, .inr e3⟩⟩⟩⟩
                · intro f' e _ h hh hc'
                  injection e with e
                  subst e
                  exact o1 _ _ (mem_append_old _ _ _ _ _ (direct h hh hc'))
                · intro f' e hk'
                  injection e with e
                  subst e
                  exact absurd hk' hk

theorem attachDimensions_dims (env : PlanEnv) (dm : List (String × List DimMap)) (dates used : List String) (hu : used.Nodup) (ds : List String)
    (acc acc' : List (String × List PField) × List (String × List PField)) (hok : attachDimensions env dm dates used ds acc = .ok acc') :
    (∀ k x, x ∈ (dictGet acc.2 k).getD [] → x ∈ (dictGet acc'.2 k).getD []) ∧
    (∀ k x, x ∈ (dictGet acc'.2 k).getD [] → x ∈ (dictGet acc.2 k).getD [] ∨ ∃ d ∈ ds, ∃ f, env.getField d = .ok f ∧ TurnAttached env dm dates k f x) ∧
    (∀ d ∈ ds, ∀ f, env.getField d = .ok f → f.key ∉ dates → ∀ h ∈ used, hashContains h f.graphs = true → f ∈ (dictGet acc'.2 h).getD []) ∧
    (∀ d ∈ ds, ∀ f, env.getField d = .ok f → f.key ∈ dates → (∀ g, joinHashKey env f = .ok g → f ∈ (dictGet acc'.2 (cteName f.key g)).getD []) ∧
      ∀ m ∈ (dictGet dm f.key).getD [], ∃ x, env.getField (m.field ++ "_" ++ f.group.getD "None") = .ok x ∧ x ∈ (dictGet acc'.2 m.fromHash).getD []) := by
  induction ds generalizing acc with
  | nil =>
    simp only [attachDimensions, Except.ok.injEq] at hok
    subst hok
    exact ⟨fun _ _ h => h, fun _ _ h => .inl h, by simp, by simp⟩
  | cons d ds ih =>
    simp only [attachDimensions] at hok
    cases h1 : attachDimension env dm dates used d acc with
    | error e => rw [h1] at hok; cases hok
    | ok acc1 =>
      rw [h1] at hok
      obtain ⟨a1, a2, a3, a4⟩ := attachDimension_dims env dm dates used hu d acc acc1 h1
      obtain ⟨i1, i2, i3, i4⟩ := ih acc1 hok
      refine ⟨fun k x hx => i1 k x (a1 k x hx), ?_, ?_, ?_⟩
      · intro k x hx
        rcases i2 k x hx with h | ⟨d', hd', h⟩
        · exact (a2 k x h).imp id (fun h => ⟨d, by simp, h⟩)
        · exact .inr ⟨d', by simp [hd'], h⟩
      · intro d' hd' f hf hk h hh hc
        rcases List.mem_cons.mp hd' with rfl | hd'
        · exact i1 _ _ (a3 f hf hk h hh hc)
        · exact i3 d' hd' f hf hk h hh hc
      · intro d' hd' f hf hk
        rcases List.mem_cons.mp hd' with rfl | hd'
        · obtain ⟨b1, b2⟩ := a4 f hf hk
          refine ⟨fun g hg => i1 _ _ (b1 g hg), fun m hm => ?_⟩
          obtain ⟨x, e1, e2⟩ := b2 m hm
          exact ⟨x, e1, i1 _ _ e2⟩
        · exact i4 d' hd' f hf hk

theorem attachDates_nodup (env : PlanEnv) (group : Option String) (ms : List DimMap) (qd qd' : List (String × List PField))
    (h : attachDates env group ms qd = .ok qd') (hn : (qd.map (·.1)).Nodup) : (qd'.map (·.1)).Nodup := by
  induction ms generalizing qd with
  | nil => simp only [attachDates, Except.ok.injEq] at h; subst h; exact hn
  | cons m ms ih =>
    simp only [attachDates] at h
    cases hf : env.getField (m.field ++ "_" ++ group.getD "None") with
    | error e => rw [hf] at h; cases h
    | ok f => rw [hf] at h; exact ih _ h (dictAppend_nodup _ hn _ _)

theorem attachMapped_nodup (env : PlanEnv) (keys : List String) (k : String) (ms : List DimMap) (qd qd' : List (String × List PField))
    (h : attachMapped env keys k ms qd = .ok qd') (hn : (qd.map (·.1)).Nodup) : (qd'.map (·.1)).Nodup := by
  induction ms generalizing qd with
  | nil => simp only [attachMapped, Except.ok.injEq] at h; subst h; exact hn
  | cons m ms ih =>
    simp only [attachMapped] at h
    cases hf : env.getField m.field with
    | error e => rw [hf] at h; cases h
    | ok f =>
      rw [hf] at h
      simp only at h
      by_cases hc : m.fromHash ∈ keys ∧ m.fromHash = k
      · rw [if_pos hc] at h; exact ih _ h (dictAppend_nodup _ hn _ _)
      · rw [if_neg hc] at h
        cases hcn : f.canon with
        | none => rw [hcn] at h; cases h
        | some c =>
          rw [hcn] at h
          cases ht : m.toHash with
          | none => rw [ht] at h; cases h
          | some t =>
            rw [ht] at h
            simp only at h
            split at h
            · simp only [Except.ok.injEq] at h; subst h; exact dictAppend_nodup _ hn _ _
            · exact ih _ h hn

theorem attachUsed_nodup (env : PlanEnv) (keys : List String) (dm : List (String × List DimMap)) (f : PField) (hs : List String) (b b' : Bool)
    (qd qd' : List (String × List PField)) (h : attachUsed env keys dm f hs b qd = .ok (b', qd')) (hn : (qd.map (·.1)).Nodup) :
    (qd'.map (·.1)).Nodup := by
  induction hs generalizing b qd with
  | nil => simp only [attachUsed, Except.ok.injEq, Prod.mk.injEq] at h; obtain ⟨_, rfl⟩ := h; exact hn
  | cons k hs ih =>
    simp only [attachUsed] at h
    split at h
    · exact ih _ _ h (dictAppend_nodup _ hn _ _)
    · cases hd : dictGet dm f.key with
      | none => rw [hd] at h; cases h
      | some ms =>
        rw [hd] at h
        simp only at h
        cases hm : attachMapped env keys k ms qd with
        | error e => rw [hm] at h; cases h
        | ok q1 => rw [hm] at h; exact ih _ _ h (attachMapped_nodup env keys k ms qd q1 hm hn)

theorem attachOwn_nodup (env : PlanEnv) (ms : List DimMap) (qd qd' : List (String × List PField)) (h : attachOwn env ms qd = .ok qd')
    (hn : (qd.map (·.1)).Nodup) : (qd'.map (·.1)).Nodup := by
  induction ms generalizing qd with
  | nil => simp only [attachOwn, Except.ok.injEq] at h; subst h; exact hn
  | cons m ms ih =>
    simp only [attachOwn] at h
    cases hf : env.getField m.field with
    | error e => rw [hf] at h; cases h
    | ok f =>
      rw [hf] at h
      simp only at h
      cases hc : f.canon with
      | none => rw [hc] at h; cases h
      | some c =>
        rw [hc] at h
        simp only at h
        cases ht : m.toHash with
        | none => rw [ht] at h; cases h
        | some t => rw [ht] at h; exact ih _ h (dictAppend_nodup _ hn _ _)

theorem attachDimensions_nodup (env : PlanEnv) (dm : List (String × List DimMap)) (dates used : List String) (ds : List String)
    (acc acc' : List (String × List PField) × List (String × List PField)) (hok : attachDimensions env dm dates used ds acc = .ok acc')
    (hn : (acc.2.map (·.1)).Nodup) : (acc'.2.map (·.1)).Nodup := by
  induction ds generalizing acc with
  | nil => simp only [attachDimensions, Except.ok.injEq] at hok; subst hok; exact hn
  | cons d ds ih =>
    simp only [attachDimensions] at hok
    cases h1 : attachDimension env dm dates used d acc with
    | error e => rw [h1] at hok; cases hok
    | ok acc1 =>
      rw [h1] at hok
      refine ih acc1 hok ?_
      unfold attachDimension at h1
      cases hf : env.getField d with
      | error e => rw [hf] at h1; cases h1
      | ok f =>
        rw [hf] at h1
        simp only at h1
        cases hg : joinHashKey env f with
        | error e => rw [hg] at h1; cases h1
        | ok g =>
          rw [hg] at h1
          simp only at h1
          by_cases hk : f.key ∈ dates
          · rw [if_pos hk] at h1
            cases ha : attachDates env f.group ((dictGet dm f.key).getD []) (dictAppend acc.2 (cteName f.key g) f) with
            | error e => rw [ha] at h1; cases h1
            | ok qd =>
              rw [ha] at h1
              simp only [Except.ok.injEq] at h1
              subst h1
              exact attachDates_nodup env _ _ _ _ ha (dictAppend_nodup _ hn _ _)
          · rw [if_neg hk] at h1
            cases ha : attachUsed env (acc.1.map (·.1)) dm f used true acc.2 with
            | error e => rw [ha] at h1; cases h1
            | ok p =>
              obtain ⟨b, qd⟩ := p
              rw [ha] at h1
              have hq := attachUsed_nodup env _ dm f used true b acc.2 qd ha hn
              cases b with
              | false =>
                simp only [Except.ok.injEq] at h1
                subst h1
                exact hq
              | true =>
                simp only at h1
                cases hc : f.canon with
                | none => rw [hc] at h1; cases h1
                | some c =>
                  rw [hc] at h1
                  simp only at h1
                  cases ho : attachOwn env ((dictGet dm f.key).getD []) (dictAppend qd (cteName c g) f) with
                  | error e => rw [ho] at h1; cases h1
                  | ok qd2 =>
                    rw [ho] at h1
                    simp only [Except.ok.injEq] at h1
                    subst h1
                    exact attachOwn_nodup env _ _ _ ho (dictAppend_nodup _ hq _ _)

/-! ### The whole plan -/

/-- The steps of `derivePlan`. -/
structure PlanSteps (env : PlanEnv) (metrics having dimensions : List String) (wheres : List MWhere) (plan : Plan)
    (mg sec : List PField) (q : List (String × List PField)) (dimFields : List PField) (dm0 dm : List (String × List DimMap)) (hashes used : List String) : Prop where
  placed : placeMetrics env metrics having = .ok (mg, sec, q)
  fields : getFields env dimensions = .ok dimFields
  dates : dateMap env (canonDates env mg sec dimFields q) (canonDates env mg sec dimFields q) ([], []) = .ok (dm0, hashes)
  used_mem : ∀ h, h ∈ used ↔ h ∈ hashes
  used_nodup : used.Nodup
  mapped : ∃ lookup, dm = (addMappings used env.mappings dm0).1 ∧ lookup = (addMappings used env.mappings dm0).2 ∧ plan.lookup = lookup
  attached : ∃ qd, attachDimensions env dm (canonDates env mg sec dimFields q) used dimensions (q, []) = .ok (plan.metrics, qd) ∧ plan.dims = dedupDict qd
  wheres : allWheres env plan.metrics dm wheres ((plan.metrics.map (·.1) ++ plan.dims.map (·.1)).reverse.dedup.reverse) = .ok plan.where_

theorem derivePlan_steps (env : PlanEnv) (metrics having dimensions : List String) (wheres : List MWhere) (plan : Plan)
    (h : derivePlan env metrics having dimensions wheres = .ok plan) :
    ∃ mg sec q dimFields dm0 dm hashes used, PlanSteps env metrics having dimensions wheres plan mg sec q dimFields dm0 dm hashes used := by
  unfold derivePlan at h
  cases h1 : placeMetrics env metrics having with
  | error e => rw [h1] at h; cases h
  | ok p =>
    obtain ⟨mg, sec, q⟩ := p
    rw [h1] at h
    simp only at h
    cases h2 : getFields env dimensions with
    | error e => rw [h2] at h; cases h
    | ok dimFields =>
      rw [h2] at h
      simp only at h
      cases h3 : canonDateMapping env mg sec dimFields q with
      | error e => rw [h3] at h; cases h
      | ok p =>
        obtain ⟨dm0, dates, used⟩ := p
        rw [h3] at h
        simp only at h
        unfold canonDateMapping at h3
        simp only at h3
        cases h4 : dateMap env (canonDates env mg sec dimFields q) (canonDates env mg sec dimFields q) ([], []) with
        | error e => rw [h4] at h3; cases h3
        | ok p =>
          obtain ⟨m, hashes⟩ := p
          rw [h4] at h3
          simp only [Except.ok.injEq, Prod.mk.injEq] at h3
          obtain ⟨rfl, rfl, rfl⟩ := h3
          generalize hu : hashes.dedup.insertionSort (fun a b => hashSortKey q a ≤ hashSortKey q b) = used at h
          cases h5 : attachDimensions env (addMappings used env.mappings m).1 (canonDates env mg sec dimFields q) used dimensions (q, []) with
          | error e => rw [h5] at h; cases h
          | ok p =>
            obtain ⟨qm, qd⟩ := p
            rw [h5] at h
            simp only at h
            cases h6 : allWheres env qm (addMappings used env.mappings m).1 wheres ((qm.map (·.1) ++ (dedupDict qd).map (·.1)).reverse.dedup.reverse) with
            | error e => rw [h6] at h; cases h
            | ok w =>
              rw [h6] at h
              simp only [Except.ok.injEq] at h
              subst h
              refine ⟨mg, sec, q, dimFields, m, _, hashes, used, h1, h2, h4, ?_, ?_, ⟨_, rfl, rfl, rfl⟩, ⟨qd, h5, rfl⟩, h6⟩
              · intro x; rw [← hu, List.mem_insertionSort, List.mem_dedup]
              · rw [← hu]
                exact ((List.perm_insertionSort _ _).nodup_iff).mpr (List.nodup_dedup _)

variable {env : PlanEnv} {metrics having dimensions : List String} {wheres : List MWhere} {plan : Plan} {mg sec : List PField}
  {q : List (String × List PField)} {dimFields : List PField} {dm0 dm : List (String × List DimMap)} {hashes used : List String}

theorem PlanSteps.canon (st : PlanSteps env metrics having dimensions wheres plan mg sec q dimFields dm0 dm hashes used)
    (hp : PlainQuery env metrics having dimensions) (c : String) (hc : MetricDate env metrics having c) :
    c ∈ canonDates env mg sec dimFields q := by
  obtain ⟨f, hf, hc⟩ := hc
  obtain ⟨a1, _, a3, _⟩ := placeMetrics_spec env metrics having mg sec q st.placed (fun f g n m _ _ hn hm e => hp.names n m f g hn hm e)
  obtain ⟨k, hk, l, hl, g, hg, e⟩ := a3 f hf
  have := hp.ids g f (a1.place k l hl g hg).2 hf e
  subst this
  obtain ⟨m1, m2, _⟩ := hp.measure g hf
  exact mem_canonDates env mg sec dimFields q k l hl g hg c m1 hc (fun h => m2 (by rw [hc, h]))

theorem PlanSteps.dates_only (st : PlanSteps env metrics having dimensions wheres plan mg sec q dimFields dm0 dm hashes used)
    (hid : ∀ n m f g, env.getField n = .ok f → env.getField m = .ok g → f.id = g.id → f = g)
    (c : String) (hc : c ∈ canonDates env mg sec dimFields q) : QueryDate env metrics having dimensions c := by
  obtain ⟨a1, _, a3, a4, _⟩ := placeMetrics_spec env metrics having mg sec q st.placed (fun f g n m _ _ hn hm e => hid n m f g hn hm e)
  rcases canonDates_only env mg sec dimFields q c hc with ⟨m, hm, f, hf, e⟩ | ⟨k, l, hl, f, hf, e⟩ | ⟨f, hf, e⟩
  · obtain ⟨n, hn, e1, e2⟩ := a4 m hm
    exact .inl ⟨f, ⟨n, hn, m, e1, .inr ⟨e2, hf⟩⟩, e⟩
  · exact .inl ⟨f, (a1.place k l hl f hf).2, e⟩
  · obtain ⟨d, hd, e'⟩ := (getFields_mem env dimensions dimFields st.fields f).mp hf
    exact .inr ⟨d, hd, f, e', e⟩

theorem Spec.PlainQuery.hash_date (hp : PlainQuery env metrics having dimensions) {f : PField} (hf : Needed env metrics having f) {c g : String}
    (hc : f.canon = some c) (hg : joinHashKey env f = .ok g) : ∃ b, env.getFieldByName c = .ok b ∧ joinHashKey env b = .ok g := by
  obtain ⟨m1, _, m3⟩ := hp.measure f hf
  unfold joinHashKey at hg
  rw [m1, hc] at hg
  simp only at hg
  cases hb : env.getFieldByName c with
  | error e => rw [hb] at hg; cases hg
  | ok b =>
    rw [hb] at hg
    refine ⟨b, rfl, ?_⟩
    rw [joinHashKey_dim env b (m3 c b hc hb)]
    exact hg

theorem PlanSteps.needed_used (st : PlanSteps env metrics having dimensions wheres plan mg sec q dimFields dm0 dm hashes used)
    (hp : PlainQuery env metrics having dimensions) (two : TwoDates env metrics having) (f : PField) (hf : Needed env metrics having f) (k : String)
    (hk : BelongsTo env f k) : k ∈ used := by
  obtain ⟨c, g, hc, hg, rfl⟩ := hk
  have hother : ∃ c', MetricDate env metrics having c' ∧ c ≠ c' := by
    obtain ⟨_, _, a3, _⟩ := placeMetrics_spec env metrics having mg sec q st.placed (fun f g n m _ _ hn hm e => hp.names n m f g hn hm e)
    obtain ⟨x, y, hx, hy, hne⟩ := two
    obtain ⟨_, ⟨cx, _, ex, _⟩, _⟩ := a3 x hx
    obtain ⟨_, ⟨cy, _, ey, _⟩, _⟩ := a3 y hy
    by_cases h : c = cx
    · refine ⟨cy, ⟨y, hy, ey⟩, ?_⟩
      rintro rfl
      exact hne (by rw [ex, ey, h])
    · exact ⟨cx, ⟨x, hx, ex⟩, h⟩
  obtain ⟨c', hc', hne⟩ := hother
  obtain ⟨_, _, d3, _⟩ := dateMap_spec env _ _ _ _ st.dates
  obtain ⟨m, ⟨_, b, g', hb, hg', rfl⟩, hm, _⟩ := d3 c' (st.canon hp c' hc') c (st.canon hp c ⟨f, hf, hc⟩) hne
  obtain ⟨b', hb', hg''⟩ := hp.hash_date hf hc hg
  rw [hb] at hb'
  injection hb' with hb'
  subst hb'
  rw [hg'] at hg''
  injection hg'' with hg''
  subst hg''
  exact (st.used_mem _).mpr hm

/-- Each entry of the dictionary of mappings. -/
theorem PlanSteps.entry (st : PlanSteps env metrics having dimensions wheres plan mg sec q dimFields dm0 dm hashes used)
    (hid : ∀ n m f g, env.getField n = .ok f → env.getField m = .ok g → f.id = g.id → f = g)
    (key : String) (x : DimMap) (hx : x ∈ (dictGet dm key).getD []) :
    (QueryDate env metrics having dimensions key ∧ QueryDate env metrics having dimensions x.field ∧ DateEntry env key x.field x) ∨
    (∃ d ∈ env.mappings, d.key = key ∧ ∃ m ∈ d.refs, x.field = m.field ∧ x.toHash = some m.toHash ∧
      (x.fromHash = d.fromHash ∨ hashContains x.fromHash [m.toHash] = true)) := by
  obtain ⟨_, e, _⟩ := st.mapped
  subst e
  unfold addMappings at hx
  rcases (addMappings_spec used env.mappings (dm0, dm0.map (fun p => (p.1, p.2.map (fun x => (x.field, x.fromHash)))))).2.2 key x hx with h | h
  · left
    rcases (dateMap_spec env _ _ _ _ st.dates).2.2.2 key x h with h | ⟨hk, fr, hfr, hent⟩
    · cases h
    · have : x.field = fr := by obtain ⟨_, b, g, _, _, rfl⟩ := hent; rfl
      rw [this]
      exact ⟨st.dates_only hid _ hk, st.dates_only hid _ hfr, hent⟩
  · exact .inr h

/-- The same for the names `BuiltFrom` describes. -/
theorem builtFrom_iff {h : String} {date : String} (hd : PlainDate date) {ns : List ℕ} (e : h = cteName date (underscoreJoin (ns.map graphName)))
    (gs : List String) (hc : hashContains h gs = true) : ∃ g ∈ gs, BuiltFrom h g := by
  subst e
  obtain ⟨n, hn, hg⟩ := (hashContains_iff date hd ns gs).mp hc
  exact ⟨_, hg, date, ns, n, hd, rfl, hn, rfl⟩

theorem ownName_eq (f : PField) (g : String) (v1 : '.' ∉ f.view.toList) (v2 : '.' ∉ f.name.toList) :
    f.view ++ "_" ++ f.name ++ "__" ++ g = cteName f.key g := by
  have hund : ∀ s : String, '.' ∉ s.toList → s.toList.map (fun c => if c = '.' then '_' else c) = s.toList := by
    intro s hs
    conv_rhs => rw [← List.map_id s.toList]
    apply List.map_congr_left
    intro c hc
    rw [if_neg (by rintro rfl; exact hs hc)]; rfl
  unfold cteName dotsToUnderscores PField.key
  rw [← String.toList_inj]
  simp only [String.toList_append, String.toList_ofList, List.map_append]
  rw [hund _ v1, hund _ v2]
  rfl

theorem leaf_spec (env : PlanEnv) (qm : List (String × List PField)) (dm : List (String × List DimMap)) (h field rest : String) (w : MWhere)
    (hok : resolveWhereLeaf env qm dm h field rest = .ok w) : ∃ f, env.getField field = .ok f ∧ ∃ g, joinHashKey env f = .ok g ∧
      ((Fits env (qm.flatMap (·.2)) h f → w = .cond field rest) ∧
      (w = .cond field rest ∨ ∃ m ∈ (dictGet dm f.key).getD [], m.fromHash = h ∧ ∃ x, IsVersion env f m.field x ∧ w = .cond x.id rest) ∧
      ((((∀ m ∈ qm.flatMap (·.2), m.canon ≠ some f.key) ∧ g ∈ joinableSubqueries h) ∨
        ((∃ m ∈ qm.flatMap (·.2), m.canon = some f.key) ∧ (f.view ++ "_" ++ f.name ++ "__" ++ g).toList <:+: h.toList)) ∨
        ((∀ m ∈ (dictGet dm f.key).getD [], m.fromHash ≠ h) ∨
          ∃ m ∈ (dictGet dm f.key).getD [], m.fromHash = h ∧ ∃ x, IsVersion env f m.field x ∧ w = .cond x.id rest))) := by
  unfold resolveWhereLeaf at hok
  cases hf : env.getField field with
  | error e => rw [hf] at hok; cases hok
  | ok f =>
    rw [hf] at hok
    simp only at hok
    cases hg : joinHashKey env f with
    | error e => rw [hg] at hok; cases hok
    | ok g =>
      rw [hg] at hok
      simp only at hok
      refine ⟨f, rfl, g, hg, ?_⟩
      generalize hcd : (qm.flatMap (·.2)).any (fun m => decide (m.canon = some f.key)) = cd at hok
      by_cases hc : ((!cd && decide (g ∈ joinableSubqueries h)) || (cd && containsSub (f.view ++ "_" ++ f.name ++ "__" ++ g).toList h.toList)) = true
      · rw [if_pos hc] at hok
        simp only [Except.ok.injEq] at hok
        refine ⟨fun _ => hok.symm, .inl hok.symm, .inl ?_⟩
        cases cd with
        | false =>
          left
          constructor
          · intro m hm e
            rw [List.any_eq_false] at hcd
            exact hcd m hm (by simpa using e)
          · simpa using hc
        | true =>
          right
          obtain ⟨m, hm, e⟩ := List.any_eq_true.mp hcd
          refine ⟨⟨m, hm, by simpa using e⟩, ?_⟩
          rw [← containsSub_iff]
          simpa using hc
      · rw [if_neg hc] at hok
        have hm := mapWhere_spec env f h field rest _ w hok
        refine ⟨?_, ?_, .inr ?_⟩
        · intro hfit
          exfalso
          apply hc
          rcases hfit with ⟨hno, date, ns, n, hd, rfl, hn, hgn⟩ | ⟨⟨m, hmem, e⟩, v1, v2, g', hg', rfl⟩
          · have : cd = false := by
              rw [← hcd, List.any_eq_false]
              intro m hm
              simpa using hno m hm
            rw [this]
            simp only [Bool.not_false, Bool.true_and, Bool.false_and, Bool.or_false, decide_eq_true_eq]
            rw [hg] at hgn
            injection hgn with hgn
            rw [hgn, joinable_eq date hd ns]
            exact List.mem_map.mpr ⟨n, hn, rfl⟩
          · have : cd = true := by
              rw [← hcd]
              exact List.any_eq_true.mpr ⟨m, hmem, decide_eq_true e⟩
            rw [this]
            simp only [Bool.not_true, Bool.false_and, Bool.true_and, Bool.false_or]
            have hgg := Except.ok.inj (hg.symm.trans hg')
            subst hgg
            rw [ownName_eq f g v1 v2, containsSub_iff]
        · rcases hm with ⟨e, _⟩ | hm
          · exact .inl e
          · exact .inr hm
        · rcases hm with ⟨_, hn⟩ | hm
          · exact .inl hn
          · exact .inr hm

end ML
