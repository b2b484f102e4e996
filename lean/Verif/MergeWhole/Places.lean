import Verif.MergeWhole.Spec
import Verif.MergePlan.Lemmas2
/-
Which dimensions the sub-queries of a merged query compute, place by place (for C78).
-/
set_option autoImplicit false
namespace ML
open Spec

theorem attachDates_appends (env : PlanEnv) (group : Option String) (ms : List DimMap) (qd qd' : List (String × List PField))
    (h : attachDates env group ms qd = .ok qd') (k : String) :
    ∃ new, (dictGet qd' k).getD [] = (dictGet qd k).getD [] ++ new ∧
      (∀ x ∈ new, ∃ m ∈ ms, m.fromHash = k ∧ env.getField (m.field ++ "_" ++ group.getD "None") = .ok x) ∧
      (∀ m ∈ ms, m.fromHash = k → new ≠ []) := by
  induction ms generalizing qd with
  | nil =>
    simp only [attachDates, Except.ok.injEq] at h; subst h
    exact ⟨[], by simp, by simp, by simp⟩
  | cons m ms ih =>
    simp only [attachDates] at h
    cases hf : env.getField (m.field ++ "_" ++ group.getD "None") with
    | error e => rw [hf] at h; cases h
    | ok f =>
      rw [hf] at h
      simp only at h
      obtain ⟨new, i1, i2, i3⟩ := ih _ h
      rw [dictGet_append] at i1
      by_cases e : m.fromHash = k
      · rw [if_pos e] at i1
        refine ⟨f :: new, ?_, ?_, by simp⟩
        · rw [i1, ← e]; simp
        · intro x hx
          rcases List.mem_cons.mp hx with rfl | hx
          · exact ⟨m, by simp, e, hf⟩
          · obtain ⟨m', hm', r⟩ := i2 x hx; exact ⟨m', by simp [hm'], r⟩
      · rw [if_neg e] at i1
        refine ⟨new, i1, ?_, ?_⟩
        · intro x hx; obtain ⟨m', hm', r⟩ := i2 x hx; exact ⟨m', by simp [hm'], r⟩
        · intro m' hm' e'
          rcases List.mem_cons.mp hm' with rfl | hm'
          · exact absurd e' e
          · exact i3 m' hm' e'

theorem length_append {V : Type} (d : List (String × List V)) (k k' : String) (v : V) :
    ((dictGet d k').getD []).length ≤ ((dictGet (dictAppend d k v) k').getD []).length := by
  rw [dictGet_append]
  split
  · next e => subst e; simp
  · rfl

theorem attachMapped_grows (env : PlanEnv) (keys : List String) (h : String) (ms : List DimMap) (qd qd' : List (String × List PField))
    (hok : attachMapped env keys h ms qd = .ok qd') :
    ((dictGet qd h).getD []).length ≤ ((dictGet qd' h).getD []).length ∧
    ((∃ m ∈ ms, ∃ t, m.toHash = some t ∧ t.toList <:+: h.toList) → ((dictGet qd h).getD []).length < ((dictGet qd' h).getD []).length) := by
  induction ms generalizing qd with
  | nil => simp only [attachMapped, Except.ok.injEq] at hok; subst hok; simp
  | cons m ms ih =>
    simp only [attachMapped] at hok
    cases hf : env.getField m.field with
    | error e => rw [hf] at hok; cases hok
    | ok f =>
      rw [hf] at hok
      simp only at hok
      have hlt : ∀ k, k = h → ((dictGet qd h).getD []).length < ((dictGet (dictAppend qd k f) h).getD []).length := by
        rintro k rfl
        rw [dictGet_append, if_pos rfl]; simp
      split at hok
      · next hc =>
        have := (ih _ hok).1
        have h2 := hlt _ hc.2
        exact ⟨by omega, fun _ => by omega⟩
      · cases hcn : f.canon with
        | none => rw [hcn] at hok; cases hok
        | some c =>
          rw [hcn] at hok
          simp only at hok
          cases ht : m.toHash with
          | none => rw [ht] at hok; cases hok
          | some t =>
            rw [ht] at hok
            simp only at hok
            split at hok
            · simp only [Except.ok.injEq] at hok; subst hok
              have := hlt h rfl
              exact ⟨by omega, fun _ => this⟩
            · next hns =>
              obtain ⟨i1, i2⟩ := ih _ hok
              refine ⟨i1, fun ⟨m', hm', t', e1, e2⟩ => ?_⟩
              rcases List.mem_cons.mp hm' with rfl | hm'
              · rw [ht] at e1; injection e1 with e1; subst e1
                exact absurd ((containsSub_iff _ _).mpr e2) hns
              · exact i2 ⟨m', hm', t', e1, e2⟩

theorem attachUsed_grows (env : PlanEnv) (keys : List String) (dm : List (String × List DimMap)) (f : PField) (hs : List String)
    (hn : hs.Nodup) (b b' : Bool) (qd qd' : List (String × List PField)) (hok : attachUsed env keys dm f hs b qd = .ok (b', qd'))
    (h : String) (hh : h ∈ hs) (hc : hashContains h f.graphs = false)
    (hm : ∃ m ∈ (dictGet dm f.key).getD [], ∃ t, m.toHash = some t ∧ t.toList <:+: h.toList) :
    ((dictGet qd h).getD []).length < ((dictGet qd' h).getD []).length := by
  induction hs generalizing b qd with
  | nil => cases hh
  | cons h' hs ih =>
    obtain ⟨hh', hn'⟩ := List.nodup_cons.mp hn
    simp only [attachUsed] at hok
    by_cases hc' : hashContains h' f.graphs = true
    · rw [if_pos hc'] at hok
      rcases List.mem_cons.mp hh with rfl | hm'
      · rw [hc] at hc'; cases hc'
      · have := ih hn' false _ hok hm'
        have := length_append qd h' h f
        omega
    · rw [if_neg hc'] at hok
      cases hd : dictGet dm f.key with
      | none => rw [hd] at hok; cases hok
      | some ms =>
        rw [hd] at hok hm
        simp only [Option.getD_some] at hok hm
        cases ha : attachMapped env keys h' ms qd with
        | error e => rw [ha] at hok; cases hok
        | ok qd1 =>
          rw [ha] at hok
          simp only at hok
          rcases List.mem_cons.mp hh with rfl | hm'
          · have := (attachUsed_spec env keys dm f hs hn' b b' qd1 qd' hok).2.1 h hh'
            rw [this]
            exact (attachMapped_grows env keys h ms qd qd1 ha).2 hm
          · have h1 := (attachMapped_spec env keys h' ms qd qd1 ha).1 h (by rintro rfl; exact hh' hm')
            have := ih hn' b qd1 hok hm'
            rw [h1] at this
            exact this

/-- No list of the dictionary is empty. (for the proofs; it models no file in /repo) -/
def Filled (qd : List (String × List PField)) : Prop := ∀ k, dictGet qd k ≠ some []

theorem Filled.append {qd : List (String × List PField)} (h : Filled qd) (k : String) (f : PField) : Filled (dictAppend qd k f) := by
  intro k'
  unfold dictAppend
  rw [dictGet_set]
  split
  · simp
  · exact h k'

theorem attachDates_filled (env : PlanEnv) (group : Option String) (ms : List DimMap) (qd qd' : List (String × List PField))
    (h : attachDates env group ms qd = .ok qd') (hq : Filled qd) : Filled qd' := by
  induction ms generalizing qd with
  | nil => simp only [attachDates, Except.ok.injEq] at h; subst h; exact hq
  | cons m ms ih =>
    simp only [attachDates] at h
    split at h
    · cases h
    · exact ih _ h (hq.append _ _)

theorem attachMapped_filled (env : PlanEnv) (keys : List String) (k : String) (ms : List DimMap) (qd qd' : List (String × List PField))
    (h : attachMapped env keys k ms qd = .ok qd') (hq : Filled qd) : Filled qd' := by
  induction ms generalizing qd with
  | nil => simp only [attachMapped, Except.ok.injEq] at h; subst h; exact hq
  | cons m ms ih =>
    simp only [attachMapped] at h
    split at h
    · cases h
    · split at h
      · exact ih _ h (hq.append _ _)
      · split at h
        · cases h
        · split at h
          · cases h
          · split at h
            · simp only [Except.ok.injEq] at h; subst h; exact hq.append _ _
            · exact ih _ h hq

theorem attachUsed_filled (env : PlanEnv) (keys : List String) (dm : List (String × List DimMap)) (f : PField) (hs : List String) (b b' : Bool)
    (qd qd' : List (String × List PField)) (h : attachUsed env keys dm f hs b qd = .ok (b', qd')) (hq : Filled qd) : Filled qd' := by
  induction hs generalizing b qd with
  | nil => simp only [attachUsed, Except.ok.injEq, Prod.mk.injEq] at h; obtain ⟨_, rfl⟩ := h; exact hq
  | cons k hs ih =>
    simp only [attachUsed] at h
    split at h
    · exact ih _ _ h (hq.append _ _)
    · split at h
      · cases h
      · split at h
        · cases h
        · next ha => exact ih _ _ h (attachMapped_filled env keys k _ _ _ ha hq)

theorem graph_infix (date : String) (ns : List ℕ) (n : ℕ) (hn : n ∈ ns) :
    (graphName n).toList <:+: (cteName date (underscoreJoin (ns.map graphName))).toList := by
  have key : (graphName n).toList <:+: (underscoreJoin (ns.map graphName)).toList := by
    clear date
    induction ns with
    | nil => cases hn
    | cons a l ih =>
      cases l with
      | nil =>
        rcases List.mem_cons.mp hn with rfl | h
        · exact List.infix_refl _
        · cases h
      | cons b l =>
        have e : (underscoreJoin ((a :: b :: l).map graphName)).toList =
            (graphName a).toList ++ ("_".toList ++ (underscoreJoin ((b :: l).map graphName)).toList) := by
          simp only [List.map_cons, underscoreJoin, String.toList_append, List.append_assoc]
        rw [e]
        rcases List.mem_cons.mp hn with rfl | h
        · exact ⟨[], _, rfl⟩
        · obtain ⟨x, y, e'⟩ := ih h
          exact ⟨(graphName a).toList ++ ("_".toList ++ x), y, by rw [← e']; simp only [List.append_assoc]⟩
  obtain ⟨x, y, e⟩ := key
  refine ⟨(dotsToUnderscores date).toList ++ "__".toList ++ x, y, ?_⟩
  rw [cteName_toList, ← e]
  simp only [List.append_assoc]

/-- Names of sub-queries as the plan makes them. (for the proofs; it models no file in /repo) -/
def NiceName (h : String) : Prop :=
  ∃ c, PlainDate c ∧ ∃ ns : List ℕ, h = cteName c (underscoreJoin (ns.map graphName)) ∧ ∀ n ∈ ns, n < 10

theorem builtFrom_contains {h : String} (g : String) : BuiltFrom h g → hashContains h [g] = true := by
  rintro ⟨c, ns, n, hc, rfl, hn, rfl⟩
  exact (hashContains_iff c hc ns _).mpr ⟨n, hn, by simp⟩

theorem NiceName.built {h : String} (hn : NiceName h) (g : String) : BuiltFrom h g ↔ hashContains h [g] = true := by
  refine ⟨builtFrom_contains g, ?_⟩
  obtain ⟨c, hc, ns, rfl, _⟩ := hn
  intro hh
  obtain ⟨n, hn, e⟩ := (hashContains_iff c hc ns _).mp hh
  exact ⟨c, ns, n, hc, rfl, hn, (List.mem_singleton.mp e).symm⟩

theorem NiceName.joins {h : String} (hn : NiceName h) (f : PField) : JoinsIn h f ↔ hashContains h f.graphs = true := by
  obtain ⟨c, hc, ns, rfl, _⟩ := hn
  rw [hashContains_iff c hc ns]
  constructor
  · rintro ⟨g, hg, hb⟩
    obtain ⟨n, hn, e⟩ := (hashContains_iff c hc ns _).mp (builtFrom_contains g hb)
    rw [List.mem_singleton] at e
    exact ⟨n, hn, by rw [e]; exact hg⟩
  · rintro ⟨n, hn, e⟩
    exact ⟨_, e, c, ns, n, hc, rfl, hn, rfl⟩

theorem NiceName.infix_iff {h : String} (hn : NiceName h) (n : ℕ) (h10 : n < 10) : (graphName n).toList <:+: h.toList ↔ BuiltFrom h (graphName n) := by
  obtain ⟨c, hc, ns, rfl, h1⟩ := hn
  constructor
  · intro hi
    exact ⟨c, ns, n, hc, rfl, infix_graph c hc ns h1 n h10 hi, rfl⟩
  · intro hb
    obtain ⟨m, hm, e⟩ := (hashContains_iff c hc ns _).mp (builtFrom_contains _ hb)
    rw [List.mem_singleton] at e
    rw [← e]
    exact graph_infix c ns m hm

end ML
