import Mathlib.Data.List.TakeWhile
import Verif.Mapped.Spec
import Verif.MergePlan.Texts
/-
Helper lemmas for C41.
-/
set_option autoImplicit false
namespace ML
open Spec

/-! ### Names of clauses -/

mutual
theorem inCond_cond {n : String} {f : Option String} {g : Bool} {r : String} :
    InCond n (.cond f g r) ↔ f = some n := by
  constructor
  · intro h; cases h; rfl
  · rintro rfl; exact .here g r
end

theorem inCond_group {n : String} {f : Option String} {cs : List MCond} {r : String} :
    InCond n (.group f cs r) ↔ InConds n cs := by
  constructor
  · intro h; cases h; assumption
  · exact .deep f cs r

theorem inConds_nil {n : String} : ¬ InConds n [] := by intro h; cases h

theorem inConds_cons {n : String} {c : MCond} {cs : List MCond} :
    InConds n (c :: cs) ↔ InCond n c ∨ InConds n cs := by
  constructor
  · intro h
    cases h with
    | head _ _ h => exact .inl h
    | tail _ _ h => exact .inr h
  · rintro (h | h)
    · exact .head c cs h
    · exact .tail c cs h

mutual
theorem leaves_plain : ∀ (c : MCond), PlainCond c → (∀ l ∈ c.leaves, l.2 = false ∧ l.1.isSome = true) ∧
    ∀ n, InCond n c ↔ (some n, false) ∈ c.leaves
  | .cond f g r, h => by
    obtain ⟨h1, h2⟩ := h
    subst h2
    refine ⟨by simp [MCond.leaves, h1], ?_⟩
    intro n
    rw [inCond_cond]
    simp only [MCond.leaves, List.mem_singleton, Prod.mk.injEq, and_true]
    exact eq_comm
  | .group f cs r, h => by
    obtain ⟨h1, h2⟩ := leavesList_plain cs h.2
    refine ⟨by simpa only [MCond.leaves] using h1, ?_⟩
    intro n
    rw [inCond_group, h2]
    simp only [MCond.leaves]
theorem leavesList_plain : ∀ (cs : List MCond), PlainConds cs →
    (∀ l ∈ MCond.leaves.leavesList cs, l.2 = false ∧ l.1.isSome = true) ∧
    ∀ n, InConds n cs ↔ (some n, false) ∈ MCond.leaves.leavesList cs
  | [], _ => ⟨by simp [MCond.leaves.leavesList], by
      intro n
      simp only [MCond.leaves.leavesList, List.not_mem_nil, iff_false]
      exact inConds_nil⟩
  | c :: cs, h => by
    obtain ⟨h1, h2⟩ := leaves_plain c h.1
    obtain ⟨h3, h4⟩ := leavesList_plain cs h.2
    refine ⟨?_, ?_⟩
    · intro l hl
      simp only [MCond.leaves.leavesList, List.mem_append] at hl
      exact hl.elim (h1 l) (h3 l)
    · intro n
      rw [inConds_cons, h2, h4]
      simp only [MCond.leaves.leavesList, List.mem_append]
end

theorem fieldNames_plain : ∀ {ls : List (Option String × Bool)},
    (∀ l ∈ ls, l.2 = false ∧ l.1.isSome = true) →
    ∃ fs, fieldNames ls = .ok fs ∧ ∀ n, n ∈ fs ↔ (some n, false) ∈ ls
  | [], _ => ⟨[], rfl, by simp⟩
  | (f, g) :: ls, h => by
    obtain ⟨h1, h2⟩ := h (f, g) (by simp)
    simp only at h1 h2
    subst h1
    obtain ⟨x, rfl⟩ := Option.isSome_iff_exists.mp h2
    obtain ⟨fs, h3, h4⟩ := fieldNames_plain (fun l hl => h l (List.mem_cons_of_mem _ hl)) (ls := ls)
    refine ⟨x :: fs, by simp only [fieldNames, h3], ?_⟩
    intro n
    simp [h4]

theorem clauseNames_plain (idents : String → List String) {c : MClause} (h : PlainClause c) :
    ∃ fs, c.names idents = .ok fs ∧ ∀ n, n ∈ fs ↔ InClause n c := by
  cases c with
  | text s => exact absurd h id
  | none => exact ⟨[], rfl, by simp [InClause]⟩
  | list cs =>
    obtain ⟨h1, h2⟩ := leavesList_plain cs h
    obtain ⟨fs, h3, h4⟩ := fieldNames_plain h1
    exact ⟨fs, h3, fun n => by rw [h4, ← h2]; rfl⟩

/-! ### Replacement as a change of names -/

/-- `σ` after `a` has been given the new value `b`. -/
def upd (σ : String → String) (a b : String) (n : String) : String := if n = a then b else σ n

theorem replaceFirst_map {σ : String → String} {a b : String} (hσ : σ a = a)
    (hne : ∀ n, n ≠ a → σ n ≠ a) : ∀ {l : List String}, l.Nodup →
    replaceFirst a b (l.map σ) = l.map (upd σ a b)
  | [], _ => rfl
  | x :: xs, hn => by
    rw [List.nodup_cons] at hn
    simp only [List.map_cons, replaceFirst]
    by_cases hx : x = a
    · subst hx
      rw [if_pos hσ]
      congr 1
      · simp [upd]
      · refine List.map_congr_left ?_
        intro y hy
        rw [upd, if_neg]
        rintro rfl
        exact hn.1 hy
    · rw [if_neg (hne x hx), replaceFirst_map hσ hne hn.2]
      congr 1
      rw [upd, if_neg hx]

mutual
theorem replace_mapCond {σ : String → String} {a b : String} (hσ : σ a = a)
    (hne : ∀ n, n ≠ a → σ n ≠ a) : ∀ (c : MCond), PlainCond c →
    (mapCond σ c).replace a b = mapCond (upd σ a b) c
  | .cond f g r, h => by
    obtain ⟨x, rfl⟩ := Option.isSome_iff_exists.mp h.1
    simp only [mapCond, Option.map_some, MCond.replace, Option.some.injEq]
    by_cases hx : x = a
    · subst hx
      rw [if_pos hσ]
      simp [upd]
    · rw [if_neg (hne x hx), upd, if_neg hx]
  | .group f cs r, h => by
    obtain ⟨rfl, h⟩ := h
    simp only [mapCond, Option.map_none, MCond.replace]
    rw [replace_mapConds hσ hne cs h]
theorem replace_mapConds {σ : String → String} {a b : String} (hσ : σ a = a)
    (hne : ∀ n, n ≠ a → σ n ≠ a) : ∀ (cs : List MCond), PlainConds cs →
    MCond.replace.replaceList a b (mapConds σ cs) = mapConds (upd σ a b) cs
  | [], _ => by simp only [mapConds, MCond.replace.replaceList]
  | c :: cs, h => by
    simp only [mapConds, MCond.replace.replaceList]
    rw [replace_mapCond hσ hne c h.1, replace_mapConds hσ hne cs h.2]
end

mutual
theorem mapCond_congr {σ τ : String → String} : ∀ (c : MCond), (PlainCond c) →
    (∀ n, InCond n c → σ n = τ n) → mapCond σ c = mapCond τ c
  | .cond f g r, h, hn => by
    obtain ⟨x, rfl⟩ := Option.isSome_iff_exists.mp h.1
    simp only [mapCond, Option.map_some]
    rw [hn x (.here g r)]
  | .group f cs r, h, hn => by
    obtain ⟨rfl, h⟩ := h
    simp only [mapCond, Option.map_none]
    rw [mapConds_congr cs h (fun n hi => hn n (.deep _ _ _ hi))]
theorem mapConds_congr {σ τ : String → String} : ∀ (cs : List MCond), (PlainConds cs) →
    (∀ n, InConds n cs → σ n = τ n) → mapConds σ cs = mapConds τ cs
  | [], _, _ => by simp only [mapConds]
  | c :: cs, h, hn => by
    simp only [mapConds]
    rw [mapCond_congr c h.1 (fun n hi => hn n (.head _ _ hi)),
      mapConds_congr cs h.2 (fun n hi => hn n (.tail _ _ hi))]
end

theorem replace_mapClause {σ : String → String} {a b : String} (hσ : σ a = a)
    (hne : ∀ n, n ≠ a → σ n ≠ a) {c : MClause} (h : PlainClause c) :
    (mapClause σ c).replace a b = mapClause (upd σ a b) c := by
  cases c with
  | text s => exact absurd h id
  | none => rfl
  | list cs => simp only [mapClause, MClause.replace, replace_mapConds hσ hne cs h]

theorem mapClause_congr {σ τ : String → String} {c : MClause} (h : PlainClause c)
    (hn : ∀ n, InClause n c → σ n = τ n) : mapClause σ c = mapClause τ c := by
  cases c with
  | text s => rfl
  | none => rfl
  | list cs => simp only [mapClause, mapConds_congr cs h hn]

mutual
theorem mapCond_id : ∀ (c : MCond), mapCond id c = c
  | .cond f g r => by simp only [mapCond, Option.map_id, id]
  | .group f cs r => by simp only [mapCond, Option.map_id, id, mapConds_id cs]
theorem mapConds_id : ∀ (cs : List MCond), mapConds id cs = cs
  | [] => by simp only [mapConds]
  | c :: cs => by simp only [mapConds, mapCond_id c, mapConds_id cs]
end

theorem mapClause_id (c : MClause) : mapClause id c = c := by
  cases c <;> simp only [mapClause, mapConds_id]

/-! ### Choice of the candidate -/

theorem mem_sharedGraphs {g : String} : ∀ {ls : List (List String)}, ls ≠ [] →
    (g ∈ sharedGraphs ls ↔ ∀ l ∈ ls, g ∈ l)
  | [], h => absurd rfl h
  | l :: ls, _ => by
    simp [sharedGraphs, List.all_eq_true]

theorem isJoinGraph_iff {g : String} : isJoinGraph g = true ↔ ¬ ("merged_result".toList <:+: g.toList) := by
  unfold isJoinGraph
  rw [Bool.not_eq_true', Bool.eq_false_iff, Ne, containsSub_iff]

theorem joinable_iff {fs : List CField} (hne : fs ≠ []) {c : CField} :
    c.graphs.any (fun g => isJoinGraph g && (sharedGraphs (fs.map (·.graphs))).contains g) = true ↔
      JoinableWith fs c := by
  rw [List.any_eq_true]
  unfold JoinableWith
  simp only [Bool.and_eq_true, isJoinGraph_iff, List.contains_eq_mem, decide_eq_true_eq,
    mem_sharedGraphs (show fs.map (·.graphs) ≠ [] by simpa using hne), List.mem_map,
    forall_exists_index, and_imp, forall_apply_eq_imp_iff₂]

theorem mergeable_iff {fs : List CField} (hne : fs ≠ []) {c : CField} :
    c.graphs.any (fun g => (sharedGraphs (fs.map (·.graphs))).contains g) = true ↔
      MergeableWith fs c := by
  rw [List.any_eq_true]
  unfold MergeableWith
  simp only [List.contains_eq_mem, decide_eq_true_eq,
    mem_sharedGraphs (show fs.map (·.graphs) ≠ [] by simpa using hne), List.mem_map,
    forall_exists_index, and_imp, forall_apply_eq_imp_iff₂]

theorem Spec.JoinableWith.mergeable {fs : List CField} {c : CField} (h : JoinableWith fs c) :
    MergeableWith fs c := by
  obtain ⟨g, h1, -, h2⟩ := h
  exact ⟨g, h1, h2⟩

theorem candidates_spec {env : MapEnv} {fs : List CField} (hne : fs ≠ []) :
    ∀ {ns : List String} {js ms : List CField},
      candidates env (sharedGraphs (fs.map (·.graphs))) ns = .ok (js, ms) →
      ∃ cs, ns.mapM env.field = .ok cs ∧
        (∀ c rest, js = c :: rest → FirstWith (JoinableWith fs) cs c) ∧
        (js = [] → ∀ x ∈ cs, ¬ JoinableWith fs x) ∧
        (∀ c rest, js = [] → ms = c :: rest → FirstWith (MergeableWith fs) cs c) ∧
        (js = [] → ms = [] → ∀ x ∈ cs, ¬ MergeableWith fs x)
  | [], js, ms, h => by
    simp only [candidates, Except.ok.injEq, Prod.mk.injEq] at h
    obtain ⟨rfl, rfl⟩ := h
    exact ⟨[], rfl, by simp, by simp, by simp, by simp⟩
  | n :: ns, js, ms, h => by
    unfold candidates at h
    cases hf : env.field n with
    | error e => rw [hf] at h; cases h
    | ok c =>
      rw [hf] at h
      simp only at h
      cases hr : candidates env (sharedGraphs (fs.map (·.graphs))) ns with
      | error e => rw [hr] at h; cases h
      | ok p =>
        obtain ⟨js', ms'⟩ := p
        rw [hr] at h
        simp only at h
        obtain ⟨cs, h1, h2, h3, h4, h5⟩ := candidates_spec hne hr
        refine ⟨c :: cs, by rw [List.mapM_cons, hf, h1]; rfl, ?_⟩
        by_cases hj : JoinableWith fs c
        · rw [if_pos ((joinable_iff hne).mpr hj)] at h
          simp only [Except.ok.injEq, Prod.mk.injEq] at h
          obtain ⟨rfl, rfl⟩ := h
          refine ⟨?_, by simp, by simp, by simp⟩
          intro c' rest h
          simp only [List.cons.injEq] at h
          rw [← h.1]
          exact ⟨[], cs, rfl, hj, by simp⟩
        · rw [if_neg (fun h => hj ((joinable_iff hne).mp h))] at h
          have ext : ∀ {P : CField → Prop} {x : CField}, ¬ P c → FirstWith P cs x →
              FirstWith P (c :: cs) x := by
            rintro P x hP ⟨pre, post, e, h6, h7⟩
            refine ⟨c :: pre, post, by rw [e]; rfl, h6, ?_⟩
            intro y hy
            rcases List.mem_cons.mp hy with rfl | hy
            · exact hP
            · exact h7 y hy
          by_cases hm : MergeableWith fs c
          · rw [if_pos ((mergeable_iff hne).mpr hm)] at h
            simp only [Except.ok.injEq, Prod.mk.injEq] at h
            obtain ⟨rfl, rfl⟩ := h
            refine ⟨fun x rest e => ext hj (h2 x rest e), ?_, ?_, by simp⟩
            · intro e x hx
              rcases List.mem_cons.mp hx with rfl | hx
              · exact hj
              · exact h3 e x hx
            · intro x rest e h
              simp only [List.cons.injEq] at h
              rw [← h.1]
              exact ⟨[], cs, rfl, hm, by simp⟩
          · rw [if_neg (fun h => hm ((mergeable_iff hne).mp h))] at h
            simp only [Except.ok.injEq, Prod.mk.injEq] at h
            obtain ⟨rfl, rfl⟩ := h
            refine ⟨fun x rest e => ext hj (h2 x rest e), ?_, ?_, ?_⟩
            · intro e x hx
              rcases List.mem_cons.mp hx with rfl | hx
              · exact hj
              · exact h3 e x hx
            · intro x rest e e'
              exact ext hm (h4 x rest e e')
            · intro e e' x hx
              rcases List.mem_cons.mp hx with rfl | hx
              · exact hm
              · exact h5 e e' x hx

theorem candidates_total {env : MapEnv} {shared : List String} :
    ∀ {ns : List String} {cs : List CField}, ns.mapM env.field = .ok cs →
      ∃ js ms, candidates env shared ns = .ok (js, ms)
  | [], _, _ => ⟨[], [], rfl⟩
  | n :: ns, cs, h => by
    rw [List.mapM_cons] at h
    unfold candidates
    cases hf : env.field n with
    | error e => rw [hf] at h; cases h
    | ok c =>
      rw [hf] at h
      cases hr : ns.mapM env.field with
      | error e => rw [hr] at h; cases h
      | ok cs' =>
        obtain ⟨js, ms, he⟩ := candidates_total (shared := shared) hr
        simp only [he]
        split
        · exact ⟨_, _, rfl⟩
        · split
          · exact ⟨_, _, rfl⟩
          · exact ⟨_, _, rfl⟩

theorem determine_ok {env : MapEnv} {fs : List CField} (hne : fs ≠ []) {m : MapDef} {c : CField}
    (h : determineField env (sharedGraphs (fs.map (·.graphs))) m = .ok c) :
    ∃ cs, Candidates env m cs ∧ BestCandidate fs cs c := by
  unfold determineField at h
  cases hc : candidates env (sharedGraphs (fs.map (·.graphs))) m.fields with
  | error e => rw [hc] at h; cases h
  | ok p =>
    obtain ⟨js, ms⟩ := p
    rw [hc] at h
    obtain ⟨cs, h1, h2, h3, h4, -⟩ := candidates_spec hne hc
    refine ⟨cs, h1, ?_⟩
    cases js with
    | cons x xs =>
      simp only [Except.ok.injEq] at h
      subst h
      exact .inl (h2 _ _ rfl)
    | nil =>
      cases ms with
      | cons x xs =>
        simp only [Except.ok.injEq] at h
        subst h
        exact .inr ⟨h3 rfl, h4 _ _ rfl rfl⟩
      | nil => cases h

theorem determine_error {env : MapEnv} {fs : List CField} (hne : fs ≠ []) {m : MapDef}
    {cs : List CField} (hcs : Candidates env m cs) (hno : ∀ c ∈ cs, ¬ MergeableWith fs c) :
    determineField env (sharedGraphs (fs.map (·.graphs))) m = .error .query := by
  obtain ⟨js, ms, hc⟩ := candidates_total (shared := sharedGraphs (fs.map (·.graphs))) hcs
  unfold determineField
  rw [hc]
  obtain ⟨cs', h1, h2, h3, h4, -⟩ := candidates_spec hne hc
  have : cs' = cs := Except.ok.inj (h1.symm.trans hcs)
  subst this
  cases js with
  | cons x xs =>
    obtain ⟨pre, post, e, h6, -⟩ := h2 _ _ rfl
    exact absurd h6.mergeable (hno x (by rw [e]; simp))
  | nil =>
    cases ms with
    | cons x xs =>
      obtain ⟨pre, post, e, h6, -⟩ := h4 _ _ rfl rfl
      exact absurd h6 (hno x (by rw [e]; simp))
    | nil => rfl

theorem determine_total {env : MapEnv} {fs : List CField} (hne : fs ≠ []) {m : MapDef}
    {cs : List CField} (hcs : Candidates env m cs) (hsome : ∃ c ∈ cs, MergeableWith fs c) :
    ∃ c, determineField env (sharedGraphs (fs.map (·.graphs))) m = .ok c := by
  obtain ⟨js, ms, hc⟩ := candidates_total (shared := sharedGraphs (fs.map (·.graphs))) hcs
  unfold determineField
  rw [hc]
  obtain ⟨cs', h1, -, -, -, h5⟩ := candidates_spec hne hc
  have : cs' = cs := Except.ok.inj (h1.symm.trans hcs)
  subst this
  cases js with
  | cons x xs => exact ⟨x, rfl⟩
  | nil =>
    cases ms with
    | cons x xs => exact ⟨x, rfl⟩
    | nil =>
      obtain ⟨c, h6, h7⟩ := hsome
      exact absurd h7 (h5 rfl rfl c h6)

/-! ### Classification of the names -/

theorem mem_firstOccurrences {n : String} : ∀ {l : List String}, n ∈ firstOccurrences l ↔ n ∈ l
  | [] => by simp [firstOccurrences]
  | x :: xs => by
    simp only [firstOccurrences, List.mem_cons, List.mem_filter, mem_firstOccurrences (l := xs),
      decide_eq_true_eq]
    constructor
    · rintro (h | h)
      · exact .inl h
      · exact .inr h.1
    · rintro (h | h)
      · exact .inl h
      · by_cases hx : n = x
        · exact .inl hx
        · exact .inr ⟨h, hx⟩

theorem firstOccurrences_nodup : ∀ {l : List String}, (firstOccurrences l).Nodup
  | [] => by simp [firstOccurrences]
  | x :: xs => by
    simp only [firstOccurrences, List.nodup_cons, List.mem_filter, decide_eq_true_eq, ne_eq,
      not_true_eq_false, and_false, not_false_eq_true, true_and]
    exact firstOccurrences_nodup.filter _

structure Classified (env : MapEnv) (ids : List String) (ms : List (String × MapDef))
    (fs : List (String × CField)) : Prop where
  maps : ∀ n m, (n, m) ∈ ms ↔ n ∈ ids ∧ env.mapping n = some m
  fields : ∀ n f, (n, f) ∈ fs ↔ n ∈ ids ∧ env.mapping n = none ∧ env.modelField n = .ok f
  keys : (ms.map (·.1)).Sublist ids
  found : ∀ n ∈ ids, env.mapping n = none → ∃ f, env.modelField n = .ok f

theorem classify_spec {env : MapEnv} : ∀ {ids : List String} {ms : List (String × MapDef)}
    {fs : List (String × CField)}, classify env ids = .ok (ms, fs) → Classified env ids ms fs
  | [], ms, fs, h => by
    simp only [classify, Except.ok.injEq, Prod.mk.injEq] at h
    obtain ⟨rfl, rfl⟩ := h
    exact ⟨by simp, by simp, by simp, by simp⟩
  | n :: ns, ms, fs, h => by
    unfold classify at h
    cases hm : env.mapping n with
    | some m =>
      rw [hm] at h
      simp only at h
      cases hr : classify env ns with
      | error e => rw [hr] at h; cases h
      | ok p =>
        obtain ⟨ms', fs'⟩ := p
        rw [hr] at h
        simp only [Except.ok.injEq, Prod.mk.injEq] at h
        obtain ⟨rfl, rfl⟩ := h
        obtain ⟨h1, h2, h3, h4⟩ := classify_spec hr
        refine ⟨?_, ?_, by simpa using h3, ?_⟩
        · intro x m'
          simp only [List.mem_cons, Prod.mk.injEq, h1]
          constructor
          · rintro (⟨rfl, rfl⟩ | ⟨h, h'⟩)
            · exact ⟨.inl rfl, hm⟩
            · exact ⟨.inr h, h'⟩
          · rintro ⟨rfl | h, h'⟩
            · rw [hm] at h'
              exact .inl ⟨rfl, (Option.some.inj h').symm⟩
            · exact .inr ⟨h, h'⟩
        · intro x f
          rw [h2]
          constructor
          · rintro ⟨h, h'⟩
            exact ⟨by simp [h], h'⟩
          · rintro ⟨h, h', h''⟩
            rcases List.mem_cons.mp h with rfl | h
            · rw [hm] at h'; cases h'
            · exact ⟨h, h', h''⟩
        · intro x hx hx'
          rcases List.mem_cons.mp hx with rfl | hx
          · rw [hm] at hx'; cases hx'
          · exact h4 x hx hx'
    | none =>
      rw [hm] at h
      simp only at h
      cases hf : env.modelField n with
      | error e => rw [hf] at h; cases h
      | ok f =>
        rw [hf] at h
        simp only at h
        cases hr : classify env ns with
        | error e => rw [hr] at h; cases h
        | ok p =>
          obtain ⟨ms', fs'⟩ := p
          rw [hr] at h
          simp only [Except.ok.injEq, Prod.mk.injEq] at h
          obtain ⟨rfl, rfl⟩ := h
          obtain ⟨h1, h2, h3, h4⟩ := classify_spec hr
          refine ⟨?_, ?_, h3.trans (List.sublist_cons_self _ _), ?_⟩
          · intro x m'
            rw [h1]
            constructor
            · rintro ⟨h, h'⟩
              exact ⟨by simp [h], h'⟩
            · rintro ⟨h, h'⟩
              rcases List.mem_cons.mp h with rfl | h
              · rw [hm] at h'; cases h'
              · exact ⟨h, h'⟩
          · intro x f'
            simp only [List.mem_cons, Prod.mk.injEq, h2]
            constructor
            · rintro (⟨rfl, rfl⟩ | ⟨h, h'⟩)
              · exact ⟨.inl rfl, hm, hf⟩
              · exact ⟨.inr h, h'⟩
            · rintro ⟨rfl | h, h', h''⟩
              · rw [hf] at h''
                exact .inl ⟨rfl, (Except.ok.inj h'').symm⟩
              · exact .inr ⟨h, h', h''⟩
          · intro x hx hx'
            rcases List.mem_cons.mp hx with rfl | hx
            · exact ⟨f, hf⟩
            · exact h4 x hx hx'

theorem classify_total {env : MapEnv} : ∀ {ids : List String},
    (∀ n ∈ ids, env.mapping n = none → ∃ f, env.modelField n = .ok f) →
    ∃ ms fs, classify env ids = .ok (ms, fs)
  | [], _ => ⟨_, _, rfl⟩
  | n :: ns, h => by
    obtain ⟨ms, fs, hr⟩ := classify_total (fun x hx => h x (List.mem_cons_of_mem _ hx)) (ids := ns)
    unfold classify
    cases hm : env.mapping n with
    | some m => simp only [hr]; exact ⟨_, _, rfl⟩
    | none =>
      obtain ⟨f, hf⟩ := h n (by simp) hm
      simp only [hf, hr]
      exact ⟨_, _, rfl⟩

/-! ### Dates -/

theorem mem_of_lookup {found : List (String × CField)} {n : String} {f : CField}
    (h : found.lookup n = some f) : (n, f) ∈ found := by
  induction found with
  | nil => cases h
  | cons p ps ih =>
    obtain ⟨k, v⟩ := p
    rw [List.lookup_cons] at h
    by_cases hk : n = k
    · subst hk
      simp only [BEq.rfl, Option.some.injEq] at h
      simp [h]
    · rw [beq_eq_false_iff_ne.mpr hk] at h
      exact List.mem_cons_of_mem _ (ih h)

theorem lookup_of_mem {found : List (String × CField)} {n : String} {f : CField}
    (hu : ∀ f', (n, f') ∈ found → f' = f) (h : (n, f) ∈ found) : found.lookup n = some f := by
  induction found with
  | nil => cases h
  | cons p ps ih =>
    obtain ⟨k, v⟩ := p
    rw [List.lookup_cons]
    by_cases hk : n = k
    · subst hk
      simp only [BEq.rfl, Option.some.injEq]
      exact hu v (by simp)
    · rw [beq_eq_false_iff_ne.mpr hk]
      refine ih (fun f' hf' => hu f' (by simp [hf'])) ?_
      rcases List.mem_cons.mp h with h | h
      · simp only [Prod.mk.injEq] at h
        exact absurd h.1 hk
      · exact h

theorem fromLookup_eq {env : MapEnv} {found : List (String × CField)}
    (hf : ∀ n f, (n, f) ∈ found → env.modelField n = .ok f) (n : String) :
    fromLookup env found n = env.modelField n := by
  unfold fromLookup
  cases h : found.lookup n with
  | none => rfl
  | some f => exact (hf n f (mem_of_lookup h)).symm

theorem mem_dimensionDates {found : List (String × CField)} {dims : List String} {c : String} :
    c ∈ dimensionDates found dims ↔
      ∃ d ∈ dims, ∃ f, found.lookup d = some f ∧ f.canonDate = some c ∧ c ≠ "" := by
  unfold dimensionDates
  rw [List.mem_dedup, List.mem_filterMap]
  constructor
  · rintro ⟨d, hd, h⟩
    cases hl : found.lookup d with
    | none => rw [hl] at h; cases h
    | some f =>
      rw [hl] at h
      simp only at h
      cases hc : f.canonDate with
      | none => rw [hc] at h; cases h
      | some x =>
        rw [hc] at h
        simp only at h
        split at h
        · cases h
        · rename_i hx
          cases h
          exact ⟨d, hd, f, hl, hc, hx⟩
  · rintro ⟨d, hd, f, h1, h2, h3⟩
    exact ⟨d, hd, by simp [h1, h2, h3]⟩

theorem measureCounts_spec {env : MapEnv} : ∀ {cs : List String} {r : List (String × Nat)},
    measureCounts env cs = .ok r → r.map (·.1) = cs ∧
      ∀ p ∈ r, env.viewMeasures (viewOfDate p.1) = .ok p.2
  | [], r, h => by
    simp only [measureCounts, Except.ok.injEq] at h
    subst h
    exact ⟨rfl, by simp⟩
  | c :: cs, r, h => by
    unfold measureCounts at h
    cases hv : env.viewMeasures (viewOfDate c) with
    | error e => rw [hv] at h; cases h
    | ok n =>
      rw [hv] at h
      simp only at h
      cases hr : measureCounts env cs with
      | error e => rw [hr] at h; cases h
      | ok r' =>
        rw [hr] at h
        simp only [Except.ok.injEq] at h
        subst h
        obtain ⟨h1, h2⟩ := measureCounts_spec hr
        refine ⟨by simp [h1], ?_⟩
        intro p hp
        rcases List.mem_cons.mp hp with rfl | hp
        · exact hv
        · exact h2 p hp

theorem firstLargest_spec : ∀ (best : String × Nat) (xs : List (String × Nat)),
    ∃ p ∈ best :: xs, firstLargest best xs = p.1 ∧ ∀ x ∈ best :: xs, x.2 ≤ p.2
  | best, [] => ⟨best, by simp, rfl, by simp⟩
  | best, x :: xs => by
    unfold firstLargest
    split
    · rename_i h
      obtain ⟨p, h1, h2, h3⟩ := firstLargest_spec x xs
      refine ⟨p, List.mem_cons_of_mem _ h1, h2, ?_⟩
      intro y hy
      rcases List.mem_cons.mp hy with rfl | hy
      · exact (Nat.le_of_lt h).trans (h3 x (by simp))
      · exact h3 y hy
    · rename_i h
      obtain ⟨p, h1, h2, h3⟩ := firstLargest_spec best xs
      refine ⟨p, ?_, h2, ?_⟩
      · rcases List.mem_cons.mp h1 with rfl | h1
        · simp
        · simp [h1]
      · intro y hy
        rcases List.mem_cons.mp hy with rfl | hy
        · exact h3 y (by simp)
        · rcases List.mem_cons.mp hy with rfl | hy
          · exact (Nat.not_lt.mp h).trans (h3 best (by simp))
          · exact h3 y (by simp [hy])

theorem viewPart_iff (s v : String) : ViewPart s v ↔ v = viewOfDate s := by
  unfold viewOfDate ViewPart
  have hsplit := (List.takeWhile_append_dropWhile (p := fun c => decide (c ≠ '.')) (l := s.toList)).symm
  constructor
  · rintro ⟨hv, hs⟩
    apply String.toList_inj.mp
    rw [String.toList_ofList]
    have htake : ∀ l : List Char, '.' ∉ l → l.takeWhile (fun c => decide (c ≠ '.')) = l := by
      intro l hl
      rw [List.takeWhile_eq_self_iff]
      intro c hc
      simp only [ne_eq, decide_not, Bool.not_eq_true', decide_eq_false_iff_not]
      rintro rfl
      exact hl hc
    rcases hs with rfl | ⟨r, rfl⟩
    · exact (htake _ hv).symm
    · rw [String.toList_append, String.toList_append, List.append_assoc,
        List.takeWhile_append_of_pos (by
          intro c hc
          simp only [ne_eq, decide_not, Bool.not_eq_true', decide_eq_false_iff_not]
          rintro rfl
          exact hv hc)]
      simp
  · rintro rfl
    rw [String.toList_ofList]
    refine ⟨?_, ?_⟩
    · intro hc
      have := List.mem_takeWhile_imp hc
      simp at this
    · cases hd : s.toList.dropWhile (fun c => decide (c ≠ '.')) with
      | nil =>
        left
        rw [hd, List.append_nil] at hsplit
        apply String.toList_inj.mp
        rw [String.toList_ofList]
        exact hsplit
      | cons c r =>
        right
        refine ⟨String.ofList r, ?_⟩
        have hc : c = '.' := by
          have := List.head_dropWhile_not (fun c => decide (c ≠ '.')) (l := s.toList) (by rw [hd]; simp)
          simp only [hd, List.head_cons] at this
          simpa using this
        apply String.toList_inj.mp
        rw [String.toList_append, String.toList_append, String.toList_ofList]
        rw [hd, hc] at hsplit
        simp only [List.append_assoc, String.toList_ofList]
        exact hsplit

end ML
