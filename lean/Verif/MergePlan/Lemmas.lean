import Verif.MergePlan.Spec
import Verif.MergePlan.Texts
/-
Helper lemmas for C35, C36 and C37.
-/
set_option autoImplicit false
namespace ML
open Spec

/-! ### Dictionaries -/

theorem dictGet_append {V : Type} (d : List (String × List V)) (k k' : String) (v : V) :
    (dictGet (dictAppend d k v) k').getD [] = if k = k' then (dictGet d k').getD [] ++ [v] else (dictGet d k').getD [] := by
  unfold dictAppend
  rw [dictGet_set]
  by_cases h : k = k'
  · subst h; simp
  · simp [h]

theorem dictAppend_nodup {V : Type} (d : List (String × List V)) (h : (d.map (·.1)).Nodup) (k : String) (v : V) :
    ((dictAppend d k v).map (·.1)).Nodup := dictSet_nodup h k _

theorem dictAppend_mem {V : Type} (d : List (String × List V)) (h : (d.map (·.1)).Nodup) (k : String) (v : V) (k' : String) (l : List V)
    (hm : (k', l) ∈ dictAppend d k v) : (k' ≠ k ∧ (k', l) ∈ d) ∨ (k' = k ∧ l = (dictGet d k).getD [] ++ [v]) := by
  have hg := dictGet_of_mem (dictAppend_nodup d h k v) hm
  unfold dictAppend at hg
  rw [dictGet_set] at hg
  by_cases hk : k = k'
  · subst hk
    rw [if_pos rfl] at hg
    injection hg with hg
    exact .inr ⟨rfl, hg.symm⟩
  · rw [if_neg hk] at hg
    exact .inl ⟨fun c => hk c.symm, dictGet_mem hg⟩

/-! ### De-duplication -/

theorem dedupFields_mem (seen fs : List PField) (f : PField) (h : f ∈ dedupFields seen fs) : f ∈ fs := by
  induction fs generalizing seen with
  | nil => cases h
  | cons a fs ih =>
    rw [dedupFields] at h
    split at h
    · exact List.mem_cons_of_mem _ (ih seen h)
    · rcases List.mem_cons.mp h with rfl | h
      · simp
      · exact List.mem_cons_of_mem _ (ih _ h)

theorem dedupFields_ids (seen fs : List PField) (f : PField) (h : f ∈ fs) :
    (∃ g ∈ seen, g.id = f.id) ∨ ∃ g ∈ dedupFields seen fs, g.id = f.id := by
  induction fs generalizing seen with
  | nil => cases h
  | cons a fs ih =>
    rw [dedupFields]
    split
    · rename_i hs
      rcases List.mem_cons.mp h with rfl | h
      · obtain ⟨g, hg, e⟩ := List.any_eq_true.mp hs
        exact .inl ⟨g, hg, by simpa using e⟩
      · exact ih seen h
    · rcases List.mem_cons.mp h with rfl | h
      · exact .inr ⟨f, by simp, rfl⟩
      · rcases ih (seen ++ [a]) h with ⟨g, hg, e⟩ | ⟨g, hg, e⟩
        · rcases List.mem_append.mp hg with hg | hg
          · exact .inl ⟨g, hg, e⟩
          · simp only [List.mem_singleton] at hg
            subst hg
            exact .inr ⟨g, by simp, e⟩
        · exact .inr ⟨g, by simp [hg], e⟩

theorem dedupFields_nodup (seen fs : List PField) :
    ((dedupFields seen fs).map PField.id).Nodup ∧ ∀ f ∈ dedupFields seen fs, ∀ g ∈ seen, g.id ≠ f.id := by
  induction fs generalizing seen with
  | nil => simp [dedupFields]
  | cons a fs ih =>
    rw [dedupFields]
    split
    · exact ih seen
    · rename_i hs
      have hs' : ∀ g ∈ seen, g.id ≠ a.id := by
        intro g hg c
        exact hs (List.any_eq_true.mpr ⟨g, hg, by simpa using c⟩)
      obtain ⟨i1, i2⟩ := ih (seen ++ [a])
      constructor
      · rw [List.map_cons, List.nodup_cons]
        refine ⟨?_, i1⟩
        intro hm
        obtain ⟨g, hg, e⟩ := List.mem_map.mp hm
        exact i2 g hg a (by simp) e.symm
      · intro f hf g hg
        rcases List.mem_cons.mp hf with rfl | hf
        · exact hs' g hg
        · exact i2 f hf g (by simp [hg])

/-! ### Metrics -/

/-- What holds of the dictionary of metrics while it is filled. -/
structure PlacedOk (env : PlanEnv) (P : PField → Prop) (q : List (String × List PField)) : Prop where
  nodup : (q.map (·.1)).Nodup
  place : ∀ k l, (k, l) ∈ q → ∀ f ∈ l, BelongsTo env f k ∧ P f

theorem placedOk_append (env : PlanEnv) (P : PField → Prop) (q : List (String × List PField)) (h : PlacedOk env P q) (f : PField)
    (c g : String) (hc : f.canon = some c) (hg : joinHashKey env f = .ok g) (hf : P f) : PlacedOk env P (dictAppend q (cteName c g) f) := by
  refine ⟨dictAppend_nodup q h.nodup _ _, fun k l hm f' hf' => ?_⟩
  rcases dictAppend_mem q h.nodup _ _ k l hm with ⟨_, hm⟩ | ⟨rfl, rfl⟩
  · exact h.place k l hm f' hf'
  · rcases List.mem_append.mp hf' with hf' | hf'
    · cases hd : dictGet q (cteName c g) with
      | none => rw [hd] at hf'; cases hf'
      | some l => rw [hd] at hf'; exact h.place _ l (dictGet_mem hd) f' hf'
    · simp only [List.mem_singleton] at hf'
      subst hf'
      exact ⟨⟨c, g, hc, hg, rfl⟩, hf⟩

/-- What was placed stays placed. -/
def Kept (q q' : List (String × List PField)) : Prop :=
  ∀ k f, f ∈ (dictGet q k).getD [] → f ∈ (dictGet q' k).getD []

theorem kept_append (q : List (String × List PField)) (k : String) (f : PField) : Kept q (dictAppend q k f) := by
  intro k' f' h
  rw [dictGet_append]
  split
  · simp [h]
  · exact h

theorem placeRefs_spec (env : PlanEnv) (P : PField → Prop) (fs : List (Option PField)) (q q' : List (String × List PField))
    (h : placeRefs env fs q = .ok q') (hq : PlacedOk env P q) (hP : ∀ f, some f ∈ fs → P f) :
    PlacedOk env P q' ∧ Kept q q' ∧ ∀ f, some f ∈ fs → ∃ k, BelongsTo env f k ∧ f ∈ (dictGet q' k).getD [] := by
  induction fs generalizing q with
  | nil => simp only [placeRefs, Except.ok.injEq] at h; subst h; exact ⟨hq, fun _ _ h => h, by simp⟩
  | cons o fs ih =>
    cases o with
    | none => cases h
    | some f =>
      simp only [placeRefs] at h
      cases hc : f.canon with
      | none => rw [hc] at h; cases h
      | some c =>
        rw [hc] at h
        cases hg : joinHashKey env f with
        | error e => rw [hg] at h; cases h
        | ok g =>
          rw [hg] at h
          obtain ⟨i1, i2, i3⟩ := ih _ h (placedOk_append env P q hq f c g hc hg (hP f (by simp))) (fun x hx => hP x (by simp [hx]))
          refine ⟨i1, fun k x hx => i2 k x (kept_append q _ f k x hx), ?_⟩
          intro x hx
          rcases List.mem_cons.mp hx with hx | hx
          · injection hx with hx
            subst hx
            refine ⟨cteName c g, ⟨c, g, hc, hg, rfl⟩, i2 _ _ ?_⟩
            rw [dictGet_append, if_pos rfl]
            simp
          · exact i3 x hx

theorem placeMerged_spec (env : PlanEnv) (P : PField → Prop) (ms : List PField) (q q' : List (String × List PField))
    (h : placeMerged env ms q = .ok q') (hq : PlacedOk env P q) (hP : ∀ m ∈ ms, ∀ f, some f ∈ env.refs m → P f) :
    PlacedOk env P q' ∧ Kept q q' ∧ ∀ m ∈ ms, ∀ f, some f ∈ env.refs m → ∃ k, BelongsTo env f k ∧ f ∈ (dictGet q' k).getD [] := by
  induction ms generalizing q with
  | nil => simp only [placeMerged, Except.ok.injEq] at h; subst h; exact ⟨hq, fun _ _ h => h, by simp⟩
  | cons m ms ih =>
    simp only [placeMerged] at h
    cases hr : placeRefs env (env.refs m) q with
    | error e => rw [hr] at h; cases h
    | ok q1 =>
      rw [hr] at h
      obtain ⟨a1, a2, a3⟩ := placeRefs_spec env P _ q q1 hr hq (hP m (by simp))
      obtain ⟨i1, i2, i3⟩ := ih q1 h a1 (fun x hx => hP x (by simp [hx]))
      refine ⟨i1, fun k x hx => i2 k x (a2 k x hx), ?_⟩
      intro x hx f hf
      rcases List.mem_cons.mp hx with rfl | hx
      · obtain ⟨k, hk, hm⟩ := a3 f hf
        exact ⟨k, hk, i2 k f hm⟩
      · exact i3 x hx f hf

theorem placeSecondary_spec (env : PlanEnv) (P : PField → Prop) (fs : List PField) (q q' : List (String × List PField))
    (h : placeSecondary env fs q = .ok q') (hq : PlacedOk env P q) (hP : ∀ f ∈ fs, P f) :
    PlacedOk env P q' ∧ Kept q q' ∧ ∀ f ∈ fs, ∃ k, BelongsTo env f k ∧ ∃ x ∈ (dictGet q' k).getD [], x.id = f.id := by
  induction fs generalizing q with
  | nil => simp only [placeSecondary, Except.ok.injEq] at h; subst h; exact ⟨hq, fun _ _ h => h, by simp⟩
  | cons f fs ih =>
    simp only [placeSecondary] at h
    cases hg : joinHashKey env f with
    | error e => rw [hg] at h; cases h
    | ok g =>
      rw [hg] at h
      cases hc : f.canon with
      | none => rw [hc] at h; cases h
      | some c =>
        rw [hc] at h
        simp only at h
        by_cases ha : ((dictGet q (cteName c g)).getD []).any (fun x => decide (f.id = x.id)) = true
        · rw [if_pos ha] at h
          obtain ⟨i1, i2, i3⟩ := ih q h hq (fun x hx => hP x (by simp [hx]))
          refine ⟨i1, i2, ?_⟩
          intro x hx
          rcases List.mem_cons.mp hx with rfl | hx
          · obtain ⟨y, hy, e⟩ := List.any_eq_true.mp ha
            exact ⟨_, ⟨c, g, hc, hg, rfl⟩, y, i2 _ _ hy, by simpa [eq_comm] using e⟩
          · exact i3 x hx
        · rw [if_neg ha] at h
          obtain ⟨i1, i2, i3⟩ := ih _ h (placedOk_append env P q hq f c g hc hg (hP f (by simp))) (fun x hx => hP x (by simp [hx]))
          refine ⟨i1, fun k x hx => i2 k x (kept_append q _ f k x hx), ?_⟩
          intro x hx
          rcases List.mem_cons.mp hx with rfl | hx
          · refine ⟨_, ⟨c, g, hc, hg, rfl⟩, x, i2 _ _ ?_, rfl⟩
            rw [dictGet_append, if_pos rfl]
            simp
          · exact i3 x hx

theorem splitMetrics_spec (env : PlanEnv) (ms : List String) (mg sec : List PField) (h : splitMetrics env ms = .ok (mg, sec)) :
    (∀ f, f ∈ mg ↔ ∃ n ∈ ms, env.getField n = .ok f ∧ f.merged = true) ∧
    (∀ f, f ∈ sec ↔ ∃ n ∈ ms, env.getField n = .ok f ∧ f.merged = false) := by
  induction ms generalizing mg sec with
  | nil => simp only [splitMetrics, Except.ok.injEq, Prod.mk.injEq] at h; obtain ⟨rfl, rfl⟩ := h; simp
  | cons m ms ih =>
    simp only [splitMetrics] at h
    cases hf : env.getField m with
    | error e => rw [hf] at h; cases h
    | ok f =>
      rw [hf] at h
      cases hs : splitMetrics env ms with
      | error e => rw [hs] at h; cases h
      | ok p =>
        obtain ⟨a, b⟩ := p
        rw [hs] at h
        obtain ⟨i1, i2⟩ := ih a b hs
        have expand : ∀ (x : PField) (v : Bool), (∃ n ∈ m :: ms, env.getField n = .ok x ∧ x.merged = v) ↔
            (f = x ∧ x.merged = v) ∨ ∃ n ∈ ms, env.getField n = .ok x ∧ x.merged = v := by
          intro x v
          simp only [List.mem_cons, exists_eq_or_imp, hf, Except.ok.injEq]
        cases hm : f.merged with
        | true =>
          simp only [hm, if_true, Except.ok.injEq, Prod.mk.injEq] at h
          obtain ⟨rfl, rfl⟩ := h
          constructor
          · intro x
            rw [expand, ← i1, List.mem_cons]
            constructor
            · rintro (rfl | h)
              · exact .inl ⟨rfl, hm⟩
              · exact .inr h
            · rintro (⟨rfl, _⟩ | h)
              · exact .inl rfl
              · exact .inr h
          · intro x
            rw [expand, ← i2]
            constructor
            · exact .inr
            · rintro (⟨rfl, c⟩ | h)
              · rw [hm] at c; cases c
              · exact h
        | false =>
          simp only [hm, Bool.false_eq_true, if_false, Except.ok.injEq, Prod.mk.injEq] at h
          obtain ⟨rfl, rfl⟩ := h
          constructor
          · intro x
            rw [expand, ← i1]
            constructor
            · exact .inr
            · rintro (⟨rfl, c⟩ | h)
              · rw [hm] at c; cases c
              · exact h
          · intro x
            rw [expand, ← i2, List.mem_cons]
            constructor
            · rintro (rfl | h)
              · exact .inl ⟨rfl, hm⟩
              · exact .inr h
            · rintro (⟨rfl, _⟩ | h)
              · exact .inl rfl
              · exact .inr h

theorem havingMetrics_spec (env : PlanEnv) (mi si : List String) (hs : List String) (mg sec : List PField)
    (h : havingMetrics env mi si hs = .ok (mg, sec)) :
    (∀ f ∈ mg, ∃ n ∈ hs, env.getField n = .ok f ∧ f.merged = true) ∧
    (∀ f ∈ sec, ∃ n ∈ hs, env.getField n = .ok f ∧ f.merged = false) ∧
    (∀ n ∈ hs, ∀ f, env.getField n = .ok f → (f.merged = true → f ∈ mg ∨ f.id ∈ mi) ∧ (f.merged = false → f ∈ sec ∨ f.id ∈ si)) := by
  induction hs generalizing mg sec with
  | nil => simp only [havingMetrics, Except.ok.injEq, Prod.mk.injEq] at h; obtain ⟨rfl, rfl⟩ := h; simp
  | cons m ms ih =>
    simp only [havingMetrics] at h
    cases hf : env.getField m with
    | error e => rw [hf] at h; cases h
    | ok f =>
      rw [hf] at h
      cases hs : havingMetrics env mi si ms with
      | error e => rw [hs] at h; cases h
      | ok p =>
        obtain ⟨a, b⟩ := p
        rw [hs] at h
        obtain ⟨i1, i2, i3⟩ := ih a b hs
        simp only at h
        split at h
        · rename_i c
          simp only [Except.ok.injEq, Prod.mk.injEq] at h
          obtain ⟨rfl, rfl⟩ := h
          refine ⟨?_, ?_, ?_⟩
          · intro x hx
            obtain ⟨n, hn, e⟩ := i1 x hx
            exact ⟨n, by simp [hn], e⟩
          · intro x hx
            rcases List.mem_cons.mp hx with rfl | hx
            · exact ⟨m, by simp, hf, c.2⟩
            · obtain ⟨n, hn, e⟩ := i2 x hx
              exact ⟨n, by simp [hn], e⟩
          · intro n hn x hx
            rcases List.mem_cons.mp hn with rfl | hn
            · rw [hf] at hx; injection hx with hx; subst hx
              exact ⟨fun h => absurd (c.2.symm.trans h) (by decide), fun _ => .inl (by simp)⟩
            · obtain ⟨j1, j2⟩ := i3 n hn x hx
              exact ⟨j1, fun h => (j2 h).imp (fun h => by simp [h]) id⟩
        · rename_i c
          split at h
          · rename_i c2
            simp only [Except.ok.injEq, Prod.mk.injEq] at h
            obtain ⟨rfl, rfl⟩ := h
            refine ⟨?_, ?_, ?_⟩
            · intro x hx
              rcases List.mem_cons.mp hx with rfl | hx
              · exact ⟨m, by simp, hf, c2.2⟩
              · obtain ⟨n, hn, e⟩ := i1 x hx
                exact ⟨n, by simp [hn], e⟩
            · intro x hx
              obtain ⟨n, hn, e⟩ := i2 x hx
              exact ⟨n, by simp [hn], e⟩
            · intro n hn x hx
              rcases List.mem_cons.mp hn with rfl | hn
              · rw [hf] at hx; injection hx with hx; subst hx
                exact ⟨fun _ => .inl (by simp), fun h => absurd (c2.2.symm.trans h) (by decide)⟩
              · obtain ⟨j1, j2⟩ := i3 n hn x hx
                exact ⟨fun h => (j1 h).imp (fun h => by simp [h]) id, j2⟩
          · rename_i c2
            simp only [Except.ok.injEq, Prod.mk.injEq] at h
            obtain ⟨rfl, rfl⟩ := h
            refine ⟨?_, ?_, ?_⟩
            · intro x hx
              obtain ⟨n, hn, e⟩ := i1 x hx
              exact ⟨n, by simp [hn], e⟩
            · intro x hx
              obtain ⟨n, hn, e⟩ := i2 x hx
              exact ⟨n, by simp [hn], e⟩
            · intro n hn x hx
              rcases List.mem_cons.mp hn with rfl | hn
              · rw [hf] at hx; injection hx with hx; subst hx
                constructor
                · intro hm
                  right
                  by_contra hc
                  exact c2 ⟨hc, hm⟩
                · intro hm
                  right
                  by_contra hc
                  exact c ⟨hc, hm⟩
              · exact i3 n hn x hx

theorem dictGet_dedup (q : List (String × List PField)) (k : String) :
    dictGet (dedupDict q) k = (dictGet q k).map (dedupFields []) := by
  induction q with
  | nil => rfl
  | cons p q ih =>
    obtain ⟨a, l⟩ := p
    unfold dedupDict at ih ⊢
    simp only [List.map_cons, dictGet]
    split
    · rfl
    · exact ih

/-- All that the theorems need about the metrics of the sub-queries. -/
theorem placeMetrics_spec (env : PlanEnv) (metrics having : List String) (mg sec : List PField) (q : List (String × List PField))
    (h : placeMetrics env metrics having = .ok (mg, sec, q))
    (hid : ∀ f g n m, n ∈ metrics → m ∈ having → env.getField n = .ok f → env.getField m = .ok g → f.id = g.id → f = g) :
    PlacedOk env (Needed env metrics having) q ∧ (∀ k l, (k, l) ∈ q → (l.map PField.id).Nodup) ∧
    (∀ f, Needed env metrics having f → ∃ k, BelongsTo env f k ∧ ComputedIn q f k) ∧
    (∀ f ∈ mg, ∃ n ∈ metrics ++ having, env.getField n = .ok f ∧ f.merged = true) ∧
    (∀ n ∈ metrics ++ having, ∀ f, env.getField n = .ok f → f.merged = true → f ∈ mg) ∧
    (∀ n ∈ metrics ++ having, ∀ f, env.getField n = .ok f → f.merged = false → f ∈ sec) := by
  unfold placeMetrics at h
  cases h1 : splitMetrics env metrics with
  | error e => rw [h1] at h; cases h
  | ok p =>
    obtain ⟨m1, s1⟩ := p
    rw [h1] at h
    simp only at h
    cases h2 : havingMetrics env (m1.map PField.id) (s1.map PField.id) having with
    | error e => rw [h2] at h; cases h
    | ok p =>
      obtain ⟨m2, s2⟩ := p
      rw [h2] at h
      simp only at h
      cases h3 : placeMerged env (m1 ++ m2) [] with
      | error e => rw [h3] at h; cases h
      | ok q1 =>
        rw [h3] at h
        simp only at h
        cases h4 : placeSecondary env (s1 ++ s2) q1 with
        | error e => rw [h4] at h; cases h
        | ok q2 =>
          rw [h4] at h
          simp only [Except.ok.injEq, Prod.mk.injEq] at h
          obtain ⟨rfl, rfl, rfl⟩ := h
          obtain ⟨a1, a2⟩ := splitMetrics_spec env metrics m1 s1 h1
          obtain ⟨b1, b2, b3⟩ := havingMetrics_spec env _ _ having m2 s2 h2
          have hmg : ∀ f ∈ m1 ++ m2, ∃ n ∈ metrics ++ having, env.getField n = .ok f ∧ f.merged = true := by
            intro f hf
            rcases List.mem_append.mp hf with hf | hf
            · obtain ⟨n, hn, e⟩ := (a1 f).mp hf
              exact ⟨n, by simp [hn], e⟩
            · obtain ⟨n, hn, e⟩ := b1 f hf
              exact ⟨n, by simp [hn], e⟩
          have hsec : ∀ f ∈ s1 ++ s2, ∃ n ∈ metrics ++ having, env.getField n = .ok f ∧ f.merged = false := by
            intro f hf
            rcases List.mem_append.mp hf with hf | hf
            · obtain ⟨n, hn, e⟩ := (a2 f).mp hf
              exact ⟨n, by simp [hn], e⟩
            · obtain ⟨n, hn, e⟩ := b2 f hf
              exact ⟨n, by simp [hn], e⟩
          have hmg' : ∀ n ∈ metrics ++ having, ∀ f, env.getField n = .ok f → f.merged = true → f ∈ m1 ++ m2 := by
            intro n hn f hf hm
            rcases List.mem_append.mp hn with hn | hn
            · exact List.mem_append_left _ ((a1 f).mpr ⟨n, hn, hf, hm⟩)
            · rcases (b3 n hn f hf).1 hm with h | h
              · exact List.mem_append_right _ h
              · obtain ⟨g, hg, e⟩ := List.mem_map.mp h
                obtain ⟨n', hn', hg', _⟩ := (a1 g).mp hg
                have := hid g f n' n hn' hn hg' hf e
                subst this
                exact List.mem_append_left _ hg
          have hsec' : ∀ n ∈ metrics ++ having, ∀ f, env.getField n = .ok f → f.merged = false → f ∈ s1 ++ s2 := by
            intro n hn f hf hm
            rcases List.mem_append.mp hn with hn | hn
            · exact List.mem_append_left _ ((a2 f).mpr ⟨n, hn, hf, hm⟩)
            · rcases (b3 n hn f hf).2 hm with h | h
              · exact List.mem_append_right _ h
              · obtain ⟨g, hg, e⟩ := List.mem_map.mp h
                obtain ⟨n', hn', hg', _⟩ := (a2 g).mp hg
                have := hid g f n' n hn' hn hg' hf e
                subst this
                exact List.mem_append_left _ hg
          obtain ⟨c1, c2, c3⟩ := placeMerged_spec env (Needed env metrics having) _ [] q1 h3 ⟨List.nodup_nil, by simp⟩ (by
            intro m hm f hf
            obtain ⟨n, hn, e1, e2⟩ := hmg m hm
            exact ⟨n, hn, m, e1, .inr ⟨e2, hf⟩⟩)
          obtain ⟨d1, d2, d3⟩ := placeSecondary_spec env (Needed env metrics having) _ q1 q2 h4 c1 (by
            intro f hf
            obtain ⟨n, hn, e1, e2⟩ := hsec f hf
            exact ⟨n, hn, f, e1, .inl ⟨e2, rfl⟩⟩)
          have toC : ∀ (f : PField) (k : String), (∃ x ∈ (dictGet q2 k).getD [], x.id = f.id) → ComputedIn (dedupDict q2) f k := by
            rintro f k ⟨x, hx, e⟩
            cases hg : dictGet q2 k with
            | none => rw [hg] at hx; cases hx
            | some l =>
              rw [hg] at hx
              refine ⟨dedupFields [] l, dictGet_mem (by rw [dictGet_dedup, hg]; rfl), ?_⟩
              rcases dedupFields_ids [] l x hx with ⟨g, hg, _⟩ | ⟨g, hg, e'⟩
              · cases hg
              · exact ⟨g, hg, e'.trans e⟩
          refine ⟨⟨?_, ?_⟩, ?_, ?_, hmg, hmg', hsec'⟩
          · have : (dedupDict q2).map (·.1) = q2.map (·.1) := by unfold dedupDict; rw [List.map_map]; rfl
            rw [this]
            exact d1.nodup
          · intro k l hm f hf
            unfold dedupDict at hm
            obtain ⟨p, hp, e⟩ := List.mem_map.mp hm
            injection e with e1 e2
            subst e1 e2
            exact d1.place p.1 p.2 hp f (dedupFields_mem _ _ f hf)
          · intro k l hm
            unfold dedupDict at hm
            obtain ⟨p, hp, e⟩ := List.mem_map.mp hm
            injection e with e1 e2
            subst e1 e2
            exact (dedupFields_nodup [] p.2).1
          · rintro f ⟨n, hn, m, hm, ⟨h1, rfl⟩ | ⟨h1, h2⟩⟩
            · obtain ⟨k, hk, h⟩ := d3 f (hsec' n hn f hm h1)
              exact ⟨k, hk, toC f k h⟩
            · obtain ⟨k, hk, h⟩ := c3 m (hmg' n hn m hm h1) f h2
              exact ⟨k, hk, toC f k ⟨f, d2 k f h, rfl⟩⟩

/-! ### Names of sub-queries -/

theorem cteName_toList (date hash : String) : (cteName date hash).toList = (dotsToUnderscores date).toList ++ "__".toList ++ hash.toList := by
  unfold cteName; rw [String.toList_append, String.toList_append]

theorem graphName_inj (m : ℕ) (l : List Char) : graphName m = String.ofList ("subquery_".toList ++ l) ↔ l = (toString m).toList := by
  unfold graphName
  rw [← String.toList_inj, String.toList_append]
  generalize "subquery_".toList = w
  rw [String.toList_ofList]
  constructor
  · intro h; exact (List.append_cancel_left h).symm
  · intro h; rw [h]

theorem hashContains_iff (date : String) (hd : PlainDate date) (ns : List ℕ) (gs : List String) :
    hashContains (cteName date (underscoreJoin (ns.map graphName))) gs = true ↔ ∃ n ∈ ns, graphName n ∈ gs := by
  unfold hashContains
  have hsub : containsSub "subquery".toList ((dotsToUnderscores date).toList ++ "__".toList) = false := by
    apply containsSub_append_of_not_mem
    · rw [Bool.eq_false_iff, Ne, containsSub_iff]; exact hd.word
    · intro c hc
      have : c = '_' := by
        have e : "__".toList = ['_', '_'] := by decide
        rw [e] at hc
        simpa using hc
      subst this
      decide
    · decide
  simp only
  rw [cteName_toList]
  have hs := split_graphs ns ((dotsToUnderscores date).toList ++ "__".toList) hsub
  have e : ns.map graphName = ns.map (fun n => "subquery_" ++ toString n) := rfl
  rw [e, hs]
  have hfirst : allDigits (stripUnderscores ((dotsToUnderscores date).toList ++ "__".toList)) = false := by
    obtain ⟨c, hc, h1, h2, h3⟩ := hd.letter
    have hm : c ∈ stripUnderscores ((dotsToUnderscores date).toList ++ "__".toList) := by
      apply mem_strip _ _ _ h2
      apply List.mem_append_left
      unfold dotsToUnderscores
      rw [String.toList_ofList]
      exact List.mem_map.mpr ⟨c, hc, by simp [h1]⟩
    unfold allDigits
    rw [Bool.and_eq_false_iff]
    right
    rw [List.all_eq_false]
    exact ⟨c, hm, by simp [h3]⟩
  rw [List.filter_cons_of_neg (by rw [hfirst]; decide)]
  have hall : (ns.map (fun n => (toString n).toList)).filter allDigits = ns.map (fun n => (toString n).toList) := by
    rw [List.filter_eq_self]
    intro l hl
    obtain ⟨n, _, rfl⟩ := List.mem_map.mp hl
    unfold allDigits
    rw [Bool.and_eq_true, Bool.not_eq_true', List.isEmpty_eq_false_iff, List.all_eq_true]
    exact ⟨digits_nonempty n, digits_isDigit n⟩
  rw [hall, List.any_eq_true]
  constructor
  · rintro ⟨g, hg, h⟩
    rw [List.any_eq_true] at h
    obtain ⟨l, hl, h⟩ := h
    obtain ⟨n, hn, rfl⟩ := List.mem_map.mp hl
    refine ⟨n, hn, ?_⟩
    have : g = graphName n := by
      rw [(graphName_inj n _).mpr rfl]; simpa using h
    exact this ▸ hg
  · rintro ⟨n, hn, h⟩
    refine ⟨_, h, ?_⟩
    rw [List.any_eq_true]
    exact ⟨_, List.mem_map.mpr ⟨n, hn, rfl⟩, by simpa using (graphName_inj n _).mpr rfl⟩

/-! ### Attaching dimensions -/

theorem attachMapped_spec (env : PlanEnv) (keys : List String) (h : String) (ms : List DimMap) (qd qd' : List (String × List PField))
    (hok : attachMapped env keys h ms qd = .ok qd') :
    (∀ k, k ≠ h → (dictGet qd' k).getD [] = (dictGet qd k).getD []) ∧
    ∃ new, (dictGet qd' h).getD [] = (dictGet qd h).getD [] ++ new ∧
      ∀ f ∈ new, ∃ m ∈ ms, env.getField m.field = .ok f ∧ (m.fromHash = h ∨ ∃ t, m.toHash = some t ∧ t.toList <:+: h.toList) := by
  induction ms generalizing qd with
  | nil => simp only [attachMapped, Except.ok.injEq] at hok; subst hok; exact ⟨fun _ _ => rfl, [], by simp, by simp⟩
  | cons m ms ih =>
    simp only [attachMapped] at hok
    cases hf : env.getField m.field with
    | error e => rw [hf] at hok; cases hok
    | ok f =>
      rw [hf] at hok
      simp only at hok
      by_cases hc : m.fromHash ∈ keys ∧ m.fromHash = h
      · rw [if_pos hc] at hok
        obtain ⟨i1, new, i2, i3⟩ := ih _ hok
        constructor
        · intro k hk
          rw [i1 k hk, dictGet_append, if_neg (fun c => hk (c.symm.trans hc.2))]
        · refine ⟨f :: new, ?_, ?_⟩
          · rw [i2, dictGet_append, if_pos hc.2]; simp
          · intro x hx
            rcases List.mem_cons.mp hx with rfl | hx
            · exact ⟨m, by simp, hf, .inl hc.2⟩
            · obtain ⟨m', hm', e⟩ := i3 x hx
              exact ⟨m', by simp [hm'], e⟩
      · rw [if_neg hc] at hok
        cases hcanon : f.canon with
        | none => rw [hcanon] at hok; cases hok
        | some c =>
          rw [hcanon] at hok
          cases ht : m.toHash with
          | none => rw [ht] at hok; cases hok
          | some t =>
            rw [ht] at hok
            simp only at hok
            by_cases hs : containsSub t.toList h.toList = true
            · rw [if_pos hs] at hok
              simp only [Except.ok.injEq] at hok
              subst hok
              constructor
              · intro k hk
                rw [dictGet_append, if_neg (fun c => hk c.symm)]
              · refine ⟨[f], by rw [dictGet_append, if_pos rfl], ?_⟩
                intro x hx
                simp only [List.mem_singleton] at hx
                subst hx
                exact ⟨m, by simp, hf, .inr ⟨t, ht, (containsSub_iff _ _).mp hs⟩⟩
            · rw [if_neg hs] at hok
              obtain ⟨i1, new, i2, i3⟩ := ih _ hok
              refine ⟨i1, new, i2, ?_⟩
              intro x hx
              obtain ⟨m', hm', e⟩ := i3 x hx
              exact ⟨m', by simp [hm'], e⟩

theorem attachUsed_spec (env : PlanEnv) (keys : List String) (dm : List (String × List DimMap)) (f : PField) (hs : List String)
    (hn : hs.Nodup) (b b' : Bool) (qd qd' : List (String × List PField)) (hok : attachUsed env keys dm f hs b qd = .ok (b', qd')) :
    (b' = true ↔ b = true ∧ ∀ h ∈ hs, hashContains h f.graphs = false) ∧
    (∀ k, k ∉ hs → (dictGet qd' k).getD [] = (dictGet qd k).getD []) ∧
    (∀ h ∈ hs, hashContains h f.graphs = true → (dictGet qd' h).getD [] = (dictGet qd h).getD [] ++ [f]) ∧
    (∀ h ∈ hs, hashContains h f.graphs = false → ∃ ms new, dictGet dm f.key = some ms ∧
      (dictGet qd' h).getD [] = (dictGet qd h).getD [] ++ new ∧
      ∀ x ∈ new, ∃ m ∈ ms, env.getField m.field = .ok x ∧ (m.fromHash = h ∨ ∃ t, m.toHash = some t ∧ t.toList <:+: h.toList)) := by
  induction hs generalizing b qd with
  | nil => simp only [attachUsed, Except.ok.injEq, Prod.mk.injEq] at hok; obtain ⟨rfl, rfl⟩ := hok; simp
  | cons h hs ih =>
    obtain ⟨hh, hn⟩ := List.nodup_cons.mp hn
    simp only [attachUsed] at hok
    by_cases hc : hashContains h f.graphs = true
    · rw [if_pos hc] at hok
      obtain ⟨i1, i2, i3, i4⟩ := ih hn false _ hok
      refine ⟨?_, ?_, ?_, ?_⟩
      · rw [i1]
        constructor
        · rintro ⟨c, _⟩; cases c
        · rintro ⟨_, c⟩
          have := c h (by simp)
          rw [hc] at this; cases this
      · intro k hk
        rw [i2 k (fun c => hk (by simp [c])), dictGet_append, if_neg (fun c => hk (by simp [c]))]
      · intro k hk hkc
        rcases List.mem_cons.mp hk with rfl | hk
        · rw [i2 k hh, dictGet_append, if_pos rfl]
        · rw [i3 k hk hkc, dictGet_append, if_neg (fun c : h = k => hh (c ▸ hk))]
      · intro k hk hkc
        rcases List.mem_cons.mp hk with rfl | hk
        · rw [hc] at hkc; cases hkc
        · obtain ⟨ms, new, j1, j2, j3⟩ := i4 k hk hkc
          refine ⟨ms, new, j1, ?_, j3⟩
          rw [j2, dictGet_append, if_neg (fun c : h = k => hh (c ▸ hk))]
    · rw [if_neg hc] at hok
      cases hd : dictGet dm f.key with
      | none => rw [hd] at hok; cases hok
      | some ms =>
        rw [hd] at hok
        simp only at hok
        cases hm : attachMapped env keys h ms qd with
        | error e => rw [hm] at hok; cases hok
        | ok q1 =>
          rw [hm] at hok
          simp only at hok
          obtain ⟨a1, new, a2, a3⟩ := attachMapped_spec env keys h ms qd q1 hm
          obtain ⟨i1, i2, i3, i4⟩ := ih hn b _ hok
          have hc' : hashContains h f.graphs = false := by simpa using hc
          refine ⟨?_, ?_, ?_, ?_⟩
          · rw [i1]
            simp only [List.mem_cons, forall_eq_or_imp, hc', true_and]
          · intro k hk
            rw [i2 k (fun c => hk (by simp [c])), a1 k (fun c => hk (by simp [c]))]
          · intro k hk hkc
            rcases List.mem_cons.mp hk with rfl | hk
            · exact absurd hkc hc
            · rw [i3 k hk hkc, a1 k (fun c => hh (c ▸ hk))]
          · intro k hk hkc
            rcases List.mem_cons.mp hk with rfl | hk
            · exact ⟨ms, new, rfl, by rw [i2 k hh, a2], a3⟩
            · obtain ⟨ms', new', j1, j2, j3⟩ := i4 k hk hkc
              refine ⟨ms', new', by rw [← hd, j1], ?_, j3⟩
              rw [j2, a1 k (fun c => hh (c ▸ hk))]

end ML
