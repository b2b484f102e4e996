import Verif.FieldCheck.ExactKinds
/-
The checks of measures of C62 report exactly the problems of their part of the specification.
-/
set_option autoImplicit false
namespace ML
open Spec

theorem given_none {d : FDef} {k : String} (h : dictGet d k = none) (v : Yaml) : ¬ Given d k v := by
  unfold Given; rw [h]; simp

theorem given_some {d : FDef} {k : String} {v : Yaml} (h : dictGet d k = some v) (w : Yaml) : Given d k w ↔ v = w := by
  unfold Given; rw [h]; simp

theorem mem_numberDates {rs : List URef} {c : Option String} :
    c ∈ numberDates rs ↔ ∃ g, URef.field g ∈ rs ∧ g.role = .measure ∧ g.type ≠ "cumulative" ∧ g.canonDate = c := by
  unfold numberDates
  rw [List.mem_filterMap]
  constructor
  · rintro ⟨r, hr, h⟩
    cases r with
    | field g =>
      simp only at h
      split at h
      · rename_i hg; cases h; exact ⟨g, hr, hg.1, hg.2, rfl⟩
      · cases h
    | _ => cases h
  · rintro ⟨g, hr, h1, h2, h3⟩
    exact ⟨_, hr, by simp [h1, h2, h3]⟩

theorem dedup_two {α : Type} [DecidableEq α] (l : List α) : l.dedup.length > 1 ↔ ∃ a ∈ l, ∃ b ∈ l, a ≠ b := by
  constructor
  · intro h
    match hd : l.dedup with
    | [] => rw [hd] at h; simp at h
    | [a] => rw [hd] at h; simp at h
    | a :: b :: t =>
      have hn := List.nodup_dedup l
      rw [hd] at hn
      refine ⟨a, ?_, b, ?_, ?_⟩
      · rw [← List.mem_dedup, hd]; simp
      · rw [← List.mem_dedup, hd]; simp
      · intro e; subst e; simp at hn
  · rintro ⟨a, ha, b, hb, hne⟩
    rw [← List.mem_dedup] at ha hb
    match hd : l.dedup with
    | [] => rw [hd] at ha; cases ha
    | [c] =>
      rw [hd] at ha hb
      simp only [List.mem_singleton] at ha hb
      exact absurd (ha.trans hb.symm) hne
    | _ :: _ :: _ => simp

theorem mergedMetric_iff {env : CheckEnv} {name : String} {d : FDef} {b : Bool}
    (h : mergedMetric env name (qualifyFilters env.view d) = .ok b) : b = true ↔ MergedMetric env name d := by
  unfold mergedMetric at h
  rw [dictGet_qualifyFilters _ _ _ (by decide), textAt_qualifyFilters _ _ _ (by decide), textAt_qualifyFilters _ _ _ (by decide)] at h
  cases hk : dictGet d "is_merged_result" with
  | some v =>
    rw [hk] at h
    cases h
    have : v.truthy = true ↔ IsSet d "is_merged_result" := by
      rw [← truthyOpt_iff, hk]; rfl
    rw [this]
    constructor
    · exact .declared
    · intro hm
      cases hm with
      | declared h => exact h
      | dates hn => exact absurd ⟨v, hk⟩ hn
  | none =>
    rw [hk] at h
    have hn : ¬ HasKey d "is_merged_result" := by rintro ⟨v, hv⟩; exact given_none hk v hv
    have hs : ¬ IsSet d "is_merged_result" := by rintro ⟨v, hv, _⟩; exact given_none hk v hv
    simp only at h
    by_cases hc : textAt d "type" = some "number" ∧ textAt d "field_type" = some "measure"
    · rw [if_pos hc] at h
      have h1 := (textAt_iff _ _ _).mp hc.1
      have h2 := (textAt_iff _ _ _).mp hc.2
      cases hf : fieldSql env name (qualifyFilters env.view d) with
      | error e => rw [hf] at h; cases h
      | ok s =>
        rw [hf] at h
        simp only [checkedField_qualifyFilters] at h
        cases hr : sqlRefs env.get env.depth (checkedField env name d s) with
        | error e =>
          rw [hr] at h
          have hb : b = false := by cases e <;> simp at h; exact h
          rw [hb]
          simp only [Bool.false_eq_true, false_iff]
          intro hm
          cases hm with
          | declared h => exact hs h
          | dates _ _ _ hf' hr' =>
            unfold ownSql at hf'; rw [hf] at hf'; cases hf'
            rw [hr] at hr'; cases hr'
        | ok rs =>
          rw [hr] at h
          cases h
          rw [decide_eq_true_iff, dedup_two]
          constructor
          · rintro ⟨a, ha, c, hc, hne⟩
            obtain ⟨g, hg, g1, g2, rfl⟩ := mem_numberDates.mp ha
            obtain ⟨k, hk, k1, k2, rfl⟩ := mem_numberDates.mp hc
            exact .dates hn h1 h2 hf hr hg hk g1 k1 g2 k2 hne
          · intro hm
            cases hm with
            | declared h => exact absurd h hs
            | dates _ _ _ hf' hr' hg hk g1 k1 g2 k2 hne =>
              unfold ownSql at hf'; rw [hf] at hf'; cases hf'
              rw [hr] at hr'; cases hr'
              exact ⟨_, mem_numberDates.mpr ⟨_, hg, g1, g2, rfl⟩, _, mem_numberDates.mpr ⟨_, hk, k1, k2, rfl⟩, hne⟩
    · rw [if_neg hc] at h
      cases h
      simp only [Bool.false_eq_true, false_iff]
      intro hm
      cases hm with
      | declared h => exact hs h
      | dates _ h1 h2 => exact hc ⟨(textAt_iff _ _ _).mpr h1, (textAt_iff _ _ _).mpr h2⟩

theorem measureDateChecks_says {env : CheckEnv} {name : String} {d : FDef} {p : FieldProblem}
    (hok : ∃ ps, measureDateChecks env name (qualifyFilters env.view d) = .ok ps) :
    Says (measureDateChecks env name (qualifyFilters env.view d)) p ↔
      (¬ IsSet d "canon_date" ∧ ∀ c, ¬ DateIs env d c) ∧
        ((p = .noDateMerged ∧ MergedMetric env name d) ∨ (p = .noDate ∧ ¬ MergedMetric env name d)) := by
  unfold measureDateChecks at *
  rw [canonVal_q] at *
  rcases canonVal_cases env d with ⟨h, hs, hn, hd⟩ | ⟨c, h, hd, hu, ht⟩ | ⟨h, hn, hd⟩
  · rw [h]; simp [says_ok, hs]
  · rw [h]
    simp only [says_ok, List.not_mem_nil, false_iff]
    rintro ⟨⟨_, hn⟩, _⟩; exact hn c hd
  · rw [h] at hok ⊢
    simp only at hok ⊢
    cases hm : mergedMetric env name (qualifyFilters env.view d) with
    | error e => rw [hm] at hok; obtain ⟨_, hok⟩ := hok; cases hok
    | ok b =>
      simp only [says_ok, List.mem_singleton, hn, hd, not_false_eq_true, implies_true, and_self, true_and]
      rw [← mergedMetric_iff hm]
      cases b <;> simp

theorem measureSqlChecks_says {env : CheckEnv} {name : String} {d : FDef} {p : FieldProblem}
    (hok : ∃ ps, measureSqlChecks env name (qualifyFilters env.view d) = .ok ps) :
    Says (measureSqlChecks env name (qualifyFilters env.view d)) p ↔ ¬ Given d "type" (.str "cumulative") ∧
      ((p = .missing "sql" ∧ ¬ HasKey d "sql") ∨ (p = .wrongKind "sql" ∧ GivenNot d "sql" Text) ∨
       (GivesText d "sql" ∧ ∃ s, ownSql env name d = .ok (some (.str s)) ∧ SqlProblem env name d (some (.str s)) s p)) := by
  unfold measureSqlChecks at *
  rw [dictGet_qualifyFilters _ _ _ (by decide), textAt_qualifyFilters _ _ _ (by decide)] at *
  rw [← textAt_iff]
  by_cases ht : textAt d "type" = some "cumulative"
  · rw [if_pos ht] at hok ⊢
    cases hf : fieldSql env name (qualifyFilters env.view d) with
    | error e => rw [hf] at hok; obtain ⟨_, hok⟩ := hok; cases hok
    | ok s => simp [says_ok, ht]
  · rw [if_neg ht] at hok ⊢
    simp only [ht, not_false_eq_true, true_and]
    unfold HasKey GivenNot GivesText
    cases h : dictGet d "sql" with
    | none => simp [says_ok, given_none h]
    | some v =>
      rw [h] at hok
      simp only [given_some h]
      cases v with
      | str s =>
        simp only at hok ⊢
        rw [ownSqlChecks_says hok]
        simp [Text]
      | _ => simp [says_ok, Text]

theorem cumMeasureChecks_says {env : CheckEnv} {d : FDef} {p : FieldProblem} (hok : ∃ ps, cumMeasureChecks env d = .ok ps) :
    Says (cumMeasureChecks env d) p ↔ (p = .missing "measure" ∧ ¬ HasKey d "measure") ∨
      (p = .wrongKind "measure" ∧ GivenNot d "measure" Text) ∨ (p = .measureUnreachable ∧ ¬ IsSet d "measure") ∨
      ∃ m, Given d "measure" (.str m) ∧ m ≠ "" ∧
        ((p = .measureUnreachable ∧ (Unknown (env.get env.view m) ∨ env.get env.view m = .error .query)) ∨
         (p = .notMeasure ∧ ∃ g, env.get env.view m = .ok g ∧ g.role ≠ .measure)) := by
  unfold cumMeasureChecks at *
  unfold HasKey GivenNot IsSet
  cases h : dictGet d "measure" with
  | none => simp [says_ok, given_none h]
  | some v =>
    rw [h] at hok
    simp only [given_some h]
    cases v with
    | str m =>
      by_cases hm : m = ""
      · subst hm
        have : Nothing (.str "") := .text
        simp [says_ok, Text, this]
      · have hn : ¬ Nothing (.str m) := by intro c; cases c; exact hm rfl
        simp only [if_neg hm] at hok ⊢
        cases hg : env.get env.view m with
        | ok g => by_cases hr : g.role = .measure <;> simp [says_ok, Text, hn, hm, hg, hr, Unknown]
        | error e =>
          rw [hg] at hok
          cases e <;> simp only at hok <;>
            first
            | (simp [says_ok, Text, hn, hm, hg, Unknown]; done)
            | (obtain ⟨_, hok⟩ := hok; cases hok)
    | _ =>
      simp only at hok ⊢
      split at hok
      · obtain ⟨_, hok⟩ := hok; cases hok
      · rename_i ht
        have hn := (truthy_iff _).mp (by simpa using ht)
        rw [if_neg ht, says_ok]
        simp [Text, hn]

theorem distinctChecks_says {env : CheckEnv} {d : FDef} {p : FieldProblem} (hok : ∃ ps, distinctChecks env d = .ok ps) :
    Says (distinctChecks env d) p ↔
      (p = .missing "sql_distinct_key" ∧ ¬ IsSet d "sql_distinct_key" ∧ ∃ t ∈ ["sum_distinct", "average_distinct"], Given d "type" (.str t)) ∨
      (p = .wrongKind "sql_distinct_key" ∧ IsSet d "sql_distinct_key" ∧ GivenNot d "sql_distinct_key" Text) ∨
      ∃ s n, Given d "sql_distinct_key" (.str s) ∧ n.toList ∈ fieldsToReplace s.toList ∧ n ≠ "TABLE" ∧ Unknown (env.get env.view n) ∧
        p = .distinctUnknown n := by
  unfold distinctChecks at *
  rw [← truthyOpt_iff]
  by_cases ht : truthyOpt (dictGet d "sql_distinct_key") = false
  · rw [if_pos ht, says_ok, if_mem]
    have h1 : typeIn ["sum_distinct", "average_distinct"] d = true ↔ ∃ t ∈ ["sum_distinct", "average_distinct"], Given d "type" (.str t) := by
      rw [← Bool.not_eq_false, typeIn_iff]
      constructor
      · intro h
        refine Classical.byContradiction fun hc => h (fun v hv hw => ?_)
        obtain ⟨s, hs, rfl⟩ := hw
        exact hc ⟨s, hs, hv⟩
      · rintro ⟨t, ht, hg⟩ h
        exact h _ hg ⟨t, ht, rfl⟩
    have h2 : ∀ (s n : String), Given d "sql_distinct_key" (.str s) → n.toList ∈ fieldsToReplace s.toList → False := by
      intro s n hg hm
      unfold Given at hg
      rw [hg] at ht
      have : s = "" := by simpa [truthyOpt, Yaml.truthy] using ht
      subst this
      simp [fieldsToReplace, refsGo] at hm
    rw [h1]
    constructor
    · rintro ⟨hp, h⟩; exact .inl ⟨hp, by simp [ht], h⟩
    · rintro (⟨hp, _, h⟩ | ⟨_, h, _⟩ | ⟨s, n, hg, hm, _⟩)
      · exact ⟨hp, h⟩
      · rw [ht] at h; cases h
      · exact (h2 s n hg hm).elim
  · rw [if_neg ht] at hok ⊢
    have ht' : truthyOpt (dictGet d "sql_distinct_key") = true := by simpa using ht
    simp only [ht', not_true_eq_false, false_and, and_false, false_or, true_and]
    cases hs : textAt d "sql_distinct_key" with
    | none =>
      have hno : ∀ s, ¬ Given d "sql_distinct_key" (.str s) := by
        intro s hg; rw [(textAt_iff _ _ _).mpr hg] at hs; cases hs
      have hgn : GivenNot d "sql_distinct_key" Text := by
        cases h : dictGet d "sql_distinct_key" with
        | none => rw [h] at ht'; cases ht'
        | some v => exact ⟨v, h, by rintro ⟨s, rfl⟩; exact hno s h⟩
      simp [says_ok, hno, hgn]
    | some s =>
      rw [hs] at hok
      simp only at hok ⊢
      have hg := (textAt_iff _ _ _).mp hs
      have hnot : ¬ GivenNot d "sql_distinct_key" Text := by
        rintro ⟨v, hv, hn⟩; cases given_unique hg hv; exact hn ⟨s, rfl⟩
      rw [says_forEach hok]
      simp only [hnot, and_false, false_or]
      constructor
      · rintro ⟨n, hn, hp⟩
        obtain ⟨m, hm, rfl⟩ := List.mem_map.mp hn
        by_cases htab : String.ofList m = "TABLE"
        · rw [if_pos htab] at hp; simp [says_ok] at hp
        · rw [if_neg htab, missingField_says] at hp
          have e : (String.ofList m).toList = m := String.toList_ofList
          exact ⟨s, _, hg, by rw [e]; exact hm, htab, hp.2, hp.1⟩
      · rintro ⟨s', n, hg', hm, htab, hu, rfl⟩
        cases given_unique hg hg'
        refine ⟨n, List.mem_map.mpr ⟨_, hm, String.ofList_toList⟩, ?_⟩
        rw [if_neg htab, missingField_says]
        exact ⟨rfl, hu⟩

/-! ### Non additive dimensions -/

theorem qualifyAll_ok {view : String} : ∀ {l r : List Yaml}, qualifyAll view l = .ok r →
    ∃ ss : List String, l = ss.map .str ∧ r = (ss.map (qualifyRef view)).map .str
  | [], r, h => by cases h; exact ⟨[], rfl, rfl⟩
  | .str s :: l, r, h => by
    simp only [qualifyAll] at h
    cases hl : qualifyAll view l with
    | error e => rw [hl] at h; cases h
    | ok r' =>
      rw [hl] at h; cases h
      obtain ⟨ss, e1, e2⟩ := qualifyAll_ok hl
      exact ⟨s :: ss, by simp [e1], by simp [e2]⟩
  | .null :: _, r, h => by cases h
  | .bool _ :: _, r, h => by cases h
  | .int _ :: _, r, h => by cases h
  | .float _ :: _, r, h => by cases h
  | .list _ :: _, r, h => by cases h
  | .dict _ :: _, r, h => by cases h

/-- How the names of a non additive dimension are qualified. -/
structure QualifiedWindow (view : String) (q r : FDef) : Prop where
  name : ∃ s, Given q "name" (.str s) ∧ Given r "name" (.str (qualifyRef view s))
  other : ∀ k, k ≠ "name" → k ≠ "window_groupings" → dictGet r k = dictGet q k
  keys : ∀ k, HasKey r k ↔ HasKey q k
  groupings : (∃ ss : List String, Given q "window_groupings" (.list (ss.map .str)) ∧
      Given r "window_groupings" (.list ((ss.map (qualifyRef view)).map .str))) ∨
    ((∀ l, ¬ Given q "window_groupings" (.list l)) ∧ dictGet r "window_groupings" = dictGet q "window_groupings")

theorem qualifyGroupings_ok {view : String} {q r : FDef} (h : qualifyGroupings view q = .ok r) :
    (∀ k, k ≠ "window_groupings" → dictGet r k = dictGet q k) ∧ (∀ k, HasKey r k ↔ HasKey q k) ∧
    ((∃ ss : List String, Given q "window_groupings" (.list (ss.map .str)) ∧
      Given r "window_groupings" (.list ((ss.map (qualifyRef view)).map .str))) ∨
    ((∀ l, ¬ Given q "window_groupings" (.list l)) ∧ dictGet r "window_groupings" = dictGet q "window_groupings")) := by
  unfold qualifyGroupings at h
  cases hg : dictGet q "window_groupings" with
  | none =>
    rw [hg] at h; cases h
    exact ⟨fun _ _ => rfl, fun _ => Iff.rfl, .inr ⟨fun l => given_none hg _, hg⟩⟩
  | some v =>
    rw [hg] at h
    cases v with
    | list l =>
      simp only at h
      by_cases hl : l.isEmpty = true
      · rw [if_pos hl] at h; cases h
        have : l = [] := by simpa using hl
        subst this
        exact ⟨fun _ _ => rfl, fun _ => Iff.rfl, .inl ⟨[], hg, hg⟩⟩
      · rw [if_neg hl] at h
        cases ha : qualifyAll view l with
        | error e => rw [ha] at h; cases h
        | ok r' =>
          rw [ha] at h; cases h
          obtain ⟨ss, rfl, rfl⟩ := qualifyAll_ok ha
          refine ⟨fun k hk => ?_, fun k => ?_, .inl ⟨ss, hg, ?_⟩⟩
          · rw [dictGet_set, if_neg (fun e => hk e.symm)]
          · unfold HasKey Given
            simp only [dictGet_set]
            by_cases hk : "window_groupings" = k
            · subst hk; simp [hg]
            · simp [hk]
          · unfold Given; rw [dictGet_set, if_pos rfl]
    | _ =>
      cases h
      exact ⟨fun _ _ => rfl, fun _ => Iff.rfl, .inr ⟨fun l hl => (by have := (given_some hg _).mp hl; cases this), hg⟩⟩

theorem nonAdditive_dict {env : CheckEnv} {d q : FDef} (hq : Given d "non_additive_dimension" (.dict q)) (hne : q ≠ []) {v : NonAddVal}
    (h : nonAdditive env d = .ok v) : ∃ r, v = .dict r ∧ QualifiedWindow env.view q r := by
  unfold nonAdditive at h
  unfold Given at hq
  rw [hq] at h
  have hne' : ¬ q.isEmpty = true := by simpa using hne
  simp only [if_neg hne'] at h
  cases hn : dictGet q "name" with
  | none => rw [hn] at h; cases h
  | some w =>
    rw [hn] at h
    cases w with
    | str s =>
      simp only at h
      cases hg : qualifyGroupings env.view (dictSet q "name" (.str (qualifyRef env.view s))) with
      | error e => rw [hg] at h; cases h
      | ok r =>
        rw [hg] at h; cases h
        obtain ⟨h1, h2, h3⟩ := qualifyGroupings_ok hg
        have hw : dictGet (dictSet q "name" (.str (qualifyRef env.view s))) "window_groupings" = dictGet q "window_groupings" := by
          rw [dictGet_set, if_neg (by decide)]
        refine ⟨r, rfl, ⟨⟨s, hn, ?_⟩, fun k hk hk' => ?_, fun k => ?_, ?_⟩⟩
        · unfold Given; rw [h1 _ (by decide), dictGet_set, if_pos rfl]
        · rw [h1 k hk', dictGet_set, if_neg (fun e => hk e.symm)]
        · rw [h2 k]
          unfold HasKey Given
          simp only [dictGet_set]
          by_cases hk : "name" = k
          · subst hk; simp [hn]
          · simp [hk]
        · unfold Given at h3 ⊢
          rw [hw] at h3
          exact h3
    | _ => cases h

theorem windowDateChecks_says {env : CheckEnv} {n : String} {p : FieldProblem} :
    Says (windowDateChecks env n) p ↔ (p = .windowUnknown ∧ Unknown (env.get env.view n)) ∨
      (p = .windowNotTime ∧ ∃ g, env.get env.view n = .ok g ∧ NotTime g) := by
  unfold windowDateChecks Unknown
  cases h : env.get env.view n with
  | ok g =>
    simp only [says_ok, if_mem, reduceCtorEq, and_false, false_or, Except.ok.injEq, exists_eq_left']
    rfl
  | error e => cases e <;> simp [says_ok, says_error]

theorem windowChoiceChecks_says {q : FDef} {p : FieldProblem} :
    Says (windowChoiceChecks q) p ↔ p = .windowChoice ∧ GivenNot q "window_choice" (Word ["min", "max"]) := by
  unfold windowChoiceChecks GivenNot
  cases h : dictGet q "window_choice" with
  | none => simp [says_error, given_none h]
  | some v =>
    simp only [given_some h, says_ok, if_not_mem, exists_eq_left']
    rw [← oneOf_iff]
    simp only [Bool.not_eq_true]
    have : v.oneOf ["max", "min"] = v.oneOf ["min", "max"] := by
      cases v <;> simp [Yaml.oneOf, Yaml.text?, Bool.or_comm]
    rw [this]

theorem windowGroupingChecks_says {env : CheckEnv} {q r : FDef} (hw : QualifiedWindow env.view q r) {p : FieldProblem}
    (hok : ∃ ps, windowGroupingChecks env r = .ok ps) :
    Says (windowGroupingChecks env r) p ↔ (p = .windowKind "window_groupings" ∧ GivenNot q "window_groupings" Listed) ∨
      ∃ l s n, Given q "window_groupings" (.list l) ∧ Yaml.str s ∈ l ∧ Qualified env.view s n ∧
        ((p = .windowGroupingUnknown n ∧ Unknown (env.get env.view n)) ∨
         (p = .windowGroupingKind n ∧ ∃ g, env.get env.view n = .ok g ∧ g.role = .measure)) := by
  have one : ∀ n, Says (windowGroupingCheck env (.str n)) p ↔ (p = .windowGroupingUnknown n ∧ Unknown (env.get env.view n)) ∨
      (p = .windowGroupingKind n ∧ ∃ g, env.get env.view n = .ok g ∧ g.role = .measure) := by
    intro n
    unfold windowGroupingCheck Unknown
    cases h : env.get env.view n with
    | ok g => simp only [h, says_ok, if_mem, reduceCtorEq, and_false, false_or, Except.ok.injEq, exists_eq_left']
    | error e => cases e <;> simp [h, says_ok, says_error]
  unfold windowGroupingChecks at *
  rcases hw.groupings with ⟨ss, h1, h2⟩ | ⟨hn, he⟩
  · have hnot : ¬ GivenNot q "window_groupings" Listed := by
      rintro ⟨v, hv, hx⟩; cases given_unique h1 hv; exact hx ⟨_, rfl⟩
    simp only [hnot, and_false, false_or]
    unfold Given at h2
    rw [h2] at hok ⊢
    simp only at hok ⊢
    rw [says_forEach hok]
    constructor
    · rintro ⟨v, hv, hp⟩
      obtain ⟨n, hn, rfl⟩ := List.mem_map.mp hv
      obtain ⟨s, hs, rfl⟩ := List.mem_map.mp hn
      exact ⟨_, s, _, h1, List.mem_map_of_mem hs, qualified_iff.mpr rfl, (one _).mp hp⟩
    · rintro ⟨l, s, n, hl, hs, hq, hp⟩
      cases given_unique h1 hl
      obtain ⟨s', hs', e⟩ := List.mem_map.mp hs
      cases e
      cases qualified_iff.mp hq
      exact ⟨_, List.mem_map_of_mem (List.mem_map_of_mem hs'), (one _).mpr hp⟩
  · rw [he] at hok ⊢
    have hno : ¬ ∃ l s n, Given q "window_groupings" (.list l) ∧ Yaml.str s ∈ l ∧ Qualified env.view s n ∧
        ((p = .windowGroupingUnknown n ∧ Unknown (env.get env.view n)) ∨
         (p = .windowGroupingKind n ∧ ∃ g, env.get env.view n = .ok g ∧ g.role = .measure)) := by
      rintro ⟨l, s, n, hl, _⟩; exact hn l hl
    simp only [hno, or_false]
    unfold GivenNot
    cases h : dictGet q "window_groupings" with
    | none => simp [says_ok, given_none h]
    | some v =>
      simp only [given_some h]
      cases v with
      | list l => exact absurd h (hn l)
      | _ => simp [says_ok, Listed]

theorem windowChecks_says {env : CheckEnv} {q r : FDef} (hw : QualifiedWindow env.view q r) {p : FieldProblem}
    (hok : ∃ ps, windowChecks env r = .ok ps) : Says (windowChecks env r) p ↔ WindowProblem env q p := by
  have h5 : ∃ ps, windowGroupingChecks env r = .ok ps := by
    obtain ⟨ps, h⟩ := hok
    unfold windowChecks at h
    exact (seqChecks_ok h).1 _ (by simp)
  obtain ⟨s, hs, hs'⟩ := hw.name
  have hname : (textAt r "name").getD "" = qualifyRef env.view s := by rw [(textAt_iff _ _ _).mpr hs']; rfl
  have hother : ∀ k (kind : Yaml → Prop), k ≠ "name" → k ≠ "window_groupings" → (GivenNot r k kind ↔ GivenNot q k kind) := by
    intro k kind h1 h2
    unfold GivenNot Given; rw [hw.other k h1 h2]
  unfold windowChecks at *
  rw [says_seq hok, hname]
  simp only [List.mem_cons, List.not_mem_nil, or_false, exists_eq_or_imp, exists_eq_left, says_ok, windowDateChecks_says,
    windowChoiceChecks_says, wants_kind isBool_iff, windowGroupingChecks_says hw h5, unknownKeys_mem, hw.keys]
  rw [hother _ _ (by decide) (by decide), hother _ _ (by decide) (by decide), hother _ _ (by decide) (by decide)]
  constructor
  · rintro ((⟨rfl, h⟩ | ⟨rfl, g, hg, hn⟩) | ⟨rfl, h⟩ | ⟨rfl, h⟩ | ⟨rfl, h⟩ | (⟨rfl, h⟩ | ⟨l, t, n, h1, h2, h3, ⟨rfl, h⟩ | ⟨rfl, g, hg, hr⟩⟩) |
      ⟨k, h1, h2, rfl⟩)
    · exact .unknown hs (qualified_iff.mpr rfl) h
    · exact .notTime hs (qualified_iff.mpr rfl) hg hn
    · exact .choice h
    · exact .flag (by simp) h
    · exact .flag (by simp) h
    · exact .groupings h
    · exact .groupingUnknown h1 h2 h3 h
    · exact .groupingKind h1 h2 h3 hg hr
    · refine .key h1 (fun hc => h2 ?_)
      simp only [List.mem_cons, List.not_mem_nil, or_false] at hc ⊢
      tauto
  · intro hp
    cases hp with
    | unknown h1 h2 h =>
      cases given_unique hs h1
      cases qualified_iff.mp h2
      exact .inl (.inl ⟨rfl, h⟩)
    | notTime h1 h2 hg hn =>
      cases given_unique hs h1
      cases qualified_iff.mp h2
      exact .inl (.inr ⟨rfl, _, hg, hn⟩)
    | choice h => exact .inr (.inl ⟨rfl, h⟩)
    | flag hk h =>
      simp only [List.mem_cons, List.not_mem_nil, or_false] at hk
      rcases hk with rfl | rfl
      · exact .inr (.inr (.inl ⟨rfl, h⟩))
      · exact .inr (.inr (.inr (.inl ⟨rfl, h⟩)))
    | groupings h => exact .inr (.inr (.inr (.inr (.inl (.inl ⟨rfl, h⟩)))))
    | groupingUnknown h1 h2 h3 h => exact .inr (.inr (.inr (.inr (.inl (.inr ⟨_, _, _, h1, h2, h3, .inl ⟨rfl, h⟩⟩)))))
    | groupingKind h1 h2 h3 hg hr => exact .inr (.inr (.inr (.inr (.inl (.inr ⟨_, _, _, h1, h2, h3, .inr ⟨rfl, _, hg, hr⟩⟩)))))
    | key h1 h2 =>
      refine .inr (.inr (.inr (.inr (.inr ⟨_, h1, fun hc => h2 ?_, rfl⟩))))
      simp only [List.mem_cons, List.not_mem_nil, or_false] at hc ⊢
      tauto

theorem nonAdditiveChecks_says {env : CheckEnv} {d : FDef} {p : FieldProblem} (hok : ∃ ps, nonAdditiveChecks env d = .ok ps) :
    Says (nonAdditiveChecks env d) p ↔ (p = .wrongKind "non_additive_dimension" ∧ GivenNot d "non_additive_dimension" Dictionary) ∨
      (p = .missing "non_additive_dimension.name" ∧ Given d "non_additive_dimension" (.dict [])) ∨
      ∃ q, Given d "non_additive_dimension" (.dict q) ∧ q ≠ [] ∧ WindowProblem env q p := by
  unfold nonAdditiveChecks at *
  unfold GivenNot
  cases h : dictGet d "non_additive_dimension" with
  | none => simp [says_ok, given_none h]
  | some v =>
    rw [h] at hok
    cases v with
    | dict q =>
      simp only at hok ⊢
      by_cases hq : q = []
      · subst hq
        simp [says_ok, given_some h, Dictionary]
      · have hq' : ¬ q.isEmpty = true := by simpa using hq
        rw [if_neg hq'] at hok ⊢
        cases hn : nonAdditive env d with
        | error e => rw [hn] at hok; obtain ⟨_, hok⟩ := hok; cases hok
        | ok v =>
          rw [hn] at hok
          obtain ⟨r, rfl, hw⟩ := nonAdditive_dict h hq hn
          simp only at hok ⊢
          rw [windowChecks_says hw hok]
          simp [given_some h, Dictionary, hq]
    | _ => simp [says_ok, given_some h, Dictionary]

theorem measureChecks_says {env : CheckEnv} {name : String} {d : FDef} {p : FieldProblem}
    (hok : ∀ c ∈ measureChecks env name (qualifyFilters env.view d), ∃ ps, c = .ok ps) :
    (∃ c ∈ measureChecks env name (qualifyFilters env.view d), Says c p) ↔ MeasureProblem env name d p := by
  have h3 : ∃ ps, measureDateChecks env name (qualifyFilters env.view d) = .ok ps := hok _ (by simp [measureChecks])
  have h4 : ∃ ps, measureSqlChecks env name (qualifyFilters env.view d) = .ok ps := hok _ (by simp [measureChecks])
  have h6 : ∃ ps, distinctChecks env d = .ok ps := by
    rw [← distinctChecks_q]; exact hok _ (by simp [measureChecks])
  have h7 : ∃ ps, nonAdditiveChecks env d = .ok ps := by
    rw [← nonAdditiveChecks_q]; exact hok _ (by simp [measureChecks])
  have h5 : ∀ c ∈ cumulativeChecks env d, ∃ ps, c = .ok ps := by
    intro c hc
    rw [← cumulativeChecks_q] at hc
    exact hok c (by unfold measureChecks; simp [hc])
  have hcum : (∃ c ∈ cumulativeChecks env d, Says c p) ↔ Given d "type" (.str "cumulative") ∧
      (((p = .missing "measure" ∧ ¬ HasKey d "measure") ∨
      (p = .wrongKind "measure" ∧ GivenNot d "measure" Text) ∨ (p = .measureUnreachable ∧ ¬ IsSet d "measure") ∨
      ∃ m, Given d "measure" (.str m) ∧ m ≠ "" ∧
        ((p = .measureUnreachable ∧ (Unknown (env.get env.view m) ∨ env.get env.view m = .error .query)) ∨
         (p = .notMeasure ∧ ∃ g, env.get env.view m = .ok g ∧ g.role ≠ .measure))) ∨
      (p = .wrongKind "cumulative_where" ∧ GivenNot d "cumulative_where" Text) ∨
      (p = .wrongKind "update_where_timeframe" ∧ GivenNot d "update_where_timeframe" Flag)) := by
    unfold cumulativeChecks at *
    rw [← textAt_iff]
    by_cases ht : textAt d "type" = some "cumulative"
    · rw [if_pos ht] at h5 ⊢
      have := h5 _ List.mem_cons_self
      simp only [List.mem_cons, List.not_mem_nil, or_false, exists_eq_or_imp, exists_eq_left, says_ok, cumMeasureChecks_says this,
        wants_kind isStr_iff, wants_kind isBool_iff, ht, true_and]
    · rw [if_neg ht]; simp [ht]
  have app : ∀ (a b : List (Res (List FieldProblem))), (∃ c ∈ a ++ b, Says c p) ↔ (∃ c ∈ a, Says c p) ∨ ∃ c ∈ b, Says c p := by
    intro a b
    simp only [List.mem_append, or_and_right, exists_or]
  unfold measureChecks
  rw [app, app, cumulativeChecks_q, hcum, typeIn_q, dictGet_qualifyFilters _ _ _ (by decide), wants_q _ _ _ _ _ (by decide),
    distinctChecks_q, nonAdditiveChecks_q]
  simp only [List.mem_cons, List.not_mem_nil, or_false, exists_eq_or_imp, exists_eq_left, says_ok, measureDateChecks_says h3,
    measureSqlChecks_says h4, distinctChecks_says h6, nonAdditiveChecks_says h7, wants_kind isBool_iff, if_mem, if_not_mem,
    typeIn_not, isSome_iff_hasKey]
  constructor
  · rintro (((⟨rfl, h⟩ | ⟨rfl, h⟩ | ⟨⟨h1, h2⟩, ⟨rfl, h⟩ | ⟨rfl, h⟩⟩ | ⟨hc, ⟨rfl, h⟩ | ⟨rfl, h⟩ | ⟨h1, s, h2, h⟩⟩ | ⟨rfl, h⟩) |
      ⟨hc, (⟨rfl, h⟩ | ⟨rfl, h⟩ | ⟨rfl, h⟩ | ⟨m, h1, h2, ⟨rfl, h⟩ | ⟨rfl, g, hg, hr⟩⟩) | ⟨rfl, h⟩ | ⟨rfl, h⟩⟩) |
      ((⟨rfl, h1, h2 | h2⟩ | ⟨rfl, h1, h2⟩ | ⟨s, n, h1, h2, h3, h4, rfl⟩) | (⟨rfl, h⟩ | ⟨rfl, h⟩ | ⟨q, h1, h2, h⟩)))
    · exact .type h
    · exact .primaryKey h
    · exact .noDateMerged h1 h2 h
    · exact .noDate h1 h2 h
    · exact .noSql hc h
    · exact .sqlKind hc h
    · exact .sql hc h1 h2 h
    · exact .merged h
    · exact .noMeasure hc h
    · exact .measureKind hc h
    · exact .measureUnset hc h
    · exact .measureUnknown hc h1 h2 h
    · exact .notMeasure hc h1 h2 hg hr
    · exact .whereKind hc h
    · exact .updateKind hc h
    · exact .noDistinct (t := "sum_distinct") (by simp) h2 h1
    · exact .noDistinct (t := "average_distinct") (by simp) h2 h1
    · exact .distinctKind h1 h2
    · exact .distinct h1 h2 h3 h4
    · exact .windowKind h
    · exact .windowEmpty h
    · exact .window h1 h2 h
  · intro hp
    cases hp with
    | type h => exact .inl (.inl (.inl ⟨rfl, h⟩))
    | primaryKey h => exact .inl (.inl (.inr (.inl ⟨rfl, h⟩)))
    | noDateMerged h1 h2 h => exact .inl (.inl (.inr (.inr (.inl ⟨⟨h1, h2⟩, .inl ⟨rfl, h⟩⟩))))
    | noDate h1 h2 h => exact .inl (.inl (.inr (.inr (.inl ⟨⟨h1, h2⟩, .inr ⟨rfl, h⟩⟩))))
    | noSql hc h => exact .inl (.inl (.inr (.inr (.inr (.inl ⟨hc, .inl ⟨rfl, h⟩⟩)))))
    | sqlKind hc h => exact .inl (.inl (.inr (.inr (.inr (.inl ⟨hc, .inr (.inl ⟨rfl, h⟩)⟩)))))
    | sql hc h1 h2 h => exact .inl (.inl (.inr (.inr (.inr (.inl ⟨hc, .inr (.inr ⟨h1, _, h2, h⟩)⟩)))))
    | merged h => exact .inl (.inl (.inr (.inr (.inr (.inr ⟨rfl, h⟩)))))
    | noMeasure hc h => exact .inl (.inr ⟨hc, .inl (.inl ⟨rfl, h⟩)⟩)
    | measureKind hc h => exact .inl (.inr ⟨hc, .inl (.inr (.inl ⟨rfl, h⟩))⟩)
    | measureUnset hc h => exact .inl (.inr ⟨hc, .inl (.inr (.inr (.inl ⟨rfl, h⟩)))⟩)
    | measureUnknown hc h1 h2 h => exact .inl (.inr ⟨hc, .inl (.inr (.inr (.inr ⟨_, h1, h2, .inl ⟨rfl, h⟩⟩)))⟩)
    | notMeasure hc h1 h2 hg hr => exact .inl (.inr ⟨hc, .inl (.inr (.inr (.inr ⟨_, h1, h2, .inr ⟨rfl, _, hg, hr⟩⟩)))⟩)
    | whereKind hc h => exact .inl (.inr ⟨hc, .inr (.inl ⟨rfl, h⟩)⟩)
    | updateKind hc h => exact .inl (.inr ⟨hc, .inr (.inr ⟨rfl, h⟩)⟩)
    | noDistinct h2 h3 h1 =>
      simp only [List.mem_cons, List.not_mem_nil, or_false] at h2
      rcases h2 with rfl | rfl
      · exact .inr (.inl (.inl ⟨rfl, h1, .inl h3⟩))
      · exact .inr (.inl (.inl ⟨rfl, h1, .inr h3⟩))
    | distinctKind h1 h2 => exact .inr (.inl (.inr (.inl ⟨rfl, h1, h2⟩)))
    | distinct h1 h2 h3 h4 => exact .inr (.inl (.inr (.inr ⟨_, _, h1, h2, h3, h4, rfl⟩)))
    | windowKind h => exact .inr (.inr (.inl ⟨rfl, h⟩))
    | windowEmpty h => exact .inr (.inr (.inr (.inl ⟨rfl, h⟩)))
    | window h1 h2 h => exact .inr (.inr (.inr (.inr ⟨_, h1, h2, h⟩)))

theorem reservedNames_mem (name : String) : name ∈ reservedNames ↔
    name ∈ ["date", "week", "month", "quarter", "year", "day_of_year", "week_of_year", "month_of_year"] :=
  List.Perm.mem_iff (by decide)

theorem nameChecks_plain {env : CheckEnv} {name ft : String} {d : FDef} {p : FieldProblem} (h : p ∈ nameChecks name ft) :
    PlainProblem env name ft d p := by
  rw [nameChecks_mem, validName_false, reservedNames_mem] at h
  rcases h with ⟨rfl, h⟩ | ⟨rfl, h1, h2⟩
  · exact .name h
  · exact .reserved h1 h2

theorem plainChecks_plain {env : CheckEnv} {name ft : String} {d : FDef} {p : FieldProblem} (h : p ∈ plainChecks d ft) :
    PlainProblem env name ft d p := by
  rw [plainChecks_mem] at h
  rcases h with ⟨rfl, h⟩ | ⟨rfl, h⟩ | ⟨rfl, h1, h2⟩ | ⟨rfl, h⟩ | ⟨rfl, h⟩ | ⟨rfl, h⟩ | ⟨rfl, s, h1, h2⟩ | ⟨rfl, h⟩ | ⟨rfl, s, h1, h2⟩ | ⟨rfl, h⟩ |
    ⟨rfl, h⟩ | ⟨rfl, h⟩
  · exact .fieldType h
  · exact .type h
  · exact .label h1 h2
  · exact .text (by simp) h
  · exact .hidden h
  · exact .text (by simp) h
  · exact .long (by simp) h1 h2
  · exact .text (by simp) h
  · exact .long (by simp) h1 h2
  · exact .format h
  · exact .list (by simp) h
  · exact .item (by simp) h

theorem grantChecks_plain {env : CheckEnv} {name ft : String} {d : FDef} {p : FieldProblem} (h : p ∈ grantChecks env d) :
    PlainProblem env name ft d p := by
  rw [grantChecks_mem] at h
  rcases h with ⟨rfl, h⟩ | ⟨rfl, h⟩ | ⟨l, g, h1, h2, h3, rfl⟩
  · exact .list (by simp) h
  · exact .item (by simp) h
  · exact .grant h1 h2 h3

theorem dateChecks_plain {env : CheckEnv} {name ft : String} {d : FDef} {p : FieldProblem} (h : Says (dateChecks env d) p) :
    PlainProblem env name ft d p := by
  rw [dateChecks_says] at h
  rcases h with ⟨rfl, h1, h2⟩ | ⟨c, h1, h2, ⟨rfl, h3⟩ | ⟨rfl, g, h3, h4⟩⟩
  · exact .dateKind h1 h2
  · exact .dateUnknown h1 h2 h3
  · exact .dateNotTime h1 h2 h3 h4

/-- The list of properties is that of the specification. -/
theorem validKeys_iff (ft k : String) : k ∈ validKeys ft ↔ PropertyOf ft k := by
  unfold validKeys
  rw [List.mem_append]
  constructor
  · rintro (h | h)
    · exact .all h
    · split_ifs at h with h1 h2 h3
      · subst h1; exact .dimension h
      · subst h2; exact .group h
      · subst h3; exact .measure h
      · cases h
  · intro h
    cases h with
    | all h => exact .inl h
    | dimension h => exact .inr h
    | group h => exact .inr h
    | measure h => exact .inr h

theorem plain_found {env : CheckEnv} {name ft : String} {d : FDef} {p : FieldProblem} (hp : PlainProblem env name ft d p) :
    p ∈ nameChecks name ft ∨ p ∈ plainChecks d ft ∨ p ∈ wants d "extra" Yaml.isDict (.wrongKind "extra") ∨ p ∈ grantChecks env d ∨
      Says (dateChecks env d) p ∨ p ∈ unknownKeys (validKeys ft) .unknownKey d := by
  rw [nameChecks_mem, validName_false, reservedNames_mem, plainChecks_mem, wants_kind isDict_iff, grantChecks_mem, dateChecks_says,
    unknownKeys_mem]
  cases hp with
  | name h => exact .inl (.inl ⟨rfl, h⟩)
  | reserved h1 h2 => exact .inl (.inr ⟨rfl, h1, h2⟩)
  | fieldType h => exact .inr (.inl (.inl ⟨rfl, h⟩))
  | type h => exact .inr (.inl (.inr (.inl ⟨rfl, h⟩)))
  | label h1 h2 => exact .inr (.inl (.inr (.inr (.inl ⟨rfl, h1, h2⟩))))
  | text hk h =>
    simp only [List.mem_cons, List.not_mem_nil, or_false] at hk
    rcases hk with rfl | rfl | rfl
    · exact .inr (.inl (.inr (.inr (.inr (.inl ⟨rfl, h⟩)))))
    · exact .inr (.inl (.inr (.inr (.inr (.inr (.inr (.inl ⟨rfl, h⟩)))))))
    · exact .inr (.inl (.inr (.inr (.inr (.inr (.inr (.inr (.inr (.inl ⟨rfl, h⟩)))))))))
  | hidden h => exact .inr (.inl (.inr (.inr (.inr (.inr (.inl ⟨rfl, h⟩))))))
  | long hk h1 h2 =>
    simp only [List.mem_cons, List.not_mem_nil, or_false] at hk
    rcases hk with rfl | rfl
    · exact .inr (.inl (.inr (.inr (.inr (.inr (.inr (.inr (.inl ⟨rfl, _, h1, h2⟩))))))))
    · exact .inr (.inl (.inr (.inr (.inr (.inr (.inr (.inr (.inr (.inr (.inl ⟨rfl, _, h1, h2⟩))))))))))
  | format h => exact .inr (.inl (.inr (.inr (.inr (.inr (.inr (.inr (.inr (.inr (.inr (.inl ⟨rfl, h⟩)))))))))))
  | list hk h =>
    simp only [List.mem_cons, List.not_mem_nil, or_false] at hk
    rcases hk with rfl | rfl
    · exact .inr (.inl (.inr (.inr (.inr (.inr (.inr (.inr (.inr (.inr (.inr (.inr (.inl ⟨rfl, h⟩))))))))))))
    · exact .inr (.inr (.inr (.inl (.inl ⟨rfl, h⟩))))
  | item hk h =>
    simp only [List.mem_cons, List.not_mem_nil, or_false] at hk
    rcases hk with rfl | rfl
    · exact .inr (.inl (.inr (.inr (.inr (.inr (.inr (.inr (.inr (.inr (.inr (.inr (.inr ⟨rfl, h⟩))))))))))))
    · exact .inr (.inr (.inr (.inl (.inr (.inl ⟨rfl, h⟩)))))
  | grant h1 h2 h3 => exact .inr (.inr (.inr (.inl (.inr (.inr ⟨_, _, h1, h2, h3, rfl⟩)))))
  | extra h => exact .inr (.inr (.inl ⟨rfl, h⟩))
  | dateKind h1 h2 => exact .inr (.inr (.inr (.inr (.inl (.inl ⟨rfl, h1, h2⟩)))))
  | dateUnknown h1 h2 h3 => exact .inr (.inr (.inr (.inr (.inl (.inr ⟨_, h1, h2, .inl ⟨rfl, h3⟩⟩)))))
  | dateNotTime h1 h2 h3 h4 => exact .inr (.inr (.inr (.inr (.inl (.inr ⟨_, h1, h2, .inr ⟨rfl, _, h3, h4⟩⟩)))))
  | key h1 h2 => exact .inr (.inr (.inr (.inr (.inr ⟨_, h1, fun h => h2 ((validKeys_iff _ _).mp h), rfl⟩))))

theorem kindChecks_says {env : CheckEnv} {name ft : String} {d : FDef} {p : FieldProblem}
    (hkind : ∀ c ∈ kindChecks env name ft (qualifyFilters env.view d), ∃ ps, c = .ok ps) :
    (∃ c ∈ kindChecks env name ft (qualifyFilters env.view d), Says c p) ↔
      (ft = "dimension" ∧ DimensionProblem env name d p) ∨ (ft = "dimension_group" ∧ GroupProblem env name d p) ∨
      (ft = "measure" ∧ MeasureProblem env name d p) := by
  unfold kindChecks at *
  by_cases h1 : ft = "dimension"
  · subst h1
    rw [if_pos rfl] at hkind ⊢
    rw [dimensionChecks_says hkind]; simp
  · rw [if_neg h1] at hkind ⊢
    by_cases h2 : ft = "dimension_group"
    · subst h2
      rw [if_pos rfl] at hkind ⊢
      rw [groupChecks_says hkind]; simp
    · rw [if_neg h2] at hkind ⊢
      by_cases h3 : ft = "measure"
      · subst h3
        rw [if_pos rfl] at hkind ⊢
        rw [measureChecks_says hkind]; simp
      · rw [if_neg h3]; simp [h1, h2, h3]

/-- Every problem of the specification, and nothing else, is found. -/
theorem fieldProblems_iff {env : CheckEnv} {d : FDef} {name : String} (hname : Given d "name" (.str name)) {ps : List FieldProblem}
    (h : fieldProblems env d = .ok ps) (p : FieldProblem) : p ∈ ps ↔ HasProblem env name ((textAt d "field_type").getD "") d p := by
  unfold fieldProblems at h
  unfold Given at hname
  rw [hname] at h
  simp only at h
  generalize (textAt d "field_type").getD "" = ft at h ⊢
  obtain ⟨hall, hmem⟩ := seqChecks_ok h
  have h3 : ∃ ps, filterChecks env name d = .ok ps := hall _ (by simp)
  have hkind : ∀ c ∈ kindChecks env name ft (qualifyFilters env.view d), ∃ ps, c = .ok ps := by
    intro c hc; exact hall c (by simp [hc])
  have app : ∀ (a b : List (Res (List FieldProblem))), (∃ c ∈ a ++ b, Says c p) ↔ (∃ c ∈ a, Says c p) ∨ ∃ c ∈ b, Says c p := by
    intro a b
    simp only [List.mem_append, or_and_right, exists_or]
  have hm : p ∈ ps ↔ ∃ c ∈ _, Says c p := hmem p
  rw [hm, app, app, kindChecks_says hkind]
  simp only [List.mem_cons, List.not_mem_nil, or_false, exists_eq_or_imp, exists_eq_left, says_ok, filterChecks_says h3]
  constructor
  · rintro (((h | h | h | h | h | h) | (⟨h1, h2⟩ | ⟨h1, h2⟩ | ⟨h1, h2⟩)) | h)
    · exact .plain (nameChecks_plain h)
    · exact .plain (plainChecks_plain h)
    · exact .filter h
    · obtain ⟨rfl, h'⟩ := (wants_kind isDict_iff).mp h
      exact .plain (.extra h')
    · exact .plain (grantChecks_plain h)
    · exact .plain (dateChecks_plain h)
    · exact .dimension h1 h2
    · exact .group h1 h2
    · exact .measure h1 h2
    · obtain ⟨k, h1, h2, rfl⟩ := unknownKeys_mem.mp h
      exact .plain (.key h1 (fun h => h2 ((validKeys_iff _ _).mpr h)))
  · intro hp
    cases hp with
    | plain hp =>
      rcases plain_found hp with h | h | h | h | h | h
      · exact .inl (.inl (.inl h))
      · exact .inl (.inl (.inr (.inl h)))
      · exact .inl (.inl (.inr (.inr (.inr (.inl h)))))
      · exact .inl (.inl (.inr (.inr (.inr (.inr (.inl h))))))
      · exact .inl (.inl (.inr (.inr (.inr (.inr (.inr h))))))
      · exact .inr h
    | filter h => exact .inl (.inl (.inr (.inr (.inl h))))
    | dimension h1 h2 => exact .inl (.inr (.inl ⟨h1, h2⟩))
    | group h1 h2 => exact .inl (.inr (.inr (.inl ⟨h1, h2⟩)))
    | measure h1 h2 => exact .inl (.inr (.inr (.inr ⟨h1, h2⟩)))

end ML
