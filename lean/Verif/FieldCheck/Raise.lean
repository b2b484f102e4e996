import Verif.FieldCheck.ExactMeasure
/-
For which definitions the checks of C62 raise instead of reporting.
-/
set_option autoImplicit false
namespace ML
open Spec

/-- A check raises. -/
def Fails {α : Type} (r : Res α) : Prop := ∃ e, r = .error e

theorem fails_ok {α : Type} {a : α} : ¬ Fails (.ok a : Res α) := by rintro ⟨e, h⟩; cases h

theorem fails_error {α : Type} {e : Err} : Fails (.error e : Res α) := ⟨e, rfl⟩

theorem fails_seq {π : Type} {l : List (Res (List π))} : Fails (seqChecks l) ↔ ∃ c ∈ l, Fails c := by
  induction l with
  | nil => simp [seqChecks, fails_ok]
  | cons c l ih =>
    cases c with
    | error e => simp [seqChecks, fails_error]
    | ok ps =>
      simp only [List.mem_cons, exists_eq_or_imp, fails_ok, false_or, ← ih]
      simp only [seqChecks]
      cases seqChecks l with
      | error e => simp [fails_error]
      | ok qs => simp [fails_ok]

theorem fails_forEach {α π : Type} {f : α → Res (List π)} {l : List α} : Fails (forEach f l) ↔ ∃ a ∈ l, Fails (f a) := by
  unfold forEach
  rw [fails_seq]
  simp

theorem fails_missing {α π : Type} {r : Res α} (h : ∀ e, r = .error e → e = .accessDenied) (p : π) : ¬ Fails (missingField r p) := by
  unfold missingField
  cases r with
  | ok a => exact fails_ok
  | error e => cases h e rfl; exact fails_ok

theorem fails_getValue {env : CheckEnv} (hl : LooksUp env) (v : Yaml) (p : FieldProblem) :
    Fails (missingField (getValue env v) p) ↔ ¬ Text v := by
  cases v with
  | str s =>
    have : ¬ Fails (missingField (getValue env (.str s)) p) := fails_missing (hl.getText s) p
    simp [this, Text]
  | _ => simp [getValue, missingField, fails_error, Text]

theorem fails_filterChecks {env : CheckEnv} (hl : LooksUp env) {name : String} {d : FDef} :
    Fails (filterChecks env name d) ↔ ∃ l f, Given d "filters" (.list l) ∧ Yaml.dict f ∈ l ∧ GivenNot f "field" Text := by
  unfold filterChecks
  cases h : dictGet d "filters" with
  | none => simp [fails_ok, given_none h]
  | some v =>
    simp only [given_some h]
    have key : ∀ f : FDef, Fails (filterCheck env name (qualifyFilter env.view (.dict f))) ↔ GivenNot f "field" Text := by
      intro f
      obtain ⟨f', e, -, hk, -, hn⟩ := qualifyFilter_dict env.view f
      rw [e]
      simp only [filterCheck]
      rw [fails_seq]
      simp only [List.mem_cons, List.not_mem_nil, or_false, exists_eq_or_imp, exists_eq_left, fails_ok, false_or]
      have hg : GivenNot f' "field" Text ↔ GivenNot f "field" Text := by
        unfold GivenNot
        refine exists_congr fun v => ?_
        by_cases ht : Text v
        · simp [ht]
        · simp [ht, hn v ht]
      rw [← hg]
      unfold filterFieldCheck
      cases hf : dictGet f' "field" with
      | none => simp [fails_ok, GivenNot, given_none hf]
      | some v =>
        simp only [fails_getValue hl]
        unfold GivenNot
        simp [given_some hf]
    cases v with
    | list l =>
      simp only [fails_forEach, List.mem_map]
      constructor
      · rintro ⟨_, ⟨v, hv, rfl⟩, hf⟩
        cases v with
        | dict f => exact ⟨l, f, rfl, hv, (key f).mp hf⟩
        | _ => simp [qualifyFilter, filterCheck, fails_ok] at hf
      · rintro ⟨_, f, e, hf, hg⟩
        cases e
        exact ⟨_, ⟨_, hf, rfl⟩, (key f).mpr hg⟩
    | _ =>
      simp only [reduceCtorEq, false_and, exists_false, iff_false]
      split <;> exact fails_ok

theorem fails_dateChecks {env : CheckEnv} (hl : LooksUp env) {d : FDef} : ¬ Fails (dateChecks env d) := by
  unfold dateChecks
  cases canonVal env d with
  | none => exact fails_ok
  | raw => exact fails_ok
  | text c =>
    simp only
    by_cases hc : c = viewDateText env
    · rw [if_pos hc]; exact fails_ok
    · rw [if_neg hc]
      cases hg : env.getByName c with
      | ok g => exact fails_ok
      | error e => rcases hl.getByName c e hg with rfl | rfl <;> exact fails_ok

theorem fails_sqlChecks {env : CheckEnv} {name : String} {d : FDef} {self : Option Yaml} {sql : String} :
    Fails (sqlChecks env name d self sql) ↔ Fails (fieldRefs env.get env.depth (checkedField env name d self)) := by
  unfold sqlChecks
  cases fieldRefs env.get env.depth (checkedField env name d self) with
  | error e => simp [fails_error]
  | ok r => simp [fails_ok]

theorem fails_ownSqlChecks {env : CheckEnv} {name : String} {d : FDef} :
    Fails (ownSqlChecks env name (qualifyFilters env.view d)) ↔ SqlRaises env name d := by
  unfold ownSqlChecks SqlRaises ownSql
  cases h : fieldSql env name (qualifyFilters env.view d) with
  | error e => simp [fails_error]
  | ok v =>
    cases v with
    | none => simp [fails_ok]
    | some v =>
      cases v with
      | str s =>
        simp only [sqlChecks_q, fails_sqlChecks]
        unfold Fails
        simp
      | _ => simp [fails_ok]

theorem fails_dimensionSql {env : CheckEnv} {name : String} {d : FDef} :
    Fails (dimensionSqlChecks env name (qualifyFilters env.view d)) ↔ GivesText d "sql" ∧ ¬ HasKey d "case" ∧ SqlRaises env name d := by
  unfold dimensionSqlChecks
  rw [dictGet_qualifyFilters _ _ _ (by decide), textAt_qualifyFilters _ _ _ (by decide)]
  by_cases hc : (dictGet d "case").isSome = true
  · rw [if_pos hc]
    rw [isSome_iff_hasKey] at hc
    simp [fails_ok, hc]
  · rw [if_neg hc]
    rw [isSome_iff_hasKey] at hc
    by_cases hs : (textAt d "sql").isSome = true
    · rw [if_pos hs, fails_ownSqlChecks]
      rw [textAt_isSome] at hs
      simp [hc, hs]
    · rw [if_neg hs]
      rw [textAt_isSome] at hs
      simp [fails_ok, hs]

theorem fails_drillChecks {env : CheckEnv} (hl : LooksUp env) {d : FDef} :
    Fails (drillChecks env d) ↔ (∃ l e, Given d "drill_fields" (.list l) ∧ l ≠ [] ∧ env.drill l = .error e ∧ e ≠ .attributeError) ∨
      ∃ l, Given d "drill_fields" (.list l) ∧ env.drill l = .error .attributeError ∧ HasItemNot d "drill_fields" Text := by
  unfold drillChecks HasItemNot
  cases h : dictGet d "drill_fields" with
  | none => simp [fails_ok, given_none h]
  | some v =>
    simp only [given_some h]
    cases v with
    | list l =>
      simp only [Yaml.list.injEq, exists_and_left, exists_eq_left']
      by_cases he : l = []
      · subst he; simp [fails_ok]
      · have he' : ¬ l.isEmpty = true := by simpa using he
        rw [if_neg he']
        unfold drillNames
        cases hd : env.drill l with
        | ok ns =>
          simp only [fails_forEach]
          simp [fails_getValue hl, Text]
        | error e =>
          by_cases ha : e = .attributeError
          · subst ha
            simp only [fails_forEach, fails_getValue hl]
            simp [he]
          · cases e <;> first | exact absurd rfl ha | simp [fails_error, he]
    | _ => simp [fails_ok]

theorem fails_wordChecks {d : FDef} {k : String} {ws : List String} : Fails (wordChecks d k ws) ↔ ¬ HasKey d k := by
  unfold wordChecks HasKey
  cases h : dictGet d k with
  | none => simp [fails_error, given_none h]
  | some v =>
    simp only [given_some h]
    cases v <;> simp [fails_ok]

theorem fails_timeSql {env : CheckEnv} {name : String} {d : FDef} :
    Fails (timeSqlChecks env name (qualifyFilters env.view d)) ↔ ¬ HasKey d "sql" ∨ (GivesText d "sql" ∧ SqlRaises env name d) := by
  unfold timeSqlChecks HasKey GivesText
  rw [dictGet_qualifyFilters _ _ _ (by decide)]
  cases h : dictGet d "sql" with
  | none => simp [fails_error, given_none h]
  | some v =>
    simp only [given_some h]
    cases v with
    | str s => simp [fails_ownSqlChecks]
    | _ => simp [fails_ok]

theorem fails_endChecks {env : CheckEnv} {name : String} {d : FDef} {k : String} (hk : k ≠ "filters") :
    Fails (endChecks env name (qualifyFilters env.view d) k) ↔ GivesText d k ∧ EndRaises env name d := by
  unfold endChecks GivesText EndRaises ownSql
  rw [dictGet_qualifyFilters _ _ _ hk]
  cases h : dictGet d k with
  | none => simp [fails_ok, given_none h]
  | some v =>
    simp only [given_some h]
    cases v with
    | str s =>
      cases hf : fieldSql env name (qualifyFilters env.view d) with
      | error e => simp [fails_error]
      | ok self =>
        simp only [sqlChecks_q, fails_sqlChecks]
        unfold Fails
        simp
    | _ => simp [fails_ok]

theorem fails_mergedMetric {env : CheckEnv} {name : String} {d : FDef} :
    Fails (mergedMetric env name (qualifyFilters env.view d)) ↔ ¬ HasKey d "is_merged_result" ∧
      Given d "type" (.str "number") ∧ Given d "field_type" (.str "measure") ∧
      ((∃ e, ownSql env name d = .error e) ∨ ∃ s e, ownSql env name d = .ok s ∧
        sqlRefs env.get env.depth (checkedField env name d s) = .error e ∧ e ≠ .attributeError) := by
  unfold mergedMetric ownSql
  rw [dictGet_qualifyFilters _ _ _ (by decide), textAt_qualifyFilters _ _ _ (by decide), textAt_qualifyFilters _ _ _ (by decide)]
  rw [← textAt_iff, ← textAt_iff, ← isSome_iff_hasKey]
  cases hk : dictGet d "is_merged_result" with
  | some v => simp [fails_ok]
  | none =>
    simp only [Option.isSome_none, Bool.false_eq_true, not_false_eq_true, true_and]
    by_cases hc : textAt d "type" = some "number" ∧ textAt d "field_type" = some "measure"
    · rw [if_pos hc]
      simp only [hc.1, hc.2, true_and]
      cases hf : fieldSql env name (qualifyFilters env.view d) with
      | error e => simp [fails_error]
      | ok s =>
        simp only [checkedField_qualifyFilters, Except.ok.injEq, exists_and_left, exists_eq_left', reduceCtorEq, exists_false, false_or]
        cases hr : sqlRefs env.get env.depth (checkedField env name d s) with
        | ok rs => simp [fails_ok]
        | error e => cases e <;> simp [fails_ok, fails_error]
    · rw [if_neg hc]
      simp only [fails_ok, false_iff]
      rintro ⟨h1, h2, -⟩
      exact hc ⟨h1, h2⟩

theorem fails_measureDate {env : CheckEnv} {name : String} {d : FDef} :
    Fails (measureDateChecks env name (qualifyFilters env.view d)) ↔ ¬ IsSet d "canon_date" ∧ (∀ c, ¬ DateIs env d c) ∧
      Fails (mergedMetric env name (qualifyFilters env.view d)) := by
  unfold measureDateChecks
  rw [canonVal_q]
  rcases canonVal_cases env d with ⟨h, hs, hn, hd⟩ | ⟨c, h, hd, hu, ht⟩ | ⟨h, hn, hd⟩
  · rw [h]; simp [fails_ok, hs]
  · rw [h]
    simp only [fails_ok, false_iff]
    rintro ⟨-, h, -⟩
    exact h c hd
  · rw [h]
    simp only [hn, not_false_eq_true, true_and, hd, implies_true]
    cases mergedMetric env name (qualifyFilters env.view d) with
    | ok b => simp [fails_ok]
    | error e => simp [fails_error]

theorem fails_measureSql {env : CheckEnv} {name : String} {d : FDef} :
    Fails (measureSqlChecks env name (qualifyFilters env.view d)) ↔
      (Given d "type" (.str "cumulative") ∧ ∃ e, ownSql env name d = .error e) ∨
      (¬ Given d "type" (.str "cumulative") ∧ GivesText d "sql" ∧ SqlRaises env name d) := by
  unfold measureSqlChecks
  rw [dictGet_qualifyFilters _ _ _ (by decide), textAt_qualifyFilters _ _ _ (by decide), ← textAt_iff]
  by_cases hc : textAt d "type" = some "cumulative"
  · rw [if_pos hc]
    simp only [hc, true_and, not_true_eq_false, false_and, or_false]
    unfold ownSql
    cases fieldSql env name (qualifyFilters env.view d) with
    | error e => simp [fails_error]
    | ok s => simp [fails_ok]
  · rw [if_neg hc]
    simp only [hc, false_and, false_or, not_false_eq_true, true_and]
    unfold GivesText
    cases h : dictGet d "sql" with
    | none => simp [fails_ok, given_none h]
    | some v =>
      simp only [given_some h]
      cases v with
      | str s => simp [fails_ownSqlChecks]
      | _ => simp [fails_ok]

theorem fails_cumMeasure {env : CheckEnv} (hl : LooksUp env) {d : FDef} :
    Fails (cumMeasureChecks env d) ↔ ∃ v, Given d "measure" v ∧ ¬ Text v ∧ ¬ Nothing v := by
  unfold cumMeasureChecks
  cases h : dictGet d "measure" with
  | none => simp [fails_ok, given_none h]
  | some v =>
    simp only [given_some h, exists_eq_left']
    cases v with
    | str m =>
      have : ¬ (¬ Text (.str m) ∧ ¬ Nothing (.str m)) := fun hc => hc.1 ⟨m, rfl⟩
      simp only [this, iff_false]
      by_cases hm : m = ""
      · simp [hm, fails_ok]
      · simp only [hm, if_false]
        cases hg : env.get env.view m with
        | ok g => exact fails_ok
        | error e => cases hl.get _ _ _ hg; exact fails_ok
    | _ =>
      simp only [← truthy_iff]
      split
      · rename_i ht; simp [fails_error, ht, Text]
      · rename_i ht; simp [fails_ok, ht]

theorem fails_distinct {env : CheckEnv} (hl : LooksUp env) {d : FDef} : ¬ Fails (distinctChecks env d) := by
  unfold distinctChecks
  split
  · exact fails_ok
  · cases textAt d "sql_distinct_key" with
    | none => exact fails_ok
    | some s =>
      simp only [fails_forEach, not_exists, not_and]
      intro n _
      split
      · exact fails_ok
      · exact fails_missing (hl.get _ _) _

theorem fails_qualifyAll {view : String} : ∀ {l : List Yaml}, Fails (qualifyAll view l) ↔ ∃ v ∈ l, ¬ Text v
  | [] => by simp [qualifyAll, fails_ok]
  | .str s :: l => by
    have ih := @fails_qualifyAll view l
    simp only [List.mem_cons, exists_eq_or_imp, ← ih]
    have : Text (.str s) := ⟨s, rfl⟩
    simp only [this, not_true_eq_false, false_or, qualifyAll]
    cases qualifyAll view l with
    | error e => simp [fails_error]
    | ok r => simp [fails_ok]
  | .null :: _ => by simp [qualifyAll, fails_error, Text]
  | .bool _ :: _ => by simp [qualifyAll, fails_error, Text]
  | .int _ :: _ => by simp [qualifyAll, fails_error, Text]
  | .float _ :: _ => by simp [qualifyAll, fails_error, Text]
  | .list _ :: _ => by simp [qualifyAll, fails_error, Text]
  | .dict _ :: _ => by simp [qualifyAll, fails_error, Text]

theorem fails_qualifyGroupings {view : String} {q : FDef} : Fails (qualifyGroupings view q) ↔ HasItemNot q "window_groupings" Text := by
  unfold qualifyGroupings HasItemNot
  cases h : dictGet q "window_groupings" with
  | none => simp [fails_ok, given_none h]
  | some v =>
    simp only [given_some h]
    cases v with
    | list l =>
      simp only [Yaml.list.injEq, exists_eq_left', ← fails_qualifyAll (view := view)]
      by_cases hl : l = []
      · subst hl; simp [fails_ok, qualifyAll]
      · have : ¬ l.isEmpty = true := by simpa using hl
        rw [if_neg this]
        cases qualifyAll view l with
        | error e => simp [fails_error]
        | ok r => simp [fails_ok]
    | _ => simp [fails_ok]

theorem fails_nonAdditive {env : CheckEnv} {d q : FDef} (hq : Given d "non_additive_dimension" (.dict q)) (hne : q ≠ []) :
    Fails (nonAdditive env d) ↔ ¬ HasKey q "name" ∨ GivenNot q "name" Text ∨ HasItemNot q "window_groupings" Text := by
  unfold nonAdditive
  unfold Given at hq
  rw [hq]
  have : ¬ q.isEmpty = true := by simpa using hne
  simp only [if_neg this]
  cases h : dictGet q "name" with
  | none => simp [fails_error, HasKey, given_none h]
  | some v =>
    have hk : HasKey q "name" := ⟨v, h⟩
    simp only [hk, not_true_eq_false, false_or]
    unfold GivenNot
    simp only [given_some h, exists_eq_left']
    cases v with
    | str s =>
      have : Text (.str s) := ⟨s, rfl⟩
      simp only [this, not_true_eq_false, false_or]
      have hw : HasItemNot (dictSet q "name" (.str (qualifyRef env.view s))) "window_groupings" Text ↔ HasItemNot q "window_groupings" Text := by
        unfold HasItemNot Given
        rw [dictGet_set, if_neg (by decide)]
      rw [← hw, ← fails_qualifyGroupings (view := env.view)]
      cases qualifyGroupings env.view (dictSet q "name" (.str (qualifyRef env.view s))) with
      | error e => simp [fails_error]
      | ok r => simp [fails_ok]
    | _ => simp [fails_error, Text]

theorem fails_windowChecks {env : CheckEnv} (hl : LooksUp env) {q r : FDef} (hw : QualifiedWindow env.view q r) :
    Fails (windowChecks env r) ↔ ¬ HasKey q "window_choice" := by
  unfold windowChecks
  rw [fails_seq]
  simp only [List.mem_cons, List.not_mem_nil, or_false, exists_eq_or_imp, exists_eq_left, fails_ok, false_or]
  have h1 : ¬ Fails (windowDateChecks env ((textAt r "name").getD "")) := by
    unfold windowDateChecks
    cases hg : env.get env.view ((textAt r "name").getD "") with
    | ok g => exact fails_ok
    | error e => cases hl.get _ _ _ hg; exact fails_ok
  have h3 : ¬ Fails (windowGroupingChecks env r) := by
    unfold windowGroupingChecks
    cases h : dictGet r "window_groupings" with
    | none => exact fails_ok
    | some v =>
      cases v with
      | list l =>
        simp only [fails_forEach, not_exists, not_and]
        intro v hv
        have : ∃ s, v = .str s := by
          rcases hw.groupings with ⟨ss, -, hr⟩ | ⟨hn, he⟩
          · have := given_unique hr h
            cases this
            obtain ⟨s, -, e⟩ := List.mem_map.mp hv
            exact ⟨s, e.symm⟩
          · rw [h] at he
            exact absurd he.symm (hn l)
        obtain ⟨s, rfl⟩ := this
        simp only [windowGroupingCheck]
        cases hg : env.get env.view s with
        | ok g => exact fails_ok
        | error e => cases hl.get _ _ _ hg; exact fails_ok
      | _ => exact fails_ok
  simp only [h1, h3, false_or, or_false]
  rw [← hw.keys]
  unfold windowChoiceChecks HasKey
  cases h : dictGet r "window_choice" with
  | none => simp [fails_error, given_none h]
  | some v => simp [fails_ok, given_some h]

theorem fails_nonAdditiveChecks {env : CheckEnv} (hl : LooksUp env) {d : FDef} :
    Fails (nonAdditiveChecks env d) ↔ ∃ q, Given d "non_additive_dimension" (.dict q) ∧ q ≠ [] ∧ WindowRaises q := by
  unfold nonAdditiveChecks
  cases h : dictGet d "non_additive_dimension" with
  | none => simp [fails_ok, given_none h]
  | some v =>
    simp only [given_some h]
    cases v with
    | dict q =>
      simp only [Yaml.dict.injEq, exists_eq_left']
      by_cases hq : q = []
      · subst hq; simp [fails_ok]
      · have hq' : ¬ q.isEmpty = true := by simpa using hq
        rw [if_neg hq']
        simp only [ne_eq, hq, not_false_eq_true, true_and]
        have hn := fails_nonAdditive (env := env) h hq
        cases hv : nonAdditive env d with
        | error e =>
          rw [hv] at hn
          simp only [fails_error, true_iff] at hn ⊢
          rcases hn with hn | hn | hn
          · exact .noName hn
          · exact .nameKind hn
          · exact .grouping hn
        | ok v =>
          rw [hv] at hn
          obtain ⟨r, rfl, hw⟩ := nonAdditive_dict h hq hv
          simp only [fails_ok, false_iff, not_or] at hn
          simp only [fails_windowChecks hl hw]
          constructor
          · exact .noChoice
          · intro hr
            cases hr with
            | noName h => exact absurd h hn.1
            | nameKind h => exact absurd h hn.2.1
            | noChoice h => exact h
            | grouping h => exact absurd h hn.2.2
    | _ => simp [fails_ok]

theorem fails_append {a b : List (Res (List FieldProblem))} : (∃ c ∈ a ++ b, Fails c) ↔ (∃ c ∈ a, Fails c) ∨ ∃ c ∈ b, Fails c := by
  simp only [List.mem_append, or_and_right, exists_or]

theorem hasKey_q {view k : String} {d : FDef} (hk : k ≠ "filters") : HasKey (qualifyFilters view d) k ↔ HasKey d k := by
  unfold HasKey Given; rw [dictGet_qualifyFilters _ _ _ hk]

theorem fails_dimension {env : CheckEnv} {name : String} {d : FDef} :
    (∃ c ∈ dimensionChecks env name (qualifyFilters env.view d), Fails c) ↔
      Fails (dimensionSqlChecks env name (qualifyFilters env.view d)) ∨ Fails (drillChecks env d) := by
  unfold dimensionChecks
  simp only [List.mem_cons, List.not_mem_nil, or_false, exists_eq_or_imp, exists_eq_left, fails_ok, false_or, drillChecks_q]

theorem fails_group {env : CheckEnv} {name : String} {d : FDef} :
    (∃ c ∈ groupChecks env name (qualifyFilters env.view d), Fails c) ↔
      (Given d "type" (.str "time") ∧ (¬ HasKey d "timeframes" ∨ Fails (timeSqlChecks env name (qualifyFilters env.view d)))) ∨
      (Given d "type" (.str "duration") ∧ (¬ HasKey d "intervals" ∨ Fails (endChecks env name (qualifyFilters env.view d) "sql_start") ∨
        Fails (endChecks env name (qualifyFilters env.view d) "sql_end"))) := by
  unfold groupChecks
  rw [fails_append, fails_append, textAt_qualifyFilters _ _ _ (by decide), ← textAt_iff, ← textAt_iff]
  simp only [List.mem_cons, List.not_mem_nil, or_false, exists_eq_or_imp, exists_eq_left, fails_ok, false_or]
  refine or_congr ?_ ?_
  · by_cases h : textAt d "type" = some "time"
    · rw [if_pos h]
      unfold timeChecks
      simp only [List.mem_cons, List.not_mem_nil, or_false, exists_eq_or_imp, exists_eq_left, fails_ok, false_or, h, true_and,
        fails_wordChecks, hasKey_q (show "timeframes" ≠ "filters" by decide)]
    · rw [if_neg h]; simp [h]
  · by_cases h : textAt d "type" = some "duration"
    · rw [if_pos h]
      unfold durationChecks
      simp only [List.mem_cons, List.not_mem_nil, or_false, exists_eq_or_imp, exists_eq_left, fails_ok, false_or, h, true_and,
        fails_wordChecks, hasKey_q (show "intervals" ≠ "filters" by decide)]
    · rw [if_neg h]; simp [h]

theorem fails_measure {env : CheckEnv} (hl : LooksUp env) {name : String} {d : FDef} :
    (∃ c ∈ measureChecks env name (qualifyFilters env.view d), Fails c) ↔
      Fails (measureDateChecks env name (qualifyFilters env.view d)) ∨ Fails (measureSqlChecks env name (qualifyFilters env.view d)) ∨
      (Given d "type" (.str "cumulative") ∧ Fails (cumMeasureChecks env d)) ∨ Fails (nonAdditiveChecks env d) := by
  unfold measureChecks
  rw [fails_append, fails_append, cumulativeChecks_q, distinctChecks_q, nonAdditiveChecks_q, ← textAt_iff]
  simp only [List.mem_cons, List.not_mem_nil, or_false, exists_eq_or_imp, exists_eq_left, fails_ok, false_or, fails_distinct hl]
  have : (∃ c ∈ cumulativeChecks env d, Fails c) ↔ textAt d "type" = some "cumulative" ∧ Fails (cumMeasureChecks env d) := by
    unfold cumulativeChecks
    by_cases h : textAt d "type" = some "cumulative"
    · rw [if_pos h]
      simp only [List.mem_cons, List.not_mem_nil, or_false, exists_eq_or_imp, exists_eq_left, fails_ok, h, true_and]
    · rw [if_neg h]; simp [h]
  rw [this, or_assoc, or_assoc]

/-- Validation raises exactly for the definitions of the specification. -/
theorem fieldProblems_fails {env : CheckEnv} (hl : LooksUp env) {d : FDef} {name : String} (hname : Given d "name" (.str name)) :
    Fails (fieldProblems env d) ↔ Raises env name ((textAt d "field_type").getD "") d := by
  unfold fieldProblems
  unfold Given at hname
  rw [hname]
  simp only
  generalize (textAt d "field_type").getD "" = ft
  rw [fails_seq, fails_append, fails_append]
  simp only [List.mem_cons, List.not_mem_nil, or_false, exists_eq_or_imp, exists_eq_left, fails_ok, false_or, fails_dateChecks hl,
    fails_filterChecks hl]
  have hk : (∃ c ∈ kindChecks env name ft (qualifyFilters env.view d), Fails c) ↔
      (ft = "dimension" ∧ ∃ c ∈ dimensionChecks env name (qualifyFilters env.view d), Fails c) ∨
      (ft = "dimension_group" ∧ ∃ c ∈ groupChecks env name (qualifyFilters env.view d), Fails c) ∨
      (ft = "measure" ∧ ∃ c ∈ measureChecks env name (qualifyFilters env.view d), Fails c) := by
    unfold kindChecks
    by_cases h1 : ft = "dimension"
    · subst h1; simp
    · by_cases h2 : ft = "dimension_group"
      · subst h2; simp
      · by_cases h3 : ft = "measure"
        · subst h3; simp
        · simp [h1, h2, h3]
  rw [hk, fails_dimension, fails_group, fails_measure hl, fails_dimensionSql, fails_drillChecks hl, fails_timeSql,
    fails_endChecks (by decide), fails_endChecks (by decide), fails_measureDate, fails_mergedMetric, fails_measureSql,
    fails_cumMeasure hl, fails_nonAdditiveChecks hl]
  constructor
  · rintro (⟨l, f, h1, h2, h3⟩ | ⟨hf, ⟨h1, h2, h3⟩ | ⟨l, e, h1, h2, h3, h4⟩ | ⟨l, h1, h2, h3⟩⟩ |
      ⟨hf, ⟨ht, h | h | ⟨h1, h2⟩⟩ | ⟨ht, h | ⟨h1, h2⟩ | ⟨h1, h2⟩⟩⟩ |
      ⟨hf, ⟨h1, h2, h3, h4, h5, h6⟩ | (⟨h1, e, h2⟩ | ⟨h1, h2, h3⟩) | ⟨h1, v, h2, h3, h4⟩ | ⟨q, h1, h2, h3⟩⟩)
    · exact .filterField h1 h2 h3
    · exact .sql hf h1 h2 h3
    · exact .drill hf h1 h2 h3 h4
    · exact .drillItem hf h1 h2 h3
    · exact .noTimeframes hf ht h
    · exact .noTimeSql hf ht h
    · exact .timeSql hf ht h1 h2
    · exact .noIntervals hf ht h
    · exact .endSql (by simp) hf ht h1 h2
    · exact .endSql (by simp) hf ht h1 h2
    · exact .merged hf h1 h2 h3 h4 h5 h6
    · exact .cumulativeSql hf h1 h2
    · exact .measureSql hf h1 h2 h3
    · exact .measureKind hf h1 h2 h3 h4
    · exact .window hf h1 h2 h3
  · intro hr
    cases hr with
    | filterField h1 h2 h3 => exact .inl ⟨_, _, h1, h2, h3⟩
    | sql hf h1 h2 h3 => exact .inr (.inl ⟨hf, .inl ⟨h1, h2, h3⟩⟩)
    | drill hf h1 h2 h3 h4 => exact .inr (.inl ⟨hf, .inr (.inl ⟨_, _, h1, h2, h3, h4⟩)⟩)
    | drillItem hf h1 h2 h3 => exact .inr (.inl ⟨hf, .inr (.inr ⟨_, h1, h2, h3⟩)⟩)
    | noTimeframes hf ht h => exact .inr (.inr (.inl ⟨hf, .inl ⟨ht, .inl h⟩⟩))
    | noTimeSql hf ht h => exact .inr (.inr (.inl ⟨hf, .inl ⟨ht, .inr (.inl h)⟩⟩))
    | timeSql hf ht h1 h2 => exact .inr (.inr (.inl ⟨hf, .inl ⟨ht, .inr (.inr ⟨h1, h2⟩)⟩⟩))
    | noIntervals hf ht h => exact .inr (.inr (.inl ⟨hf, .inr ⟨ht, .inl h⟩⟩))
    | endSql hk hf ht h1 h2 =>
      simp only [List.mem_cons, List.not_mem_nil, or_false] at hk
      rcases hk with rfl | rfl
      · exact .inr (.inr (.inl ⟨hf, .inr ⟨ht, .inr (.inl ⟨h1, h2⟩)⟩⟩))
      · exact .inr (.inr (.inl ⟨hf, .inr ⟨ht, .inr (.inr ⟨h1, h2⟩)⟩⟩))
    | merged hf h1 h2 h3 h4 h5 h6 => exact .inr (.inr (.inr ⟨hf, .inl ⟨h1, h2, h3, h4, h5, h6⟩⟩))
    | cumulativeSql hf h1 h2 => exact .inr (.inr (.inr ⟨hf, .inr (.inl (.inl ⟨h1, _, h2⟩))⟩))
    | measureSql hf h1 h2 h3 => exact .inr (.inr (.inr ⟨hf, .inr (.inl (.inr ⟨h1, h2, h3⟩))⟩))
    | measureKind hf h1 h2 h3 h4 => exact .inr (.inr (.inr ⟨hf, .inr (.inr (.inl ⟨h1, _, h2, h3, h4⟩))⟩))
    | window hf h1 h2 h3 => exact .inr (.inr (.inr ⟨hf, .inr (.inr (.inr ⟨_, h1, h2, h3⟩))⟩))

end ML
