import Verif.ViewCheck.Spec
import Verif.FieldCheck.Raise
import Verif.MergePlan.Texts
/-
Helper lemmas for C63: the checks of a view apart from its identifiers and fields.
-/
set_option autoImplicit false
namespace ML
open Spec

theorem shown_iff {env : ViewEnv} {v : Yaml} {s : String} : Shown env v s ↔ s = showYaml env v := by
  unfold Shown Text
  cases v <;> simp [showYaml, eq_comm]

theorem properName_iff {n : String} : validName n = false ↔ ¬ ProperName n := validName_false n

theorem properName_true {n : String} : validName n = true ↔ ProperName n := by
  rw [← Bool.not_eq_false, properName_iff, not_not]

theorem not_fails {α : Type} {r : Res α} : ¬ Fails r ↔ ∃ a, r = .ok a := by
  unfold Fails
  cases r <;> simp

theorem tagged_says {α : Type} {f : α → ViewProblem} {c : Res (List α)} {p : ViewProblem} :
    Says (tagged f c) p ↔ ∃ q, Says c q ∧ p = f q := by
  cases c with
  | error e => simp [tagged, says_error]
  | ok qs => simp [tagged, says_ok, eq_comm]

theorem tagged_fails {α : Type} {f : α → ViewProblem} {c : Res (List α)} : Fails (tagged f c) ↔ Fails c := by
  cases c <;> simp [tagged, Fails]

theorem tagged_ok {α : Type} {f : α → ViewProblem} {c : Res (List α)} : (∃ ps, tagged f c = .ok ps) ↔ ∃ ps, c = .ok ps := by
  rw [← not_fails, ← not_fails, tagged_fails]

theorem missing_fails {α π : Type} {r : Res α} (h : ∀ e, r = .error e → e = .accessDenied ∨ e = .query) {p : π} :
    Fails (missingField r p) ↔ Ambiguous r := by
  unfold missingField Ambiguous
  cases r with
  | ok a => simp [fails_ok]
  | error e =>
    rcases h e rfl with rfl | rfl
    · simp [fails_ok]
    · simp [fails_error]

/-! ### Tables -/

theorem viewPlain_mem {d : FDef} {p : ViewProblem} :
    p ∈ viewPlain d ↔ (p = .wrongKind "label" ∧ GivenNot d "label" Text) ∨ (p = .wrongKind "description" ∧ GivenNot d "description" Text) ∨
      (p = .tooLong ∧ ∃ s, Given d "description" (.str s) ∧ 1024 < s.length) ∨ (p = .wrongKind "hidden" ∧ GivenNot d "hidden" Flag) := by
  have h : p ∈ descriptionCheck d ↔ p = .tooLong ∧ ∃ s, Given d "description" (.str s) ∧ 1024 < s.length := by
    unfold descriptionCheck Given
    cases h : dictGet d "description" with
    | none => simp
    | some v =>
      cases v with
      | str s =>
        by_cases hs : s.length > 1024
        · simp [hs]
        · simp [hs]
      | _ => simp
  unfold viewPlain
  rw [List.mem_append, List.mem_append, List.mem_append, h, wants_kind isStr_iff, wants_kind isStr_iff, wants_kind isBool_iff]
  simp only [or_assoc]

theorem tableReport_ok {env : ViewEnv} {d : FDef} {q p : ViewProblem} (hok : ∃ ps, tableReport env d q = .ok ps) :
    Says (tableReport env d q) p ↔ p = q := by
  unfold tableReport at *
  cases h : viewTable env d with
  | error e => rw [h] at hok; obtain ⟨_, h⟩ := hok; cases h
  | ok a => simp [says_ok]

theorem viewTable_fails {env : ViewEnv} {d : FDef} :
    Fails (viewTable env d) ↔ ∃ v s e, Given d "sql_table_name" v ∧ Shown env v s ∧ env.table s = .error e := by
  unfold viewTable
  cases h : dictGet d "sql_table_name" with
  | none => simp [fails_ok, given_none h]
  | some v =>
    simp only [given_some h, shown_iff]
    constructor
    · rintro ⟨e, he⟩
      cases ht : env.table (showYaml env v) with
      | error e' => exact ⟨v, _, e', rfl, rfl, ht⟩
      | ok a => rw [ht] at he; cases he
    · rintro ⟨w, s, e, rfl, rfl, he⟩
      rw [he]; exact ⟨e, rfl⟩

theorem tableReport_fails {env : ViewEnv} {d : FDef} {q : ViewProblem} : Fails (tableReport env d q) ↔ Fails (viewTable env d) := by
  unfold tableReport Fails
  cases viewTable env d <;> simp

theorem tableChecks_says {env : ViewEnv} {d : FDef} (hok : ∀ c ∈ tableChecks env d, ∃ ps, c = .ok ps) {p : ViewProblem} :
    (∃ c ∈ tableChecks env d, Says c p) ↔ (p = .bothTables ∧ HasKey d "sql_table_name" ∧ HasKey d "derived_table") ∨
      (p = .noTable ∧ ¬ HasKey d "sql_table_name" ∧ ¬ HasKey d "derived_table") ∨
      (p = .wrongKind "sql_table_name" ∧ GivenNot d "sql_table_name" Text) := by
  unfold tableChecks at *
  simp only [List.mem_cons, List.not_mem_nil, or_false, forall_eq_or_imp, forall_eq, exists_eq_or_imp, exists_eq_left] at *
  obtain ⟨h1, h2, h3⟩ := hok
  refine or_congr ?_ (or_congr ?_ ?_)
  · rw [← isSome_iff_hasKey, ← isSome_iff_hasKey]
    split
    · rename_i h; rw [if_pos h] at h1; simp [tableReport_ok h1, h]
    · rename_i h; simp only [says_ok, List.not_mem_nil, false_iff]; tauto
  · rw [← isSome_false_iff, ← isSome_false_iff]
    split
    · rename_i h; rw [if_pos h] at h2; simp [tableReport_ok h2, h]
    · rename_i h; simp only [says_ok, List.not_mem_nil, false_iff]; tauto
  · unfold GivenNot
    cases h : dictGet d "sql_table_name" with
    | none => simp [says_ok, given_none h]
    | some v =>
      rw [h] at h3
      cases v with
      | str s => simp [says_ok, given_some h, Text]
      | _ => simp only at h3 ⊢; simp [tableReport_ok h3, given_some h, Text]

theorem tableChecks_fails {env : ViewEnv} {d : FDef} :
    (∃ c ∈ tableChecks env d, Fails c) ↔ ∃ v s e, Given d "sql_table_name" v ∧ (HasKey d "derived_table" ∨ ¬ Text v) ∧ Shown env v s ∧
      env.table s = .error e := by
  have key : ∀ q, Fails (tableReport env d q) ↔ ∃ v s e, Given d "sql_table_name" v ∧ Shown env v s ∧ env.table s = .error e :=
    fun q => tableReport_fails.trans viewTable_fails
  unfold tableChecks
  simp only [List.mem_cons, List.not_mem_nil, or_false, exists_eq_or_imp, exists_eq_left]
  cases h : dictGet d "sql_table_name" with
  | none => 
    simp only [given_none h]
    by_cases hd : (dictGet d "derived_table").isSome = true
    · simp [hd, fails_ok]
    · simp [hd, fails_ok, key, given_none h]
  | some v =>
    simp only [given_some h]
    by_cases hd : (dictGet d "derived_table").isSome = true
    · have := (isSome_iff_hasKey _ _).mp hd
      cases v <;> simp [hd, fails_ok, key, given_some h, this]
    · have : ¬ HasKey d "derived_table" := by rw [← isSome_iff_hasKey]; exact hd
      cases v <;> simp [hd, fails_ok, key, given_some h, this, Text]

theorem derivedChecks_mem {d : FDef} {p : ViewProblem} :
    p ∈ derivedChecks d ↔ (p = .wrongKind "derived_table" ∧ GivenNot d "derived_table" Dictionary) ∨
      (p = .derivedNoSql ∧ ∃ q, Given d "derived_table" (.dict q) ∧ ¬ HasKey q "sql") ∨
      (p = .derivedSqlKind ∧ ∃ q, Given d "derived_table" (.dict q) ∧ GivenNot q "sql" Text) := by
  unfold derivedChecks GivenNot
  cases h : dictGet d "derived_table" with
  | none => simp [given_none h]
  | some v =>
    simp only [given_some h]
    cases v with
    | dict q =>
      simp only [Dictionary]
      cases hq : dictGet q "sql" with
      | none => simp [HasKey, given_none hq]
      | some w => cases w <;> simp [HasKey, given_some hq, Text]
    | _ => simp [Dictionary]

/-! ### Dates -/

theorem foundDate_says {env : ViewEnv} {name : String} {g : UField} {p : ViewProblem} (hok : ∃ ps, foundDate env name g = .ok ps) :
    Says (foundDate env name g) p ↔ (p = .dateNotTime ∧ NotTime g) ∨
      (p = .dateNotJoinable ∧ ∃ vs, env.joinable name = .ok vs ∧ g.view ∉ vs ∧ g.view ≠ name) ∨
      (p = .dateUnknown ∧ (Unknown (env.joinable name) ∨ Ambiguous (env.joinable name))) := by
  have h1 : p ∈ (if g.role ≠ .group ∨ g.type ≠ "time" then [.dateNotTime] else [] : List ViewProblem) ↔ p = .dateNotTime ∧ NotTime g := by
    unfold NotTime
    split
    · rename_i h; simp [h]
    · rename_i h; simp [h]
  unfold foundDate at *
  simp only at *
  cases hj : env.joinable name with
  | ok vs =>
    have h2 : p ∈ (if (vs ++ [name]).contains g.view then [] else [.dateNotJoinable] : List ViewProblem) ↔
        p = .dateNotJoinable ∧ g.view ∉ vs ∧ g.view ≠ name := by
      split
      · rename_i h
        simp only [List.contains_eq_mem, List.mem_append, List.mem_singleton, decide_eq_true_eq] at h
        simp only [List.not_mem_nil, false_iff]; tauto
      · rename_i h
        simp only [List.contains_eq_mem, List.mem_append, List.mem_singleton, decide_eq_true_eq] at h
        simp only [List.mem_singleton]; tauto
    simp only [says_ok, List.mem_append, h1, h2]
    simp [Unknown, Ambiguous]
  | error e =>
    rw [hj] at hok
    cases e with
    | query => simp only [says_ok, List.mem_append, h1]; simp [Unknown, Ambiguous]
    | accessDenied => simp only [says_ok, List.mem_append, h1]; simp [Unknown, Ambiguous]
    | _ => obtain ⟨_, h⟩ := hok; cases h

/-- The name and the outcome of looking up the default date. -/
def DateName (view : String) (d : FDef) (n : String) : Prop := ∃ s, Given d "default_date" (.str s) ∧ s ≠ "" ∧ Qualified view s n

theorem defaultDate_says {env : ViewEnv} {name : String} {d : FDef} {p : ViewProblem} (hok : ∃ ps, defaultDateChecks env name d = .ok ps) :
    Says (defaultDateChecks env name d) p ↔ (p = .wrongKind "default_date" ∧ GivenNot d "default_date" Text) ∨
      ∃ n, DateName name d n ∧
        ((p = .dateUnknown ∧ (Unknown (env.base.getByName n) ∨ Ambiguous (env.base.getByName n))) ∨
         ∃ g, env.base.getByName n = .ok g ∧ ((p = .dateNotTime ∧ NotTime g) ∨
          (p = .dateNotJoinable ∧ ∃ vs, env.joinable name = .ok vs ∧ g.view ∉ vs ∧ g.view ≠ name) ∨
          (p = .dateUnknown ∧ (Unknown (env.joinable name) ∨ Ambiguous (env.joinable name))))) := by
  unfold defaultDateChecks DateName GivenNot at *
  cases h : dictGet d "default_date" with
  | none => simp [says_ok, given_none h]
  | some v =>
    rw [h] at hok
    simp only [given_some h, qualified_iff]
    cases v with
    | str s =>
      simp only at hok ⊢
      by_cases hs : s = ""
      · simp [hs, says_ok, Text]
      · rw [if_neg hs] at hok ⊢
        cases hg : env.base.getByName (qualifyRef name s) with
        | ok g =>
          rw [hg] at hok
          simp only at hok ⊢
          rw [foundDate_says hok]
          simp [Text, hs, hg, Unknown, Ambiguous]
        | error e =>
          rw [hg] at hok
          cases e with
          | query => simp [says_ok, hs, hg, Unknown, Ambiguous, Text]
          | accessDenied => simp [says_ok, hs, hg, Unknown, Ambiguous, Text]
          | _ => obtain ⟨_, h⟩ := hok; cases h
    | _ => simp [says_ok, Text]

theorem defaultDate_fails {env : ViewEnv} (hl : ViewLooksUp env) {name : String} {d : FDef} : ¬ Fails (defaultDateChecks env name d) := by
  unfold defaultDateChecks
  cases h : dictGet d "default_date" with
  | none => exact fails_ok
  | some v =>
    cases v with
    | str s =>
      simp only
      split
      · exact fails_ok
      · cases hg : env.base.getByName (qualifyRef name s) with
        | ok g =>
          simp only [foundDate]
          cases hj : env.joinable name with
          | ok vs => exact fails_ok
          | error e => rcases hl.joinable _ _ hj with rfl | rfl <;> exact fails_ok
        | error e => rcases hl.getByName _ _ hg with rfl | rfl <;> exact fails_ok
    | _ => exact fails_ok

/-! ### Sets -/

theorem setFields_mem {env : ViewEnv} {view : String} {s : FDef} (hf : HasKey s "fields") {p : SetProblem} :
    p ∈ setFieldsCheck env view s ↔ (p = .fieldsKind ∧ GivenNot s "fields" Listed) ∨
      ∃ l ns n e, Given s "fields" (.list l) ∧ env.setNames view s = .ok ns ∧ n ∈ ns ∧ env.base.getText n = .error e ∧ p = .unknown n := by
  unfold setFieldsCheck GivenNot
  obtain ⟨v, hv⟩ := hf
  have h : dictGet s "fields" = some v := hv
  rw [h]
  simp only [given_some h]
  cases v with
  | list l =>
    simp only [Listed]
    cases hn : env.setNames view s with
    | error e => simp
    | ok ns =>
      simp only [List.mem_flatMap]
      constructor
      · rintro ⟨n, hn, hp⟩
        cases hg : env.base.getText n with
        | ok a => rw [hg] at hp; cases hp
        | error e =>
          rw [hg] at hp
          exact .inr ⟨l, ns, n, e, rfl, rfl, hn, hg, List.mem_singleton.mp hp⟩
      · rintro (⟨-, w, rfl, hne⟩ | ⟨l', ns', n, e, -, e', hn, hg, rfl⟩)
        · exact absurd ⟨_, rfl⟩ hne
        · cases e'; exact ⟨n, hn, by rw [hg]; simp⟩
  | _ => simp [Listed]

theorem setName_says {s : FDef} {p : SetProblem} :
    Says (setNameCheck s) p ↔ p = .badName ∧ ∃ n, Given s "name" (.str n) ∧ ¬ ProperName n := by
  unfold setNameCheck
  cases h : dictGet s "name" with
  | none => simp [says_error, given_none h]
  | some v =>
    simp only [given_some h, ← properName_iff]
    cases v with
    | str n => cases hv : validName n <;> simp [says_ok, hv]
    | _ => simp [says_error]

theorem setName_fails {s : FDef} : Fails (setNameCheck s) ↔ ¬ GivesText s "name" := by
  unfold setNameCheck GivesText
  cases h : dictGet s "name" with
  | none => simp [fails_error, given_none h]
  | some v =>
    simp only [given_some h]
    cases v <;> simp [fails_ok, fails_error]

theorem setChecks_says {env : ViewEnv} {view : String} {s : FDef} (hok : ∃ ps, setChecks env view s = .ok ps) {p : SetProblem} :
    Says (setChecks env view s) p ↔ SetHas env view s p := by
  unfold setChecks at *
  by_cases hn : HasKey s "name"
  · have hn' := (isSome_iff_hasKey _ _).mpr hn
    rw [if_neg (by rw [hn']; decide)] at hok ⊢
    by_cases hf : HasKey s "fields"
    · have hf' := (isSome_iff_hasKey _ _).mpr hf
      rw [if_neg (by rw [hf']; decide)] at hok ⊢
      rw [says_seq hok]
      have hx : p ∈ (if validName view ∧ env.hasView view = false then [.noView] else [] : List SetProblem) ↔
          p = .noView ∧ ProperName view ∧ env.hasView view = false := by
        rw [← properName_true]
        split
        · rename_i h; simp [h]
        · rename_i h; simp only [List.not_mem_nil, false_iff]; tauto
      simp only [List.mem_cons, List.not_mem_nil, or_false, exists_eq_or_imp, exists_eq_left, says_ok, setName_says, hx, setFields_mem hf,
        unknownKeys_mem]
      constructor
      · rintro (⟨rfl, n, h1, h2⟩ | ⟨rfl, h1, h2⟩ | (⟨rfl, h⟩ | ⟨l, ns, n, e, h1, h2, h3, h4, rfl⟩) | ⟨k, h1, h2, rfl⟩)
        · exact .name hf h1 h2
        · exact .view hn hf h1 h2
        · exact .fields hn h
        · exact .unknown hn h1 h2 h3 h4
        · exact .key hn hf h1 (by simpa using h2)
      · intro h
        cases h with
        | noName h => exact absurd hn h
        | noFields _ h => exact absurd hf h
        | name _ h1 h2 => exact .inl ⟨rfl, _, h1, h2⟩
        | view _ _ h1 h2 => exact .inr (.inl ⟨rfl, h1, h2⟩)
        | fields _ h => exact .inr (.inr (.inl (.inl ⟨rfl, h⟩)))
        | unknown _ h1 h2 h3 h4 => exact .inr (.inr (.inl (.inr ⟨_, _, _, _, h1, h2, h3, h4, rfl⟩)))
        | key _ _ h1 h2 => exact .inr (.inr (.inr ⟨_, h1, by simpa using h2, rfl⟩))
    · have hf' := (isSome_false_iff _ _).mpr hf
      rw [if_pos hf']
      simp only [says_ok, List.mem_singleton]
      constructor
      · rintro rfl; exact .noFields hn hf
      · intro h
        cases h with
        | noName h => exact absurd hn h
        | noFields _ _ => rfl
        | name h _ _ => exact absurd h hf
        | view _ h _ _ => exact absurd h hf
        | fields _ h => obtain ⟨v, h, _⟩ := h; exact absurd ⟨v, h⟩ hf
        | unknown _ h _ _ _ => exact absurd ⟨_, h⟩ hf
        | key _ h _ _ => exact absurd h hf
  · have hn' := (isSome_false_iff _ _).mpr hn
    rw [if_pos hn']
    simp only [says_ok, List.mem_singleton]
    constructor
    · rintro rfl; exact .noName hn
    · intro h
      cases h with
      | noName h => rfl
      | noFields h _ => exact absurd h hn
      | name _ h _ => exact absurd ⟨_, h⟩ hn
      | view h _ _ _ => exact absurd h hn
      | fields h _ => exact absurd h hn
      | unknown h _ _ _ _ => exact absurd h hn
      | key h _ _ _ => exact absurd h hn

theorem setChecks_fails {env : ViewEnv} {view : String} {s : FDef} :
    Fails (setChecks env view s) ↔ HasKey s "fields" ∧ GivenNot s "name" Text := by
  have key : GivenNot s "name" Text ↔ HasKey s "name" ∧ ¬ GivesText s "name" := by
    unfold GivenNot HasKey GivesText Text
    constructor
    · rintro ⟨v, h, hn⟩; exact ⟨⟨v, h⟩, fun ⟨t, ht⟩ => hn ⟨t, given_unique h ht⟩⟩
    · rintro ⟨⟨v, h⟩, hn⟩; exact ⟨v, h, fun ⟨t, ht⟩ => hn ⟨t, ht ▸ h⟩⟩
  rw [key]
  unfold setChecks
  by_cases hn : HasKey s "name"
  · rw [if_neg (by rw [(isSome_iff_hasKey _ _).mpr hn]; decide)]
    by_cases hf : HasKey s "fields"
    · rw [if_neg (by rw [(isSome_iff_hasKey _ _).mpr hf]; decide), fails_seq]
      simp [fails_ok, setName_fails, hn, hf]
    · rw [if_pos ((isSome_false_iff _ _).mpr hf)]
      simp [fails_ok, hf]
  · rw [if_pos ((isSome_false_iff _ _).mpr hn)]
    simp [fails_ok, hn]

/-- A check of a list whose elements should be dictionaries. -/
theorem listed_says {d : FDef} {k : String} {f : Yaml → Res (List ViewProblem)} {p q : ViewProblem} {r : Res (List ViewProblem)}
    (hr : r = match dictGet d k with
      | none => .ok []
      | some (.list l) => forEach f l
      | some _ => .ok [q]) (hok : ∃ ps, r = .ok ps) :
    Says r p ↔ (p = q ∧ GivenNot d k Listed) ∨ ∃ l v, Given d k (.list l) ∧ v ∈ l ∧ Says (f v) p := by
  unfold GivenNot
  cases h : dictGet d k with
  | none => rw [h] at hr; subst hr; simp [says_ok, given_none h]
  | some v =>
    rw [h] at hr
    simp only [given_some h]
    cases v with
    | list l => simp only at hr; subst hr; rw [says_forEach hok]; simp [Listed]
    | _ => simp only at hr; subst hr; simp [says_ok, Listed]

theorem listed_fails {d : FDef} {k : String} {f : Yaml → Res (List ViewProblem)} {q : ViewProblem} {r : Res (List ViewProblem)}
    (hr : r = match dictGet d k with
      | none => .ok []
      | some (.list l) => forEach f l
      | some _ => .ok [q]) :
    Fails r ↔ ∃ l v, Given d k (.list l) ∧ v ∈ l ∧ Fails (f v) := by
  cases h : dictGet d k with
  | none => rw [h] at hr; subst hr; simp [fails_ok, given_none h]
  | some v =>
    rw [h] at hr
    simp only [given_some h]
    cases v with
    | list l => simp only at hr; subst hr; rw [fails_forEach]; simp
    | _ => simp only at hr; subst hr; simp [fails_ok]

theorem listed_item {d : FDef} {k : String} {f : Yaml → Res (List ViewProblem)} {q : ViewProblem} {r : Res (List ViewProblem)}
    (hr : r = match dictGet d k with
      | none => .ok []
      | some (.list l) => forEach f l
      | some _ => .ok [q]) (hok : ∃ ps, r = .ok ps) {l : List Yaml} (hl : Given d k (.list l)) {v : Yaml} (hv : v ∈ l) :
    ∃ ps, f v = .ok ps := by
  rw [← not_fails] at hok ⊢
  intro hf
  exact hok ((listed_fails hr).mpr ⟨l, v, hl, hv, hf⟩)

theorem setsChecks_says {env : ViewEnv} {view : String} {d : FDef} (hok : ∃ ps, setsChecks env view d = .ok ps) {p : ViewProblem} :
    Says (setsChecks env view d) p ↔ (p = .wrongKind "sets" ∧ GivenNot d "sets" Listed) ∨ (p = .setNotDict ∧ HasItemNot d "sets" Dictionary) ∨
      ∃ l s q, Given d "sets" (.list l) ∧ Yaml.dict s ∈ l ∧ SetHas env view s q ∧ p = .set q := by
  refine (listed_says rfl hok).trans ?_
  refine or_congr Iff.rfl ?_
  unfold HasItemNot
  constructor
  · rintro ⟨l, v, hl, hv, hs⟩
    cases v with
    | dict s =>
      simp only [tagged_says] at hs
      obtain ⟨q, hq, rfl⟩ := hs
      have := listed_item rfl hok hl hv
      simp only [tagged_ok] at this
      exact .inr ⟨l, s, q, hl, hv, (setChecks_says this).mp hq, rfl⟩
    | _ =>
      simp only [says_ok, List.mem_singleton] at hs
      exact .inl ⟨hs, l, hl, _, hv, by simp [Dictionary]⟩
  · rintro (⟨rfl, l, hl, v, hv, hn⟩ | ⟨l, s, q, hl, hv, hq, rfl⟩)
    · refine ⟨l, v, hl, hv, ?_⟩
      cases v with
      | dict s => exact absurd ⟨s, rfl⟩ hn
      | _ => simp [says_ok]
    · have := listed_item rfl hok hl hv
      simp only [tagged_ok] at this
      exact ⟨l, _, hl, hv, by simp only [tagged_says]; exact ⟨q, (setChecks_says this).mpr hq, rfl⟩⟩

theorem setsChecks_fails {env : ViewEnv} {view : String} {d : FDef} :
    Fails (setsChecks env view d) ↔ ∃ l s, Given d "sets" (.list l) ∧ Yaml.dict s ∈ l ∧ HasKey s "fields" ∧ GivenNot s "name" Text := by
  refine (listed_fails rfl).trans ?_
  constructor
  · rintro ⟨l, v, hl, hv, hs⟩
    cases v with
    | dict s => simp only [tagged_fails, setChecks_fails] at hs; exact ⟨l, s, hl, hv, hs⟩
    | _ => exact absurd hs fails_ok
  · rintro ⟨l, s, hl, hv, hs⟩
    exact ⟨l, _, hl, hv, by simp only [tagged_fails, setChecks_fails]; exact hs⟩

/-! ### Filters -/

theorem alwaysOn_iff {view : String} {f f' : FDef} (hq : qualifyFilter view (.dict f) = .dict f') {n : String} :
    AlwaysOn view f n ↔ Given f' "field" (.str n) := by
  obtain ⟨f'', e, hk, hkeys, hs, hv⟩ := qualifyFilter_dict view f
  rw [hq] at e
  cases e
  rw [hs n]
  constructor
  · rintro ⟨h1, h2⟩; exact ⟨_, h1, h2⟩
  · rintro ⟨t, h1, h2⟩; exact ⟨h1, h2⟩

theorem filterField_says {env : CheckEnv} {f : FDef} {p : FieldProblem} :
    Says (filterFieldCheck env f) p ↔ (p = .filterNoField ∧ ¬ HasKey f "field") ∨
      (∃ n, Given f "field" (.str n) ∧ Unknown (env.getText n) ∧ p = .filterUnknown n) := by
  unfold filterFieldCheck HasKey
  cases h : dictGet f "field" with
  | none => simp [says_ok, given_none h]
  | some v =>
    simp only [given_some h, missingField_says]
    cases v with
    | str s =>
      simp only [getValue, Yaml.text?, Option.getD_some, exists_eq', not_true_eq_false, and_false, false_or, Yaml.str.injEq]
      constructor
      · rintro ⟨rfl, hu⟩; exact ⟨s, rfl, hu, rfl⟩
      · rintro ⟨_, rfl, hu, rfl⟩; exact ⟨rfl, hu⟩
    | _ => simp [getValue, Unknown]

theorem getValue_fails {π : Type} {env : ViewEnv} (hl : ViewLooksUp env) {v : Yaml} {p : π} :
    Fails (missingField (getValue env.base v) p) ↔ ¬ Text v ∨ ∃ n, v = .str n ∧ Ambiguous (env.base.getText n) := by
  cases v with
  | str s => rw [getValue, missing_fails (hl.getText s)]; simp [Text]
  | _ => simp [getValue, missingField, fails_error, Text]

theorem alwaysCheck_says {env : ViewEnv} {view : String} {f : FDef} (hok : ∃ ps, alwaysCheck env view (.dict f) = .ok ps) {p : ViewProblem} :
    Says (alwaysCheck env view (.dict f)) p ↔ ∃ q, AlwaysHas env view f q ∧ p = .always q := by
  obtain ⟨f', hq, hk, hkeys, hs, hv⟩ := qualifyFilter_dict view f
  unfold alwaysCheck at *
  rw [hq] at hok ⊢
  simp only [tagged_ok, tagged_says] at hok ⊢
  refine exists_congr fun q => and_congr_left fun _ => ?_
  rw [says_seq hok]
  simp only [List.mem_cons, List.not_mem_nil, or_false, exists_eq_or_imp, exists_eq_left, says_ok, filterField_says, filterValueCheck_mem,
    hkeys, ← alwaysOn_iff hq]
  have hval : GivenNot f' "value" Text ↔ GivenNot f "value" Text := by
    unfold GivenNot Given; rw [hk "value" (by decide)]
  rw [hval]
  constructor
  · rintro ((⟨rfl, h⟩ | ⟨n, h1, h2, rfl⟩) | ⟨rfl, h⟩ | ⟨rfl, h1, h2⟩)
    · exact .noField h
    · exact .unknown h1 h2
    · exact .noValue h
    · exact .value h1 hq h2
  · intro h
    cases h with
    | noField h => exact .inl (.inl ⟨rfl, h⟩)
    | unknown h1 h2 => exact .inl (.inr ⟨_, h1, h2, rfl⟩)
    | noValue h => exact .inr (.inl ⟨rfl, h⟩)
    | value h1 h2 h3 => rw [hq] at h2; cases h2; exact .inr (.inr ⟨rfl, h1, h3⟩)

theorem alwaysCheck_fails {env : ViewEnv} (hl : ViewLooksUp env) {view : String} {f : FDef} :
    Fails (alwaysCheck env view (.dict f)) ↔ GivenNot f "field" Text ∨ ∃ n, AlwaysOn view f n ∧ Ambiguous (env.base.getText n) := by
  obtain ⟨f', hq, hk, hkeys, hs, hv⟩ := qualifyFilter_dict view f
  unfold alwaysCheck
  rw [hq]
  simp only [tagged_fails, fails_seq, List.mem_cons, List.not_mem_nil, or_false, exists_eq_or_imp, exists_eq_left, fails_ok,
    alwaysOn_iff hq]
  have hg : GivenNot f "field" Text ↔ GivenNot f' "field" Text := by
    constructor
    · rintro ⟨v, h1, h2⟩; exact ⟨v, (hv v h2).mpr h1, h2⟩
    · rintro ⟨v, h1, h2⟩; exact ⟨v, (hv v h2).mp h1, h2⟩
  rw [hg]
  unfold filterFieldCheck GivenNot
  cases h : dictGet f' "field" with
  | none => simp [fails_ok, given_none h]
  | some v =>
    simp only [given_some h, getValue_fails hl, exists_eq_left']

theorem always_not_dict {env : ViewEnv} {view : String} {v : Yaml} (hv : ¬ Dictionary v) : alwaysCheck env view v = .ok [.alwaysNotDict] := by
  cases v with
  | dict f => exact absurd ⟨f, rfl⟩ hv
  | _ => rfl

theorem alwaysChecks_says {env : ViewEnv} {view : String} {d : FDef} (hok : ∃ ps, alwaysChecks env view d = .ok ps) {p : ViewProblem} :
    Says (alwaysChecks env view d) p ↔ (p = .wrongKind "always_filter" ∧ GivenNot d "always_filter" Listed) ∨
      (p = .alwaysNotDict ∧ HasItemNot d "always_filter" Dictionary) ∨
      ∃ l f q, Given d "always_filter" (.list l) ∧ Yaml.dict f ∈ l ∧ AlwaysHas env view f q ∧ p = .always q := by
  refine (listed_says rfl hok).trans ?_
  refine or_congr Iff.rfl ?_
  unfold HasItemNot
  constructor
  · rintro ⟨l, v, hl, hv, hs⟩
    by_cases hd : Dictionary v
    · obtain ⟨f, rfl⟩ := hd
      obtain ⟨q, hq, rfl⟩ := (alwaysCheck_says (listed_item rfl hok hl hv)).mp hs
      exact .inr ⟨l, f, q, hl, hv, hq, rfl⟩
    · rw [always_not_dict hd, says_ok, List.mem_singleton] at hs
      exact .inl ⟨hs, l, hl, v, hv, hd⟩
  · rintro (⟨rfl, l, hl, v, hv, hn⟩ | ⟨l, s, q, hl, hv, hq, rfl⟩)
    · exact ⟨l, v, hl, hv, by rw [always_not_dict hn, says_ok]; simp⟩
    · exact ⟨l, _, hl, hv, (alwaysCheck_says (listed_item rfl hok hl hv)).mpr ⟨q, hq, rfl⟩⟩

theorem alwaysChecks_fails {env : ViewEnv} (hl : ViewLooksUp env) {view : String} {d : FDef} :
    Fails (alwaysChecks env view d) ↔ ∃ l f, Given d "always_filter" (.list l) ∧ Yaml.dict f ∈ l ∧
      (GivenNot f "field" Text ∨ ∃ n, AlwaysOn view f n ∧ Ambiguous (env.base.getText n)) := by
  refine (listed_fails rfl).trans ?_
  constructor
  · rintro ⟨l, v, h, hv, hs⟩
    by_cases hd : Dictionary v
    · obtain ⟨f, rfl⟩ := hd
      exact ⟨l, f, h, hv, (alwaysCheck_fails hl).mp hs⟩
    · rw [always_not_dict hd] at hs; exact absurd hs fails_ok
  · rintro ⟨l, f, h, hv, hs⟩
    exact ⟨l, _, h, hv, (alwaysCheck_fails hl).mpr hs⟩

theorem accessCheck_says {env : ViewEnv} {f : FDef} (hok : ∃ ps, accessCheck env (.dict f) = .ok ps) {p : ViewProblem} :
    Says (accessCheck env (.dict f)) p ↔ AccessHas env f p := by
  unfold accessCheck at *
  simp only at hok ⊢
  rw [says_seq hok]
  simp only [List.mem_cons, List.not_mem_nil, or_false, exists_eq_or_imp, exists_eq_left, says_ok]
  have h1 : Says (match dictGet f "field" with
        | none => .ok [.accessNoField]
        | some w => missingField (getValue env.base w) (.accessUnknown (w.text?.getD "")) : Res (List ViewProblem)) p ↔
      (p = .accessNoField ∧ ¬ HasKey f "field") ∨ ∃ n, Given f "field" (.str n) ∧ Unknown (env.base.getText n) ∧ p = .accessUnknown n := by
    unfold HasKey
    cases h : dictGet f "field" with
    | none => simp [says_ok, given_none h]
    | some v =>
      simp only [given_some h, missingField_says]
      cases v with
      | str s =>
        simp only [getValue, Yaml.text?, Option.getD_some, exists_eq', not_true_eq_false, and_false, false_or, Yaml.str.injEq]
        constructor
        · rintro ⟨rfl, hu⟩; exact ⟨s, rfl, hu, rfl⟩
        · rintro ⟨_, rfl, hu, rfl⟩; exact ⟨rfl, hu⟩
      | _ => simp [getValue, Unknown]
  have h2 : p ∈ (match dictGet f "user_attribute" with
        | none => [.accessNoAttribute]
        | some (.str _) => []
        | some _ => [.accessAttributeKind] : List ViewProblem) ↔
      (p = .accessNoAttribute ∧ ¬ HasKey f "user_attribute") ∨ (p = .accessAttributeKind ∧ GivenNot f "user_attribute" Text) := by
    unfold HasKey GivenNot
    cases h : dictGet f "user_attribute" with
    | none => simp [given_none h]
    | some v => simp only [given_some h]; cases v <;> simp [Text]
  refine (or_congr h1 h2).trans ?_
  clear h1 h2
  constructor
  · rintro ((⟨rfl, h⟩ | ⟨n, h1, h2, rfl⟩) | ⟨rfl, h⟩ | ⟨rfl, h⟩)
    · exact .noField h
    · exact .unknown h1 h2
    · exact .noAttribute h
    · exact .kind h
  · intro h
    cases h with
    | noField h => exact .inl (.inl ⟨rfl, h⟩)
    | unknown h1 h2 => exact .inl (.inr ⟨_, h1, h2, rfl⟩)
    | noAttribute h => exact .inr (.inl ⟨rfl, h⟩)
    | kind h => exact .inr (.inr ⟨rfl, h⟩)

theorem accessCheck_fails {env : ViewEnv} (hl : ViewLooksUp env) {f : FDef} :
    Fails (accessCheck env (.dict f)) ↔ GivenNot f "field" Text ∨ ∃ n, Given f "field" (.str n) ∧ Ambiguous (env.base.getText n) := by
  unfold accessCheck GivenNot
  simp only [fails_seq, List.mem_cons, List.not_mem_nil, or_false, exists_eq_or_imp, exists_eq_left, fails_ok]
  cases h : dictGet f "field" with
  | none => simp [fails_ok, given_none h]
  | some v =>
    simp only [given_some h, getValue_fails hl, exists_eq_left']

theorem access_not_dict {env : ViewEnv} {v : Yaml} (hv : ¬ Dictionary v) : accessCheck env v = .ok [.accessNotDict] := by
  cases v with
  | dict f => exact absurd ⟨f, rfl⟩ hv
  | _ => rfl

theorem accessFilters_says {env : ViewEnv} {d : FDef} (hok : ∃ ps, accessFilterChecks env d = .ok ps) {p : ViewProblem} :
    Says (accessFilterChecks env d) p ↔ (p = .wrongKind "access_filters" ∧ GivenNot d "access_filters" Listed) ∨
      (p = .accessNotDict ∧ HasItemNot d "access_filters" Dictionary) ∨
      ∃ l f, Given d "access_filters" (.list l) ∧ Yaml.dict f ∈ l ∧ AccessHas env f p := by
  refine (listed_says rfl hok).trans ?_
  refine or_congr Iff.rfl ?_
  unfold HasItemNot
  constructor
  · rintro ⟨l, v, hl, hv, hs⟩
    by_cases hd : Dictionary v
    · obtain ⟨f, rfl⟩ := hd
      exact .inr ⟨l, f, hl, hv, (accessCheck_says (listed_item rfl hok hl hv)).mp hs⟩
    · rw [access_not_dict hd, says_ok, List.mem_singleton] at hs
      exact .inl ⟨hs, l, hl, v, hv, hd⟩
  · rintro (⟨rfl, l, hl, v, hv, hn⟩ | ⟨l, s, hl, hv, hq⟩)
    · exact ⟨l, v, hl, hv, by rw [access_not_dict hn, says_ok]; simp⟩
    · exact ⟨l, _, hl, hv, (accessCheck_says (listed_item rfl hok hl hv)).mpr hq⟩

theorem accessFilters_fails {env : ViewEnv} (hl : ViewLooksUp env) {d : FDef} :
    Fails (accessFilterChecks env d) ↔ ∃ l f, Given d "access_filters" (.list l) ∧ Yaml.dict f ∈ l ∧
      (GivenNot f "field" Text ∨ ∃ n, Given f "field" (.str n) ∧ Ambiguous (env.base.getText n)) := by
  refine (listed_fails rfl).trans ?_
  constructor
  · rintro ⟨l, v, h, hv, hs⟩
    by_cases hd : Dictionary v
    · obtain ⟨f, rfl⟩ := hd
      exact ⟨l, f, h, hv, (accessCheck_fails hl).mp hs⟩
    · rw [access_not_dict hd] at hs; exact absurd hs fails_ok
  · rintro ⟨l, f, h, hv, hs⟩
    exact ⟨l, _, h, hv, (accessCheck_fails hl).mpr hs⟩

/-! ### The event dimension -/

theorem eventName_iff {env : ViewEnv} {view : String} {d : FDef} {n : String} :
    EventName env view d n ↔ ∃ s, Given d "event_dimension" (.str s) ∧ eventDimension env view d s = .ok n ∧ n ≠ "" := by
  constructor
  · intro h
    cases h with
    | own h1 h2 =>
      refine ⟨_, h1, by unfold eventDimension; rw [if_neg h2], ?_⟩
      intro he
      have := congrArg String.toList he
      simp at this
    | date h1 h2 h3 h4 h5 =>
      refine ⟨_, h1, ?_, h5⟩
      unfold eventDimension
      rw [if_pos h2, show dictGet d "default_date" = _ from h3]
      simp only [shown_iff.mp h4]
  · rintro ⟨s, h1, h2, h3⟩
    unfold eventDimension at h2
    by_cases hs : '.' ∈ s.toList
    · rw [if_pos hs] at h2
      cases hd : dictGet d "default_date" with
      | none => rw [hd] at h2; cases h2
      | some v => rw [hd] at h2; cases h2; exact .date h1 hs hd (shown_iff.mpr rfl) h3
    · rw [if_neg hs] at h2
      cases h2
      exact .own h1 hs

theorem eventChecks_says {env : ViewEnv} {view : String} {d : FDef} {p : ViewProblem} :
    Says (eventChecks env view d) p ↔ (p = .wrongKind "event_dimension" ∧ GivenNot d "event_dimension" Text) ∨
      (p = .eventUnknown ∧ ∃ n, EventName env view d n ∧ Unknown (env.base.getText n)) := by
  simp only [eventName_iff]
  unfold eventChecks GivenNot
  cases h : dictGet d "event_dimension" with
  | none => simp [says_ok, given_none h]
  | some v =>
    simp only [given_some h]
    cases v with
    | str s =>
      simp only [Text, Yaml.str.injEq]
      cases he : eventDimension env view d s with
      | error e => simp [says_error, he]
      | ok n =>
        by_cases hn : n = ""
        · simp [hn, says_ok, he]
        · simp [hn, missingField_says, he]
    | _ => simp [says_ok, Text]

theorem eventChecks_fails {env : ViewEnv} (hl : ViewLooksUp env) {view : String} {d : FDef} :
    Fails (eventChecks env view d) ↔
      (∃ s, Given d "event_dimension" (.str s) ∧ '.' ∈ s.toList ∧ ¬ HasKey d "default_date") ∨
      ∃ n, EventName env view d n ∧ Ambiguous (env.base.getText n) := by
  simp only [eventName_iff]
  unfold eventChecks
  cases h : dictGet d "event_dimension" with
  | none => simp [fails_ok, given_none h]
  | some v =>
    simp only [given_some h]
    cases v with
    | str s =>
      simp only [Yaml.str.injEq, exists_eq_left']
      cases he : eventDimension env view d s with
      | error e =>
        simp only [fails_error, true_iff]
        left
        unfold eventDimension at he
        by_cases hs : '.' ∈ s.toList
        · refine ⟨hs, ?_⟩
          rw [if_pos hs] at he
          cases hd : dictGet d "default_date" with
          | none => rintro ⟨v, hv⟩; exact given_none hd v hv
          | some v => rw [hd] at he; cases he
        · rw [if_neg hs] at he; cases he
      | ok n =>
        have hno : ¬ ('.' ∈ s.toList ∧ ¬ HasKey d "default_date") := by
          rintro ⟨hs, hd⟩
          unfold eventDimension at he
          rw [if_pos hs] at he
          cases hd' : dictGet d "default_date" with
          | none => rw [hd'] at he; cases he
          | some v => exact hd ⟨v, hd'⟩
        simp only [hno, false_or]
        by_cases hn : n = ""
        · rw [if_pos hn]
          simp [fails_ok, hn]
        · rw [if_neg hn, missing_fails (hl.getText n)]
          simp [hn]
    | _ => simp [fails_ok]

end ML
