import Verif.Seed.PropsMark
import Verif.Mql.Replace

/-!
# C68: every column has its field, when seeding succeeds, what a seeder is made of
-/

set_option autoImplicit false

namespace ML
open Spec

theorem forall₂_left {α β : Type} {R : α → β → Prop} {l : List α} {m : List β} (h : List.Forall₂ R l m) : ∀ a ∈ l, ∃ b ∈ m, R a b := by
  induction h with
  | nil => intro a ha; cases ha
  | cons hab _ ih =>
    intro a ha
    rcases List.mem_cons.mp ha with rfl | ha
    · exact ⟨_, by simp, hab⟩
    · obtain ⟨b, hb, h⟩ := ih a ha
      exact ⟨b, List.mem_cons_of_mem _ hb, h⟩

theorem forall₂_right {α β : Type} {R : α → β → Prop} {l : List α} {m : List β} (h : List.Forall₂ R l m) : ∀ b ∈ m, ∃ a ∈ l, R a b := by
  induction h with
  | nil => intro a ha; cases ha
  | cons hab _ ih =>
    intro b hb
    rcases List.mem_cons.mp hb with rfl | hb
    · exact ⟨_, by simp, hab⟩
    · obtain ⟨a, ha, h⟩ := ih b hb
      exact ⟨a, List.mem_cons_of_mem _ ha, h⟩

/-- C68. **Nothing is left out and nothing is made up.** Every column the warehouse returned for the chosen schema and table has a field in the view
of its table, and every field of every view is of such a column. -/
theorem C68_complete (s : Seeder) (db : SeedDb) (auto : Bool) (models : List (String × Option String)) (ms : List (String × String))
    (views : List SeedView) (h : seed s db auto models = .ok (ms, views)) (q : String) (rows : List ColRow) (hq : columnsQuery s = .ok q)
    (hr : db.columns q = .ok rows) :
    (∀ r ∈ inChoice s.schema s.table rows, ∃ v ∈ views, v.name = cleanName r.table ∧ ∃ f ∈ v.fields, SeededAs s.wh r f) ∧
    (∀ v ∈ views, ∀ f ∈ v.fields, ∃ r ∈ inChoice s.schema s.table rows, SeededAs s.wh r f) ∧
    (∀ v ∈ views, v.fields ≠ []) := by
  obtain ⟨q', rows', tabs, model, tables, hq', hr', _, _, hfirst, hviews, _⟩ := C68_seed s db auto models ms views h
  rw [hq] at hq'
  cases hq'
  rw [hr] at hr'
  cases hr'
  refine ⟨?_, ?_, ?_⟩
  · intro r hrow
    have ht : r.table ∈ tables := (hfirst.2.1 _).mpr (List.mem_map.mpr ⟨r, hrow, rfl⟩)
    obtain ⟨v, hv, hvo⟩ := forall₂_left hviews _ ht
    obtain ⟨f, hf, hs⟩ := forall₂_left hvo.2.2.1 r (List.mem_filter.mpr ⟨hrow, by simp⟩)
    exact ⟨v, hv, hvo.1, f, hf, hs⟩
  · intro v hv f hf
    obtain ⟨t, _, hvo⟩ := forall₂_right hviews v hv
    obtain ⟨r, hrow, hs⟩ := forall₂_right hvo.2.2.1 f hf
    exact ⟨r, (List.mem_filter.mp hrow).1, hs⟩
  · intro v hv hn
    obtain ⟨t, _, hvo⟩ := forall₂_right hviews v hv
    obtain ⟨_, _, hf, _, _, r, rest, hc, _⟩ := hvo
    rw [hc, hn] at hf
    cases hf

theorem seed_mapM_ok {α β : Type} (f : α → Res β) (l : List α) (h : ∀ a ∈ l, ∃ b, f a = .ok b) : ∃ m, l.mapM f = .ok m := by
  induction l with
  | nil => exact ⟨[], rfl⟩
  | cons a l ih =>
    obtain ⟨b, hb⟩ := h a (by simp)
    obtain ⟨m, hm⟩ := ih fun x hx => h x (List.mem_cons_of_mem _ hx)
    refine ⟨b :: m, ?_⟩
    rw [List.mapM_cons, hb, hm]
    rfl

theorem mapM_fails {α β : Type} (f : α → Res β) (e : Err) (l : List α) (h : ∀ a ∈ l, (∃ b, f a = .ok b) ∨ f a = .error e)
    (hx : ∃ a ∈ l, f a = .error e) : l.mapM f = .error e := by
  induction l with
  | nil => obtain ⟨a, ha, _⟩ := hx; cases ha
  | cons a l ih =>
    rw [List.mapM_cons]
    rcases h a (by simp) with ⟨b, hb⟩ | hb
    · obtain ⟨x, hx, he⟩ := hx
      rcases List.mem_cons.mp hx with rfl | hx
      · rw [he] at hb; cases hb
      · rw [hb, ih (fun y hy => h y (List.mem_cons_of_mem _ hy)) ⟨x, hx, he⟩]
        rfl
    · rw [hb]; rfl

theorem seedFields_plain (s : Seeder) (hw : s.wh ≠ .unknown) (count : String → Res (List (String × Nat))) (schema table : String)
    (rows : List ColRow) : ∃ fields, seedFields s count false schema table rows = .ok fields := by
  obtain ⟨fs, hfs⟩ := seed_mapM_ok (seedField s.wh) rows fun r _ => by
    obtain ⟨f, h, _⟩ := C68_field s.wh hw r
    exact ⟨f, h⟩
  refine ⟨fs, ?_⟩
  unfold seedFields
  rw [hfs]
  rfl

theorem seedTable_plain (s : Seeder) (hw : s.wh ≠ .unknown) (db : SeedDb) (model : String) (rows : List ColRow) (tabs : List TabRow)
    (t : String) (ht : t ∈ rows.map (·.table)) :
    ((tabs = [] ∨ ∃ x ∈ tabs, lower x.table = lower t) → ∃ v, seedTable s db false model rows tabs t = .ok v) ∧
    (¬ (tabs = [] ∨ ∃ x ∈ tabs, lower x.table = lower t) → seedTable s db false model rows tabs t = .error .indexError) := by
  obtain ⟨r, hr, hrt⟩ := List.mem_map.mp ht
  refine ⟨fun h => ?_, fun h => ?_⟩
  · have hc : ∃ c, commentOf tabs t = .ok c := by
      unfold commentOf
      by_cases he : tabs = []
      · rw [if_pos he]; exact ⟨_, rfl⟩
      · rw [if_neg he]
        obtain ⟨x, hx, hl⟩ := h.resolve_left he
        cases hf : tabs.find? fun x => sameName x.table t with
        | some y => exact ⟨_, rfl⟩
        | none =>
          have := List.find?_eq_none.mp hf x hx
          simp [sameName, hl] at this
    obtain ⟨c, hc⟩ := hc
    unfold seedTable
    rw [hc]
    have hmem : r ∈ rows.filter fun r => sameName r.table t := List.mem_filter.mpr ⟨hr, by simp [sameName, hrt]⟩
    show ∃ v, (match rows.filter fun r => sameName r.table t with
      | [] => (.error .indexError : Res SeedView)
      | r :: rs => seedView s db.count false model t r.schema c (r :: rs)) = .ok v
    cases hrows : rows.filter fun r => sameName r.table t with
    | nil => rw [hrows] at hmem; cases hmem
    | cons y ys =>
      unfold seedView
      obtain ⟨fs, hfs⟩ := seedFields_plain s hw db.count y.schema t (y :: ys)
      simp only [hfs]
      rw [tableText_spec s hw]
      exact ⟨_, rfl⟩
  · push Not at h
    unfold seedTable commentOf
    rw [if_neg h.1]
    have : tabs.find? (fun x => sameName x.table t) = none := by
      rw [List.find?_eq_none]
      intro x hx
      simpa [sameName] using h.2 x hx
    rw [this]
    rfl

/-- C68. **When seeding succeeds.** Once the warehouse has answered and a model is found, seeding without marks succeeds just when every chosen table is
among the chosen tables of the second answer, or that answer has none of them; otherwise IndexError is raised. -/
theorem C68_succeeds (s : Seeder) (hw : s.wh ≠ .unknown) (db : SeedDb) (models : List (String × Option String)) (q model : String)
    (rows : List ColRow) (tabs : List TabRow) (hq : columnsQuery s = .ok q) (hr : db.columns q = .ok rows)
    (hm : modelNameFor s.connName models = .ok model)
    (ht : if s.wh = .snowflake ∨ s.wh = .databricks then ∃ tq, tableQuery s = .ok tq ∧ db.tables tq = .ok tabs else tabs = []) :
    ((tabsInChoice s.schema s.table tabs = [] ∨
        ∀ r ∈ inChoice s.schema s.table rows, ∃ x ∈ tabsInChoice s.schema s.table tabs, lower x.table = lower r.table) →
      ∃ ms views, seed s db false models = .ok (ms, views)) ∧
    (¬ (tabsInChoice s.schema s.table tabs = [] ∨
        ∀ r ∈ inChoice s.schema s.table rows, ∃ x ∈ tabsInChoice s.schema s.table tabs, lower x.table = lower r.table) →
      seed s db false models = .error .indexError) := by
  have e : seed s db false models = ((firstOnes ((inChoice s.schema s.table rows).map (·.table))).mapM
      (seedTable s db false model (inChoice s.schema s.table rows) (tabsInChoice s.schema s.table tabs))).map fun views => (seedModels s.connName models, views) := by
    have ht' : (if hasComments s.wh then (tableQuery s).bind db.tables else .ok []) = Except.ok tabs := by
      have hh : hasComments s.wh = true ↔ (s.wh = .snowflake ∨ s.wh = .databricks) := by cases s.wh <;> simp [hasComments]
      by_cases hc : s.wh = .snowflake ∨ s.wh = .databricks
      · rw [if_pos hc] at ht
        obtain ⟨tq, h1, h2⟩ := ht
        rw [if_pos (hh.mpr hc), h1]
        exact h2
      · rw [if_neg hc] at ht
        rw [if_neg (fun x => hc (hh.mp x)), ht]
    unfold seed
    rw [if_neg hw, hq]
    show (db.columns q).bind _ = _
    rw [hr]
    show Except.bind (if hasComments s.wh then (tableQuery s).bind db.tables else .ok []) _ = _
    rw [ht']
    show (modelNameFor s.connName models).bind _ = _
    rw [hm]
    show Except.map _ (List.mapM (seedTable s db false model (rows.filter fun r => seedChosen s r.schema r.table)
      (tabs.filter fun t => seedChosen s t.schema t.table)) (firstOnes ((rows.filter fun r => seedChosen s r.schema r.table).map (·.table)))) = _
    rw [choice_spec, tabChoice_spec]
  rw [e]
  have hp := fun t (h : t ∈ firstOnes ((inChoice s.schema s.table rows).map (·.table))) =>
    seedTable_plain s hw db model (inChoice s.schema s.table rows) (tabsInChoice s.schema s.table tabs) t ((firstOnes_mem _ t).mp h)
  refine ⟨fun h => ?_, fun h => ?_⟩
  · obtain ⟨vs, hvs⟩ := seed_mapM_ok (seedTable s db false model (inChoice s.schema s.table rows) (tabsInChoice s.schema s.table tabs))
      (firstOnes ((inChoice s.schema s.table rows).map (·.table))) fun t htm => (hp t htm).1 <| h.imp id fun h' => by
        obtain ⟨r, hr, rfl⟩ := List.mem_map.mp ((firstOnes_mem _ t).mp htm)
        exact h' r hr
    rw [hvs]
    exact ⟨_, _, rfl⟩
  · rw [mapM_fails _ .indexError]
    · rfl
    · intro t htm
      by_cases hx : tabsInChoice s.schema s.table tabs = [] ∨ ∃ x ∈ tabsInChoice s.schema s.table tabs, lower x.table = lower t
      · exact .inl ((hp t htm).1 hx)
      · exact .inr ((hp t htm).2 hx)
    · push Not at h
      obtain ⟨h0, r, hrow, hno⟩ := h
      have htm : r.table ∈ firstOnes ((inChoice s.schema s.table rows).map (·.table)) :=
        (firstOnes_mem _ _).mpr (List.mem_map.mpr ⟨r, hrow, rfl⟩)
      refine ⟨r.table, htm, (hp _ htm).2 ?_⟩
      rintro (h1 | ⟨x, hx, hl⟩)
      · exact h0 h1
      · exact hno x hx hl

/-- C68. **What is chosen.** A database, schema or table that is given and not empty is used; otherwise those of the connection, and all tables. -/
theorem C68_chosen (wh : Wh) (name : String) (connDb connSchema database schema table : Option String) :
    (∀ d, d ≠ "" → database = some d → (mkSeeder wh name connDb connSchema database schema table).database = some d) ∧
    (database = none ∨ database = some "" → (mkSeeder wh name connDb connSchema database schema table).database = connDb) ∧
    (∀ c, c ≠ "" → schema = some c → (mkSeeder wh name connDb connSchema database schema table).schema = some c) ∧
    (schema = none ∨ schema = some "" → (mkSeeder wh name connDb connSchema database schema table).schema = connSchema) ∧
    (table = none ∨ table = some "" → (mkSeeder wh name connDb connSchema database schema table).table = none) ∧
    (∀ t, t ≠ "" → table = some t → (∀ a b, t.toList ≠ a ++ (".sql".toList ++ b)) →
      (mkSeeder wh name connDb connSchema database schema table).table = some t) ∧
    ((mkSeeder wh name connDb connSchema database schema table).notDefault = true ↔ ∃ d, d ≠ "" ∧ database = some d ∧ connDb ≠ some d) := by
  have g1 : ∀ x, x ≠ "" → given? (some x) = some x := by
    intro x hx
    unfold given?
    rw [Option.filter_eq_some_iff]
    simpa using hx
  have g2 : ∀ o, o = none ∨ o = some "" → given? o = none := by
    rintro o (rfl | rfl) <;> rfl
  refine ⟨?_, ?_, ?_, ?_, ?_, ?_, ?_⟩
  · rintro d hd rfl; simp [mkSeeder, g1 d hd]
  · intro h; simp [mkSeeder, g2 _ h]
  · rintro d hd rfl; simp [mkSeeder, g1 d hd]
  · intro h; simp [mkSeeder, g2 _ h]
  · intro h; simp [mkSeeder, g2 _ h]
  · rintro t ht rfl hn
    simp only [mkSeeder, g1 t ht, Option.map_some]
    rw [replaceAll_absent _ _ _ hn, String.ofList_toList]
  · cases database with
    | none => simp [mkSeeder, given?]
    | some d =>
      by_cases hd : d = ""
      · subst hd; simp [mkSeeder, given?]
      · simp only [mkSeeder, g1 d hd, Option.isSome_some, Bool.true_and, decide_eq_true_eq]
        constructor
        · intro h; exact ⟨d, hd, rfl, fun h' => h h'.symm⟩
        · rintro ⟨d', _, h1, h2⟩ h; exact h2 (h ▸ h1)

theorem countText_spec (w : Wh) (hw : w ≠ .unknown) (c : String) : countText w c = .ok (countIn w c) := by
  cases w <;> first | exact absurd rfl hw | rfl

theorem countText_all (w : Wh) (hw : w ≠ .unknown) (cols : List String) : cols.mapM (countText w) = .ok (cols.map (countIn w)) := by
  induction cols with
  | nil => rfl
  | cons c cols ih => rw [List.mapM_cons, countText_spec w hw, ih]; rfl

/-- C68. **What is counted**: for each column that is asked for its different values, under its name, from the table with its database and schema. For
Trino there is no blank between the last count and FROM, and the database is not named. -/
theorem C68_counts (s : Seeder) (hw : s.wh ≠ .unknown) (cols : List String) (schema table : String) :
    cardinalityQuery s cols schema table = .ok ("SELECT " ++ String.intercalate ", " (cols.map (countIn s.wh)) ++
      (if s.wh = .trino then "FROM " ++ schema ++ "." ++ table
       else if s.wh = .bigquery then " FROM `" ++ s.database.getD "None" ++ "`.`" ++ schema ++ "`.`" ++ table ++ "`"
       else " FROM " ++ s.database.getD "None" ++ "." ++ schema ++ "." ++ table) ++
      (if s.wh = .druid ∨ s.wh = .trino then "" else ";")) := by
  unfold cardinalityQuery
  rw [countText_all s.wh hw]
  show Except.ok _ = _
  unfold seedSemicolon
  congr 1
  generalize s.wh = w at hw
  cases w <;> first | exact absurd rfl hw | simp

/-- C68. **The second question**, to Snowflake and Databricks: the tables of the database with their comments, of all schemas. -/
theorem C68_tables (s : Seeder) (d : String) (hd : given? s.database = some d) (hw : s.wh = .snowflake ∨ s.wh = .databricks) :
    ∃ cols, tableQuery s = .ok ("SELECT " ++ cols ++ " FROM " ++ d ++ ".INFORMATION_SCHEMA.TABLES;") := by
  unfold tableQuery
  rcases hw with hw | hw <;> rw [hw]
  · refine ⟨"table_catalog as table_database, table_schema as table_schema, table_name as table_name, " ++
        "table_owner as table_owner, table_type as table_type, bytes as table_size, created as table_created, " ++
        "last_altered as table_last_modified, row_count as table_row_count, comment as comment", ?_⟩
    rw [hd]
    simp [String.append_assoc]
  · refine ⟨"table_catalog as table_database, table_schema as table_schema, table_name as table_name, " ++
        "table_type as table_type, comment as comment", ?_⟩
    rw [hd]
    simp [String.append_assoc]

/-- C68. **The tables that are listed**, by `table_query` on any warehouse: those of the database asked for (on BigQuery of the dataset), without the system's own schemas where
they would be among them; Druid and Trino are not told a database. -/
theorem C68_tables_from (s : Seeder) (q : String) (h : tableQuery s = .ok q) : ∃ cols,
    (q = "SELECT " ++ cols ++ " FROM INFORMATION_SCHEMA.TABLES WHERE TABLE_SCHEMA not in ('sys', 'INFORMATION_SCHEMA', 'information_schema')" ∧
      (s.wh = .druid ∨ s.wh = .trino)) ∨
    (q = "SELECT " ++ cols ++ " FROM INFORMATION_SCHEMA.TABLES;" ∧ s.wh = .databricks ∧ given? s.database = none) ∨
    ∃ d, given? s.database = some d ∧
      ((q = "SELECT " ++ cols ++ " FROM " ++ d ++ ".INFORMATION_SCHEMA.TABLES;" ∧ (s.wh = .snowflake ∨ s.wh = .databricks)) ∨
       (q = "SELECT " ++ cols ++ " FROM " ++ d ++ ".INFORMATION_SCHEMA.TABLES WHERE table_schema not in ('pg_catalog', 'information_schema');" ∧
          s.wh ∈ [Wh.redshift, .postgres, .sqlServer, .azureSynapse, .duckDb]) ∨
       ∃ c, given? s.schema = some c ∧ s.wh = .bigquery ∧ q = "SELECT " ++ cols ++ " FROM `" ++ d ++ "." ++ c ++ "`.INFORMATION_SCHEMA.TABLES;") := by
  unfold tableQuery at h
  split at h
  · rename_i hw
    cases hd : given? s.database with
    | none => rw [hd] at h; cases h
    | some d =>
      rw [hd] at h; injection h with h; subst h
      exact ⟨"table_catalog as table_database, table_schema as table_schema, table_name as table_name, " ++
        "table_owner as table_owner, table_type as table_type, bytes as table_size, created as table_created, " ++
        "last_altered as table_last_modified, row_count as table_row_count, comment as comment",
        .inr (.inr ⟨d, rfl, .inl ⟨by simp [String.append_assoc], .inl hw⟩⟩)⟩
  · rename_i hw
    injection h with h; subst h
    refine ⟨"table_catalog as table_database, table_schema as table_schema, table_name as table_name, " ++
        "table_type as table_type, comment as comment", ?_⟩
    cases hd : given? s.database with
    | none => exact .inr (.inl ⟨by simp [String.append_assoc], hw, rfl⟩)
    | some d => exact .inr (.inr ⟨d, rfl, .inl ⟨by simp [String.append_assoc], .inr hw⟩⟩)
  iterate 2
    rename_i hw
    injection h with h; subst h
    exact ⟨"TABLE_CATALOG as table_database, TABLE_SCHEMA as table_schema, TABLE_NAME as table_name, TABLE_TYPE as table_type",
      .inl ⟨by decide +kernel, by simp [hw]⟩⟩
  iterate 5
    rename_i hw
    cases hd : given? s.database with
    | none => rw [hd] at h; cases h
    | some d =>
      rw [hd] at h; injection h with h; subst h
      exact ⟨"table_catalog as table_database, table_schema as table_schema, table_name as table_name, table_type as table_type",
        .inr (.inr ⟨d, rfl, .inr (.inl ⟨by simp [String.append_assoc], by simp [hw]⟩)⟩)⟩
  · rename_i hw
    cases hd : given? s.database with
    | none => rw [hd] at h; cases h
    | some d =>
      cases hc : given? s.schema with
      | none => rw [hd, hc] at h; cases h
      | some c =>
        rw [hd, hc] at h; injection h with h; subst h
        exact ⟨"table_catalog as table_database, table_schema as table_schema, table_name as table_name, table_type as table_type, creation_time as table_created",
          .inr (.inr ⟨d, rfl, .inr (.inr ⟨c, rfl, hw, by simp [String.append_assoc]⟩)⟩)⟩
  · cases h

/-- C68. Whenever the columns can be asked for, so can the tables; the reverse fails only for Databricks without a database, whose columns are refused although its tables are not.
All refusals are ValueErrors. -/
theorem C68_tables_or_columns (s : Seeder) :
    ((∃ q, columnsQuery s = .ok q) ↔ (∃ q, tableQuery s = .ok q) ∧ ¬ (s.wh = .databricks ∧ given? s.database = none)) ∧
    ∀ e, tableQuery s = .error e ∨ columnsQuery s = .error e → e = .valueError := by
  have hcols : ∀ {e : Err} {x : Res String} {f : String → String}, x.map f = .error e ↔ x = .error e := by
    intro e x f; cases x <;> simp [Except.map]
  have hok : ∀ {x : Res String} {f : String → String}, (∃ q, x.map f = .ok q) ↔ ∃ q, x = .ok q := by
    intro x f; cases x <;> simp [Except.map]
  unfold columnsQuery
  simp only [hcols, hok]
  unfold columnsFrom tableQuery namesDatabase
  generalize given? s.database = d
  generalize given? s.schema = c
  generalize s.wh = w
  cases w <;> cases d <;> cases c <;> simp

/-- C68. A connection of another type raises NotImplementedError before anything is asked. -/
theorem C68_unsupported (s : Seeder) (db : SeedDb) (auto : Bool) (models : List (String × Option String)) (h : s.wh = .unknown) :
    seed s db auto models = .error .notImplemented := by
  unfold seed
  rw [if_pos h]

/-- C68. Unless marks are asked for no field has one, and the values of no column are counted. -/
theorem C68_unmarked (s : Seeder) (hw : s.wh ≠ .unknown) (count count' : String → Res (List (String × Nat))) (schema table : String)
    (rows : List ColRow) (fields : List SeedField) (h : seedFields s count false schema table rows = .ok fields) :
    (∀ f ∈ fields, f.searchable = none) ∧ seedFields s count' false schema table rows = .ok fields := by
  refine ⟨?_, h⟩
  unfold seedFields at h
  cases hm : rows.mapM (seedField s.wh) with
  | error e => rw [hm] at h; cases h
  | ok fs =>
    rw [hm] at h
    cases h
    intro f hf
    obtain ⟨r, _, hr⟩ := forall₂_right (mapM_pairs hm) f hf
    obtain ⟨f', g1, _, g3⟩ := C68_field s.wh hw r
    rw [g1] at hr
    cases hr
    exact g3

/-! ## A concrete warehouse -/

/-- Snowflake with one schema chosen. -/
def exSeeder : Seeder := mkSeeder .snowflake "sf" (some "DEMO") none none (some "analytics") none

/-- Its columns: two tables of the schema, one of another. -/
def exColumns : List ColRow :=
  [⟨"ANALYTICS", "ORDERS", "ORDER_ID", "NUMBER", none⟩, ⟨"ANALYTICS", "ORDERS", "STATUS", "TEXT", some "The state"⟩,
    ⟨"RAW", "ORDERS", "BLOB", "VARIANT", none⟩, ⟨"ANALYTICS", "ORDERS", "ORDERED_AT", "TIMESTAMP_NTZ", none⟩,
    ⟨"ANALYTICS", "CUSTOMERS", "NAME", "VARCHAR", none⟩]

/-- Its tables. -/
def exTabs : List TabRow := [⟨"RAW", "ORDERS", some "raw"⟩, ⟨"ANALYTICS", "CUSTOMERS", some ""⟩, ⟨"ANALYTICS", "ORDERS", some "All orders"⟩]

/-- What it answers. -/
def exSeedDb : SeedDb where
  columns _ := .ok exColumns
  tables _ := .ok exTabs
  count q := if containsSub "STATUS".toList q.toList then .ok [("STATUS_cardinality", 5)] else .ok [("NAME_CARDINALITY", 4000)]

example : seed exSeeder exSeedDb true [("m", none)] = .ok ([],
    [{ name := "orders", modelName := "m", sqlTableName := "ANALYTICS.ORDERS", defaultDate := some "ordered_at",
       fields := [{ name := "order_id", sql := "${TABLE}.\"ORDER_ID\"", description := none, fieldType := "dimension", type := "number" },
         { name := "status", sql := "${TABLE}.\"STATUS\"", description := some "The state", fieldType := "dimension", type := "string",
           searchable := some true },
         { name := "ordered_at", sql := "${TABLE}.\"ORDERED_AT\"", description := none, fieldType := "dimension_group", type := "time",
           timeframes := ["raw", "date", "day_of_year", "week", "week_of_year", "month", "month_of_year", "quarter", "year"],
           datatype := some "timestamp" }],
       description := some "All orders" },
     { name := "customers", modelName := "m", sqlTableName := "ANALYTICS.CUSTOMERS", defaultDate := none,
       fields := [{ name := "name", sql := "${TABLE}.\"NAME\"", description := none, fieldType := "dimension", type := "string", searchable := some false }],
       description := none }]) := by decide +kernel

example : columnsQuery exSeeder = .ok ("SELECT table_catalog, table_schema, table_name, column_name, data_type, comment as comment FROM " ++
    "DEMO.INFORMATION_SCHEMA.COLUMNS WHERE TABLE_SCHEMA = 'analytics' LIMIT 10000;") := by decide +kernel

/-- The tables of DuckDB and of a BigQuery dataset; Databricks without a database lists its tables but not its columns. -/
example : tableQuery { exSeeder with wh := .duckDb } = .ok ("SELECT table_catalog as table_database, table_schema as table_schema, " ++
      "table_name as table_name, table_type as table_type FROM DEMO.INFORMATION_SCHEMA.TABLES WHERE table_schema not in ('pg_catalog', 'information_schema');") ∧
    (tableQuery { exSeeder with wh := .bigquery }).toOption.isSome = true ∧ (tableQuery { exSeeder with wh := .bigquery, schema := none }) = .error .valueError ∧
    (tableQuery { exSeeder with wh := .databricks, database := none }).toOption.isSome = true ∧
    columnsQuery { exSeeder with wh := .databricks, database := none } = .error .valueError := by decide +kernel

/-- The hypotheses of `C68_searchable` are met by the columns of the table of orders. -/
example : List.Forall₂ CountOf (textColumns .snowflake (columnsOf (inChoice exSeeder.schema exSeeder.table exColumns) "ORDERS"))
    [("STATUS_cardinality", 5)] ∧
    ((columnsOf (inChoice exSeeder.schema exSeeder.table exColumns) "ORDERS").map fun r => lower r.column).Nodup := by
  have : columnsOf (inChoice exSeeder.schema exSeeder.table exColumns) "ORDERS" =
      [⟨"ANALYTICS", "ORDERS", "ORDER_ID", "NUMBER", none⟩, ⟨"ANALYTICS", "ORDERS", "STATUS", "TEXT", some "The state"⟩,
        ⟨"ANALYTICS", "ORDERS", "ORDERED_AT", "TIMESTAMP_NTZ", none⟩] := by decide +kernel
  rw [this]
  refine ⟨?_, by decide +kernel⟩
  have : textColumns .snowflake [⟨"ANALYTICS", "ORDERS", "ORDER_ID", "NUMBER", none⟩, ⟨"ANALYTICS", "ORDERS", "STATUS", "TEXT", some "The state"⟩,
      ⟨"ANALYTICS", "ORDERS", "ORDERED_AT", "TIMESTAMP_NTZ", none⟩] = ["STATUS"] := by decide +kernel
  rw [this]
  exact .cons (by unfold CountOf; decide +kernel) .nil

/-- A table that is not among the tables of the second answer stops seeding. -/
example : seed exSeeder ⟨fun _ => .ok exColumns, fun _ => .ok [⟨"ANALYTICS", "ORDERS", none⟩], fun _ => .ok []⟩ false [] = .error .indexError := by decide +kernel

/-- Without a schema the view of the orders has the columns of both tables of the name. -/
example : (seed { exSeeder with schema := none } exSeedDb false []).toOption.map (fun p => p.2.map fun v => (v.sqlTableName, v.fields.map (·.name))) =
    some [("ANALYTICS.ORDERS", ["order_id", "status", "blob", "ordered_at"]), ("ANALYTICS.CUSTOMERS", ["name"])] := by decide +kernel

end ML
