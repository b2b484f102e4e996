import Verif.ViewCheck.Model
import Verif.FieldCheck.Spec
import Verif.Names.Spec
/-
Specification vocabulary for C63: the problems a view definition has, one rule per line, in terms of what is written in the definition and
of which fields, views and grants exist.
-/
set_option autoImplicit false
namespace ML.Spec

/-- Letters, digits and underscores, at least one. -/
def ProperName (name : String) : Prop :=
  name.toList ≠ [] ∧ ∀ c ∈ name.toList, ('a' ≤ c ∧ c ≤ 'z') ∨ ('A' ≤ c ∧ c ≤ 'Z') ∨ ('0' ≤ c ∧ c ≤ '9') ∨ c = '_'

/-- The name stands for several fields. -/
def Ambiguous {α : Type} (r : Res α) : Prop := r = .error .query

/-- A value as a text. -/
def Shown (env : ViewEnv) (v : Yaml) (s : String) : Prop := v = .str s ∨ (¬ Text v ∧ s = env.base.shown v)

/-- The problems of a set of the view. -/
inductive SetHas (env : ViewEnv) (view : String) (s : FDef) : SetProblem → Prop
  | noName : ¬ HasKey s "name" → SetHas env view s (.missing "name")
  | noFields : HasKey s "name" → ¬ HasKey s "fields" → SetHas env view s (.missing "fields")
  | name {n} : HasKey s "fields" → Given s "name" (.str n) → ¬ ProperName n → SetHas env view s .badName
  | view : HasKey s "name" → HasKey s "fields" → ProperName view → env.hasView view = false → SetHas env view s .noView
  | fields : HasKey s "name" → GivenNot s "fields" Listed → SetHas env view s .fieldsKind
  | unknown {l ns n e} : HasKey s "name" → Given s "fields" (.list l) → env.setNames view s = .ok ns → n ∈ ns →
      env.base.getText n = .error e → SetHas env view s (.unknown n)
  | key {k} : HasKey s "name" → HasKey s "fields" → HasKey s k → k ∉ ["name", "fields", "view_name"] → SetHas env view s (.unknownKey k)

/-- The field a filter of the view is on, with the view in front. -/
inductive AlwaysOn (view : String) (f : FDef) : String → Prop
  | mk {s full} : Given f "field" (.str s) → Qualified view s full → AlwaysOn view f full

/-- The problems of an always filter. -/
inductive AlwaysHas (env : ViewEnv) (view : String) (f : FDef) : FieldProblem → Prop
  | noField : ¬ HasKey f "field" → AlwaysHas env view f .filterNoField
  | unknown {n} : AlwaysOn view f n → Unknown (env.base.getText n) → AlwaysHas env view f (.filterUnknown n)
  | noValue : ¬ HasKey f "value" → AlwaysHas env view f .filterNoValue
  | value {f'} : GivenNot f "value" Text → qualifyFilter view (.dict f) = .dict f' → env.base.filterOk f' = false →
      AlwaysHas env view f .filterBadValue

/-- The problems of an access filter. -/
inductive AccessHas (env : ViewEnv) (f : FDef) : ViewProblem → Prop
  | noField : ¬ HasKey f "field" → AccessHas env f .accessNoField
  | unknown {n} : Given f "field" (.str n) → Unknown (env.base.getText n) → AccessHas env f (.accessUnknown n)
  | noAttribute : ¬ HasKey f "user_attribute" → AccessHas env f .accessNoAttribute
  | kind : GivenNot f "user_attribute" Text → AccessHas env f .accessAttributeKind

/-- The field looked up for the event dimension: with a dot in its name it is the default date that is looked up. -/
inductive EventName (env : ViewEnv) (view : String) (d : FDef) : String → Prop
  | own {s} : Given d "event_dimension" (.str s) → '.' ∉ s.toList → EventName env view d (view ++ "." ++ s)
  | date {s v t} : Given d "event_dimension" (.str s) → '.' ∈ s.toList → Given d "default_date" v → Shown env v t → t ≠ "" →
      EventName env view d t

/-- The full name a reference of an identifier stands for. -/
inductive ReferenceIs (view : String) : String → String → Prop
  | bare {n} : n.toList.count '.' = 0 → ReferenceIs view n (view ++ "." ++ n)
  | viewed {v n} : dotFree v → dotFree n → ReferenceIs view (v ++ "." ++ n) (v ++ "." ++ n)
  | explored {e v n} : dotFree e → dotFree v → dotFree n → ReferenceIs view (e ++ "." ++ v ++ "." ++ n) (v ++ "." ++ n)
  | other {n} : 3 ≤ n.toList.count '.' → ReferenceIs view n (view ++ "." ++ n)

/-- The identifier has the properties its kind must have. -/
structure FormedId (i : FDef) : Prop where
  name : HasKey i "name"
  type : HasKey i "type"
  parts : ∀ v, Given i "identifiers" v → ∃ l, v = .list l ∧ ∀ w ∈ l, ∃ q, w = .dict q ∧ HasKey q "name"
  join : Given i "type" (.str "join") →
    (∃ v, Given i "relationship" v ∧ Word ["many_to_one", "one_to_one", "one_to_many", "many_to_many"] v) ∧
    HasKey i "sql_on" ∧ HasKey i "reference"

/-- The identifiers of the view, all of them formed as they should be. -/
def IdentifiersAre (d : FDef) (ids : List FDef) : Prop :=
  (¬ HasKey d "identifiers" ∧ ids = []) ∨ (Given d "identifiers" (.list (ids.map .dict)) ∧ ∀ i ∈ ids, FormedId i)

/-- The identifier says which fields it consists of: its name is a text and it is primary or foreign. -/
def KeyNamed (i : FDef) (name : String) : Prop :=
  Given i "name" (.str name) ∧ (Given i "type" (.str "primary") ∨ Given i "type" (.str "foreign"))

/-- The names looked up for an identifier, with what is written for each of them in its SQL, if anything. -/
inductive LookedUp (view : String) (i : FDef) : Option String → String → Prop
  | sql {name s n full} : KeyNamed i name → Given i "sql" (.str s) → n.toList ∈ fieldsToReplace s.toList → n ≠ "TABLE" →
      ReferenceIs view n full → LookedUp view i (some n) full
  | own {name} : KeyNamed i name → ¬ HasKey i "sql" → ¬ HasKey i "identifiers" → LookedUp view i none (view ++ "." ++ name)

/-- A name looked up for the identifier stands for several fields. -/
def AmbiguousId (env : ViewEnv) (view : String) (i : FDef) : Prop := ∃ o n, LookedUp view i o n ∧ Ambiguous (env.base.getText n)

/-- The properties an identifier of the type may have. -/
inductive IdKey : String → String → Prop
  | all {t k} : k ∈ ["name", "type", "join_as", "join_as_label", "join_as_field_prefix", "include_metrics"] → IdKey t k
  | join {k} : k ∈ ["sql_on", "reference", "join_type", "relationship"] → IdKey "join" k
  | key {t k} : t ≠ "join" → k ∈ ["sql", "allowed_fanouts", "identifiers"] → IdKey t k

/-- The type of a named identifier is one of the three. -/
def TypedId (i : FDef) (t : String) : Prop := GivesText i "name" ∧ Given i "type" (.str t) ∧ t ∈ ["primary", "foreign", "join"]

/-- The problems of an identifier. -/
inductive IdHas (env : ViewEnv) (view : String) (i : FDef) : IdProblem → Prop
  | nameKind : GivenNot i "name" Text → IdHas env view i .nameKind
  | name {n} : Given i "name" (.str n) → ¬ ProperName n → IdHas env view i .badName
  | typeKind : GivesText i "name" → GivenNot i "type" Text → IdHas env view i .typeKind
  | type {t} : GivesText i "name" → Given i "type" (.str t) → t ∉ ["primary", "foreign", "join"] → IdHas env view i .badType
  | referenceKind : TypedId i "join" → GivenNot i "reference" Text → IdHas env view i (.wrongKind "reference")
  | noView {r} : TypedId i "join" → Given i "reference" (.str r) → env.hasView r = false → IdHas env view i .noView
  | joinType : TypedId i "join" → GivenNot i "join_type" (Word ["left_outer", "inner", "full_outer", "cross"]) → IdHas env view i .joinType
  | sqlOn : TypedId i "join" → GivenNot i "sql_on" Text → IdHas env view i (.wrongKind "sql_on")
  | sqlKind {n} : KeyNamed i n → GivenNot i "sql" Text → IdHas env view i (.wrongKind "sql")
  | noBraces {n s} : KeyNamed i n → Given i "sql" (.str s) → ¬ (∃ a b, s.toList = a ++ '$' :: '{' :: b) → IdHas env view i .noBraces
  | sqlUnknown {r full} : LookedUp view i (some r) full → Unknown (env.base.getText full) → IdHas env view i (.sqlUnknown r)
  | fieldUnknown {full} : LookedUp view i none full → Unknown (env.base.getText full) → IdHas env view i .fieldUnknown
  | notPrimary : TypedId i "foreign" → ¬ HasKey i "sql" → HasKey i "identifiers" → IdHas env view i .notPrimary
  | joinAs {t k} : TypedId i t → HasKey i "join_as" → k ∈ ["join_as", "join_as_label", "join_as_field_prefix"] → GivenNot i k Text →
      IdHas env view i (.wrongKind k)
  | include {t} : TypedId i t → HasKey i "join_as" → GivenNot i "include_metrics" Flag → IdHas env view i (.wrongKind "include_metrics")
  | key {t k} : TypedId i t → HasKey i k → ¬ IdKey t k → IdHas env view i (.unknownKey k)

/-- The number a value is compared as: true is one. -/
inductive NumberOf : Yaml → ℚ → Prop
  | yes : NumberOf (.bool true) 1
  | no : NumberOf (.bool false) 0
  | int {n : ℤ} : NumberOf (.int n) n
  | float {q : ℚ} : NumberOf (.float q) q

/-- Two names that count as one. -/
inductive SameName : Yaml → Yaml → Prop
  | text {s} : SameName (.str s) (.str s)
  | null : SameName .null .null
  | number {v w q} : NumberOf v q → NumberOf w q → SameName v w

/-- A list or a dictionary, which cannot be a name. -/
def NoName (v : Yaml) : Prop := Listed v ∨ Dictionary v

/-- The identifiers up to this one, none of which has an ambiguous name. -/
def Reached (env : ViewEnv) (view : String) (ids before : List FDef) (i : FDef) (after : List FDef) : Prop :=
  ids = before ++ i :: after ∧ ∀ j ∈ before ++ [i], ¬ AmbiguousId env view j

/-- How many times a report about a field begins with `Warning:`. -/
def Marks (f : FDef) (p : FieldProblem) (w : ℕ) : Prop :=
  ∃ a b, w = a + b ∧ ((a = 1 ∧ (p = .caseDeprecated ∨ p = .noDate)) ∨ (a = 0 ∧ ¬ (p = .caseDeprecated ∨ p = .noDate))) ∧
    ((b = 1 ∧ IsSet f "is_personal_field") ∨ (b = 0 ∧ ¬ IsSet f "is_personal_field"))

/-- A primary key of the view that is no measure. -/
def KeyField (f : FDef) (n : String) : Prop :=
  IsSet f "primary_key" ∧ ¬ Given f "field_type" (.str "measure") ∧ Given f "name" (.str n)

/-- The problems of a view with this name and these fields. -/
inductive ViewHas (env : ViewEnv) (view : String) (d : FDef) (fs : List FDef) : ViewProblem → Prop
  | name : ¬ ProperName view → ViewHas env view d fs .badName
  | text {k} : k ∈ ["label", "description", "row_label", "event_name", "sql_table_name", "default_date", "event_dimension"] →
      GivenNot d k Text → ViewHas env view d fs (.wrongKind k)
  | hidden : GivenNot d "hidden" Flag → ViewHas env view d fs (.wrongKind "hidden")
  | dict {k} : k ∈ ["derived_table", "extra"] → GivenNot d k Dictionary → ViewHas env view d fs (.wrongKind k)
  | list {k} : k ∈ ["sets", "always_filter", "access_filters", "fields_for_analysis"] → GivenNot d k Listed →
      ViewHas env view d fs (.wrongKind k)
  | long {s} : Given d "description" (.str s) → 1024 < s.length → ViewHas env view d fs .tooLong
  | both : HasKey d "sql_table_name" → HasKey d "derived_table" → ViewHas env view d fs .bothTables
  | noTable : ¬ HasKey d "sql_table_name" → ¬ HasKey d "derived_table" → ViewHas env view d fs .noTable
  | derivedNoSql {q} : Given d "derived_table" (.dict q) → ¬ HasKey q "sql" → ViewHas env view d fs .derivedNoSql
  | derivedSql {q} : Given d "derived_table" (.dict q) → GivenNot q "sql" Text → ViewHas env view d fs .derivedSqlKind
  | dateUnknown {s n} : Given d "default_date" (.str s) → s ≠ "" → Qualified view s n →
      (Unknown (env.base.getByName n) ∨ Ambiguous (env.base.getByName n)) → ViewHas env view d fs .dateUnknown
  | dateNotTime {s n g} : Given d "default_date" (.str s) → s ≠ "" → Qualified view s n → env.base.getByName n = .ok g → NotTime g →
      ViewHas env view d fs .dateNotTime
  | dateNotJoinable {s n g vs} : Given d "default_date" (.str s) → s ≠ "" → Qualified view s n → env.base.getByName n = .ok g →
      env.joinable view = .ok vs → g.view ∉ vs → g.view ≠ view → ViewHas env view d fs .dateNotJoinable
  | dateNoGraph {s n g} : Given d "default_date" (.str s) → s ≠ "" → Qualified view s n → env.base.getByName n = .ok g →
      (Unknown (env.joinable view) ∨ Ambiguous (env.joinable view)) → ViewHas env view d fs .dateUnknown
  | setItem : HasItemNot d "sets" Dictionary → ViewHas env view d fs .setNotDict
  | set {l s p} : Given d "sets" (.list l) → Yaml.dict s ∈ l → SetHas env view s p → ViewHas env view d fs (.set p)
  | alwaysItem : HasItemNot d "always_filter" Dictionary → ViewHas env view d fs .alwaysNotDict
  | always {l f p} : Given d "always_filter" (.list l) → Yaml.dict f ∈ l → AlwaysHas env view f p → ViewHas env view d fs (.always p)
  | noPrimaryKey : (∀ f ∈ fs, ¬ IsSet f "primary_key") → ViewHas env view d fs .noPrimaryKey
  | accessItem : HasItemNot d "access_filters" Dictionary → ViewHas env view d fs .accessNotDict
  | access {l f p} : Given d "access_filters" (.list l) → Yaml.dict f ∈ l → AccessHas env f p → ViewHas env view d fs p
  | grantKind : GivenNot d "required_access_grants" Listed → ViewHas env view d fs (.grant (.wrongKind "required_access_grants"))
  | grantItem : HasItemNot d "required_access_grants" Text → ViewHas env view d fs (.grant (.badItem "required_access_grants"))
  | grant {l g} : Given d "required_access_grants" (.list l) → Yaml.str g ∈ l → env.base.grant g = false →
      ViewHas env view d fs (.grant (.noGrant g))
  | event {n} : EventName env view d n → Unknown (env.base.getText n) → ViewHas env view d fs .eventUnknown
  | identifiers : (∀ ids, ¬ IdentifiersAre d ids) → ViewHas env view d fs .identifiers
  | ambiguous {ids i} : IdentifiersAre d ids → i ∈ ids → AmbiguousId env view i → ViewHas env view d fs .identifiers
  | identifier {ids before i after v n p} : IdentifiersAre d ids → Reached env view ids before i after → Given i "name" v → Shown env v n →
      IdHas env view i p → ViewHas env view d fs (.identifier n p)
  | duplicate {ids before i after j v w n} : IdentifiersAre d ids → Reached env view ids before i after → j ∈ before →
      Given j "name" w → Given i "name" v → SameName w v → Shown env v n → ViewHas env view d fs (.duplicateIdentifier n)
  | part {ids before i after l q v w n m} : IdentifiersAre d ids → Reached env view ids before i after → Given i "identifiers" (.list l) →
      Yaml.dict q ∈ l → Given q "name" w → (∀ j ∈ ids, ∀ u, Given j "name" u → ¬ SameName u w) → Given i "name" v → Shown env v n →
      Shown env w m → ViewHas env view d fs (.compositeUnknown n m)
  | field {f n p w} : f ∈ fs → Given f "name" (.str n) → HasProblem (fieldEnv env view d) n ((textAt f "field_type").getD "") f p →
      Marks f p w → ViewHas env view d fs (.field n ⟨w, p⟩)
  | manyKeys {f g n m} : f ∈ fs → g ∈ fs → KeyField f n → KeyField g m → n ≠ m → ViewHas env view d fs .manyKeys
  | duplicateFields {a b c f g n} : fs = a ++ f :: b ++ g :: c → Given f "name" (.str n) → Given g "name" (.str n) →
      ViewHas env view d fs .duplicateFields
  | key {k} : HasKey d k →
      k ∉ ["version", "type", "name", "model_name", "label", "description", "hidden", "sql_table_name", "derived_table", "default_date",
        "row_label", "sets", "always_filter", "access_filters", "required_access_grants", "event_dimension", "event_name", "extra",
        "identifiers", "fields", "fields_for_analysis", "model", "field_prefix", "_file_path"] → ViewHas env view d fs (.unknownKey k)

/-- Looking up either finds one thing, or says that there is none, or that there are several. -/
structure ViewLooksUp (env : ViewEnv) : Prop where
  getText : ∀ n e, env.base.getText n = .error e → e = .accessDenied ∨ e = .query
  getByName : ∀ n e, env.base.getByName n = .error e → e = .accessDenied ∨ e = .query
  joinable : ∀ n e, env.joinable n = .error e → e = .accessDenied ∨ e = .query

/-- An identifier with a name, or a part with a name, that cannot be a name. -/
inductive IdRaises (ids : List FDef) (i : FDef) : Prop
  | name {v} : Given i "name" v → NoName v → IdRaises ids i
  | part {l q w} : Given i "identifiers" (.list l) → Yaml.dict q ∈ l → Given q "name" w → NoName w → IdRaises ids i
  | other {l q j v} : Given i "identifiers" (.list l) → Yaml.dict q ∈ l → j ∈ ids → Given j "name" v → NoName v → IdRaises ids i

/-- The views for which validation ends with an exception instead of a report. -/
inductive ViewRaises (env : ViewEnv) (view : String) (d : FDef) (fs : List FDef) : Prop
  | table {v s e} : Given d "sql_table_name" v → (HasKey d "derived_table" ∨ ¬ Text v) → Shown env v s → env.table s = .error e →
      ViewRaises env view d fs
  | setName {l s} : Given d "sets" (.list l) → Yaml.dict s ∈ l → HasKey s "fields" → GivenNot s "name" Text → ViewRaises env view d fs
  | alwaysKind {l f} : Given d "always_filter" (.list l) → Yaml.dict f ∈ l → GivenNot f "field" Text → ViewRaises env view d fs
  | always {l f n} : Given d "always_filter" (.list l) → Yaml.dict f ∈ l → AlwaysOn view f n → Ambiguous (env.base.getText n) →
      ViewRaises env view d fs
  | accessKind {l f} : Given d "access_filters" (.list l) → Yaml.dict f ∈ l → GivenNot f "field" Text → ViewRaises env view d fs
  | access {l f n} : Given d "access_filters" (.list l) → Yaml.dict f ∈ l → Given f "field" (.str n) → Ambiguous (env.base.getText n) →
      ViewRaises env view d fs
  | noDate {s} : Given d "event_dimension" (.str s) → '.' ∈ s.toList → ¬ HasKey d "default_date" → ViewRaises env view d fs
  | event {n} : EventName env view d n → Ambiguous (env.base.getText n) → ViewRaises env view d fs
  | identifier {ids before i after} : IdentifiersAre d ids → Reached env view ids before i after → IdRaises ids i →
      ViewRaises env view d fs
  | field {f e} : f ∈ fs → collectErrors (fieldEnv env view d) f = .error e → ViewRaises env view d fs

/-- A field made of its definition: its name is in lower case, and its label prefix is the one of the view when that has one, else its own; an empty
one is left out. -/
structure MadeOf (pre : Option Yaml) (f g : FDef) : Prop where
  name : HasKey f "name"
  type : HasKey f "field_type"
  lower : ∀ s, Given f "name" (.str s) → Given g "name" (.str (String.ofList (s.toList.map Char.toLower)))
  kept : ∀ v, ¬ Text v → (Given g "name" v ↔ Given f "name" v)
  other : ∀ k v, k ≠ "name" → k ≠ "label_prefix" → (Given g k v ↔ Given f k v)
  prefixed : ∀ v, Given g "label_prefix" v ↔ v ≠ .null ∧ (pre = some v ∨ (pre = none ∧ Given f "label_prefix" v))

/-- Validation of the view, with this name and these fields, gets beyond its fields and its model. -/
structure Examined (env : ViewEnv) (d : FDef) (view : String) (fs : List FDef) : Prop where
  fields : checkedFields env d = .ok fs
  model : env.model = .ok true
  name : Given d "name" (.str view)

/-- Validating the view reports nothing, or only warnings: that there are two tables, that no field is the primary key, that the SQL of an
identifier refers to no field, that a measure has no date. -/
def OnlyWarnings (env : ViewEnv) (d : FDef) : Prop :=
  ∃ ps, viewErrorsOf env d = .ok ps ∧ ∀ p ∈ ps, p = .bothTables ∨ p = .noPrimaryKey ∨ (∃ n, p = .identifier n .noBraces) ∨
    ∃ n r, p = .field n r ∧ r.problem = .noDate

end ML.Spec
