import Verif.ModelCheck.Model
import Verif.ViewCheck.Spec
/-
Specification vocabulary for C64: the problems a model definition has, one rule per line, and the dates the reserved mappings stand for.
-/
set_option autoImplicit false
namespace ML.Spec

/-- The reserved names of mappings. -/
def reserved : List String := ["date", "week", "month", "quarter", "year", "day_of_year", "week_of_year", "month_of_year"]

/-- The problems of an access grant. -/
inductive GrantHas (g : FDef) : GrantProblem → Prop
  | noName : ¬ HasKey g "name" → GrantHas g (.missing "name")
  | noAttribute : HasKey g "name" → ¬ HasKey g "user_attribute" → GrantHas g (.missing "user_attribute")
  | noValues : HasKey g "name" → HasKey g "user_attribute" → ¬ HasKey g "allowed_values" → GrantHas g (.missing "allowed_values")
  | name {n} : HasKey g "user_attribute" → HasKey g "allowed_values" → Given g "name" (.str n) → ¬ ProperName n → GrantHas g .badName
  | attributeKind : HasKey g "name" → HasKey g "allowed_values" → GivenNot g "user_attribute" Text → GrantHas g .attributeKind
  | valuesKind : HasKey g "name" → HasKey g "user_attribute" → GivenNot g "allowed_values" Listed → GrantHas g .valuesKind
  | noText {l} : HasKey g "name" → HasKey g "user_attribute" → Given g "allowed_values" (.list l) → (∀ v ∈ l, ¬ Text v) → GrantHas g .noText
  | key {k} : HasKey g "name" → HasKey g "user_attribute" → HasKey g "allowed_values" → HasKey g k →
      k ∉ ["name", "user_attribute", "allowed_values"] → GrantHas g (.unknownKey k)

/-- An element of the list of grants that is no dictionary: a text, or a list, in which `name` does not occur counts as a grant without a
name. -/
inductive NamelessGrant : Yaml → Prop
  | text {s : String} : ¬ (∃ a b, s.toList = a ++ "name".toList ++ b) → NamelessGrant (.str s)
  | list {l} : Yaml.str "name" ∉ l → NamelessGrant (.list l)

/-- A mapping that names a field by a name that stands for several. -/
def AmbiguousMap (env : ModelCheckEnv) (v : Yaml) : Prop :=
  ∃ q l f, v = .dict q ∧ Given q "fields" (.list l) ∧ Yaml.str f ∈ l ∧ Ambiguous (env.getText f)

/-- The mapping is one of those that are looked at: none before it has an ambiguous name. -/
def MapReached (env : ModelCheckEnv) (ms : FDef) (n : String) (v : Yaml) : Prop :=
  ∃ a b, ms = a ++ (n, v) :: b ∧ ∀ m ∈ a, ¬ AmbiguousMap env m.2

/-- The field is one of those that are looked at: its mapping is, and no field before it in the list has an ambiguous name. -/
def FieldReached (env : ModelCheckEnv) (ms : FDef) (n : String) (v : Yaml) : Prop :=
  ∃ q l₁ l₂, MapReached env ms n (.dict q) ∧ Given q "fields" (.list (l₁ ++ v :: l₂)) ∧
    ∀ f, Yaml.str f ∈ l₁ → ¬ Ambiguous (env.getText f)

/-- The problems of the mappings. -/
inductive MapHas (env : ModelCheckEnv) (ms : FDef) : String → MapProblem → Prop
  | name {n v} : MapReached env ms n v → ¬ ProperName n → MapHas env ms n .badName
  | kind {n v} : MapReached env ms n v → ¬ Dictionary v → MapHas env ms n .notDict
  | text {n q k} : MapReached env ms n (.dict q) → k ∈ ["link", "group_label", "description"] → GivenNot q k Text →
      MapHas env ms n (.wrongKind k)
  | fields {n q} : MapReached env ms n (.dict q) → GivenNot q "fields" Listed → MapHas env ms n .fieldsKind
  | unknown {n f} : FieldReached env ms n (.str f) → Unknown (env.getText f) → MapHas env ms n (.unknown f)
  | key {n q k} : MapReached env ms n (.dict q) → ¬ AmbiguousMap env (.dict q) → HasKey q k →
      k ∉ ["fields", "group_label", "description", "link", "label"] → MapHas env ms n (.unknownKey k)

/-- The mappings written in the definition. -/
inductive WrittenMappings (d : FDef) : FDef → Prop
  | none : ¬ HasKey d "mappings" → WrittenMappings d []
  | some {ms} : Given d "mappings" (.dict ms) → WrittenMappings d ms

/-- The problems of a model with this name. -/
inductive ModelHas (env : ModelCheckEnv) (name : String) (d : FDef) : ModelProblem → Prop
  | name : ¬ ProperName name → ModelHas env name d .badName
  | text {k} : k ∈ ["connection", "label"] → GivenNot d k Text → ModelHas env name d (.wrongKind k)
  | offset : GivenNot d "fiscal_month_offset" Whole → ModelHas env name d (.wrongKind "fiscal_month_offset")
  | convert : GivenNot d "default_convert_tz" Flag → ModelHas env name d (.wrongKind "default_convert_tz")
  | weekStart : GivenNot d "week_start_day" (Word ["monday", "tuesday", "wednesday", "thursday", "friday", "saturday", "sunday"]) →
      ModelHas env name d .weekStart
  | timezone {v} : Given d "timezone" v → env.timezone v = false → ModelHas env name d .timezone
  | grantsKind : GivenNot d "access_grants" Listed → ModelHas env name d .grantsKind
  | noGrant {l} : Given d "access_grants" (.list l) → (∀ v ∈ l, ¬ Dictionary v) → ModelHas env name d .noGrant
  | grant {l g p} : Given d "access_grants" (.list l) → Yaml.dict g ∈ l → GrantHas g p → ModelHas env name d (.grant p)
  | grantItem {l g v} : Given d "access_grants" (.list l) → Yaml.dict g ∈ l → v ∈ l → NamelessGrant v →
      ModelHas env name d (.grant (.missing "name"))
  | mappingsKind : GivenNot d "mappings" Dictionary → ModelHas env name d .mappings
  | reserved {ms w} : WrittenMappings d ms → w ∈ reserved → HasKey ms w → ModelHas env name d .mappings
  | mapping {ms n p} : WrittenMappings d ms → (∀ w ∈ Spec.reserved, ¬ HasKey ms w) → MapHas env ms n p → ModelHas env name d (.mapping n p)
  | ambiguous {ms n v} : WrittenMappings d ms → (n, v) ∈ ms → AmbiguousMap env v → ModelHas env name d .mappings
  | key {k} : HasKey d k →
      k ∉ ["version", "type", "name", "label", "connection", "week_start_day", "timezone", "default_convert_tz", "fiscal_month_offset",
        "access_grants", "mappings", "_file_path"] → ModelHas env name d (.unknownKey k)

/-- Looking up a field either finds one, or says that there is none, or that there are several; the dates of the fields can be told, and each of
them with a timeframe is the name of at most one field. -/
structure ModelLooksUp (env : ModelCheckEnv) : Prop where
  getText : ∀ n e, env.getText n = .error e → e = .accessDenied ∨ e = .query
  dates : ∃ ds, env.dates = .ok ds ∧ ∀ x w, some x ∈ ds → w ∈ reserved → ¬ Ambiguous (env.getText (x ++ "_" ++ w))
  order : env.order.Perm reserved

/-- The models for which validation ends with an exception instead of a report. -/
inductive ModelRaises (env : ModelCheckEnv) (d : FDef) : Prop
  | grantName {l g} : Given d "access_grants" (.list l) → Yaml.dict g ∈ l → HasKey g "user_attribute" → HasKey g "allowed_values" →
      GivenNot g "name" Text → ModelRaises env d
  | grantItem {l g v} : Given d "access_grants" (.list l) → Yaml.dict g ∈ l → v ∈ l → ¬ Dictionary v → ¬ NamelessGrant v →
      ModelRaises env d
  | noFields {ms n q} : WrittenMappings d ms → (∀ w ∈ reserved, ¬ HasKey ms w) → MapReached env ms n (.dict q) → ¬ HasKey q "fields" →
      ModelRaises env d
  | fieldKind {ms n v} : WrittenMappings d ms → (∀ w ∈ reserved, ¬ HasKey ms w) → FieldReached env ms n v → ¬ Text v → ModelRaises env d

/-- The fields the reserved mapping stands for: the dates of the project's fields that have this timeframe, each once, those that are the date of
more fields first, and in the order of the project otherwise. -/
structure DatesRanked (env : ModelCheckEnv) (ds : List (Option String)) (word : String) (l : List String) : Prop where
  are : ∃ names : List String, l = names.map (· ++ "_" ++ word) ∧ names.Nodup ∧
    (∀ x, x ∈ names ↔ some x ∈ ds ∧ ∃ f, env.getText (x ++ "_" ++ word) = .ok f) ∧
    names.Pairwise (fun x y => ds.count (some y) < ds.count (some x) ∨
      (ds.count (some y) = ds.count (some x) ∧ ds.idxOf (some x) < ds.idxOf (some y)))

end ML.Spec
