import Verif.ViewCheck.Model
import Mathlib.Data.List.Sort
/-
What validating a model reports, and the mappings a model has: `/repo/metrics_layer/core/model/model.py` 18-370. Simplifications: the
messages are constructors of `ModelProblem`, their wording and positions are not modelled; the round trip through JSON (model.py 146)
changes nothing, because keys are texts and values are those of YAML without dates.
-/
set_option autoImplicit false
namespace ML

/-- What the validation of an access grant reports, model.py 38-92. -/
inductive GrantProblem
  /-- 40-45 -/
  | missing (key : String)
  /-- 52-53 -/
  | badName
  /-- 55-64 -/
  | attributeKind
  /-- 66-75 -/
  | valuesKind
  /-- 76-85 -/
  | noText
  /-- 87-91 -/
  | unknownKey (key : String)
deriving DecidableEq, Repr

/-- What the validation of one mapping reports, model.py 261-356. -/
inductive MapProblem
  /-- 270-280 -/
  | badName
  /-- 282-291 -/
  | notDict
  /-- 293-323 -/
  | wrongKind (key : String)
  /-- 324-333 -/
  | fieldsKind
  /-- 335-346 -/
  | unknown (field : String)
  /-- 348-356 -/
  | unknownKey (key : String)
deriving DecidableEq, Repr

/-- What the validation of a model reports, model.py 176-370. -/
inductive ModelProblem
  /-- 178-179 -/
  | badName
  /-- 181-206 and 235-244 -/
  | wrongKind (key : String)
  /-- 208-218 -/
  | weekStart
  /-- 220-233 -/
  | timezone
  /-- 135-138 and 254-257 -/
  | grantsKind
  /-- 139-140 and 254-257 -/
  | noGrant
  /-- 249-253 -/
  | grant (p : GrantProblem)
  /-- 261-356 -/
  | mapping (name : String) (p : MapProblem)
  /-- 357-362 -/
  | mappings
  /-- 364-369 -/
  | unknownKey (key : String)
deriving DecidableEq, Repr

/-- What validating a model reads besides the definition, model.py 145-362. -/
structure ModelCheckEnv where
  /-- `project.get_field` on a text -/
  getText : String → Res UField
  /-- `pendulum.timezone(str(v))` raises nothing -/
  timezone : Yaml → Bool
  /-- the `canon_date` of every field of the project, model.py 160 -/
  dates : Res (List (Option String))
  /-- a QueryError of `dates` says that a field misses a required key, model.py 358 -/
  badField : Bool
  /-- the order in which Python goes through the set of reserved names, model.py 151 -/
  order : List String

/-- SPECIAL_MAPPING_VALUES, model.py 18-27. -/
def specialMappings : List String := ["date", "day_of_year", "week_of_year", "week", "month_of_year", "month", "quarter", "year"]

/-- `Model.__init__`, model.py 111-124: two keys are required. -/
def modelInit (d : FDef) : Res FDef :=
  if (dictGet d "name").isSome ∧ (dictGet d "connection").isSome then .ok d else .error .query

/-- The keys of a `Counter`, model.py 161: each date once, in order of first occurrence. -/
def firstDates : List (Option String) → List (Option String)
  | [] => []
  | x :: l => x :: (firstDates l).filter (fun y => y != x)

/-- `Counter(dates).most_common()`, model.py 161: a stable sort by the number of occurrences, the largest first. -/
def dateRanks (l : List (Option String)) : List (Option String) :=
  (firstDates l).insertionSort (fun a b => l.count b ≤ l.count a)

/-- `does_field_exist`, project.py 533-538. -/
def fieldExists (env : ModelCheckEnv) (n : String) : Res Bool :=
  match env.getText n with
  | .ok _ => .ok true
  | .error .accessDenied => .ok false
  | .error e => .error e

/-- The loop over the dates, model.py 162-166. -/
def mappedDates (env : ModelCheckEnv) (word : String) : List (Option String) → Res (List String)
  | [] => .ok []
  | none :: l => mappedDates env word l
  | some d :: l =>
    match fieldExists env (d ++ "_" ++ word) with
    | .error e => .error e
    | .ok b =>
      match mappedDates env word l with
      | .error e => .error e
      | .ok r => .ok (if b then (d ++ "_" ++ word) :: r else r)

/-- The text of the description, model.py 156-159. -/
def dateDescription (word : String) : String :=
  "The " ++ word ++ " associated with the metric or metrics you have in your query. When in doubt, use this to trend metrics over time."

/-- The loop over the reserved names, model.py 151-169. -/
def addDates (env : ModelCheckEnv) : List String → FDef → Res FDef
  | [], ms => .ok ms
  | w :: ws, ms =>
    if (dictGet ms w).isSome then .error .query
    else
      match env.dates with
      | .error e => .error e
      | .ok ds =>
        match mappedDates env w (dateRanks ds) with
        | .error e => .error e
        | .ok fs =>
          addDates env ws (dictSet ms w (.dict [("fields", .list (fs.map .str)), ("group_label", .str "Dates"),
            ("description", .str (dateDescription w))]))

/-- The property `mappings`, model.py 144-170. -/
def mappingsOf (env : ModelCheckEnv) (d : FDef) : Res FDef :=
  match dictGet d "mappings" with
  | none => addDates env env.order []
  | some (.dict ms) => addDates env env.order ms
  | some _ => .error .query

/-- The allowed values of a grant, model.py 66-85. -/
def allowedCheck (g : FDef) : List GrantProblem :=
  match dictGet g "allowed_values" with
  | some (.list l) => if l.all (fun v => !v.isStr) then [.noText] else []
  | _ => [.valuesKind]

/-- The checks of a grant with all its keys, model.py 50-92. -/
def grantReports (g : FDef) : Res (List GrantProblem) :=
  match dictGet g "name" with
  | some (.str n) =>
    .ok ((if validName n then [] else [.badName]) ++
      wants g "user_attribute" Yaml.isStr .attributeKind ++
      allowedCheck g ++
      unknownKeys ["name", "user_attribute", "allowed_values"] .unknownKey g)
  | _ => .error .typeError

/-- One element of `access_grants`, model.py 38-45 and 249-253: `in` works for dictionaries, lists and texts, `get` for dictionaries
only. -/
def grantCheck (v : Yaml) : Res (List GrantProblem) :=
  match v with
  | .dict g =>
    if (dictGet g "name").isSome = false then .ok [.missing "name"]
    else if (dictGet g "user_attribute").isSome = false then .ok [.missing "user_attribute"]
    else if (dictGet g "allowed_values").isSome = false then .ok [.missing "allowed_values"]
    else grantReports g
  | .str s => if containsSub "name".toList s.toList then .error .attributeError else .ok [.missing "name"]
  | .list l => if l.any (fun w => decide (w.text? = some "name")) then .error .attributeError else .ok [.missing "name"]
  | _ => .error .typeError

/-- Reports of one kind as reports of the model. model.py 251, 253, 262. -/
def modelTagged {α : Type} (f : α → ModelProblem) : Res (List α) → Res (List ModelProblem)
  | .ok ps => .ok (ps.map f)
  | .error e => .error e

/-- The access grants, model.py 132-142 and 246-257. -/
def grantsChecks (d : FDef) : Res (List ModelProblem) :=
  match dictGet d "access_grants" with
  | none => .ok []
  | some (.list l) =>
    if l.all (fun v => !v.isDict) then .ok [.noGrant] else forEach (fun v => modelTagged .grant (grantCheck v)) l
  | some _ => .ok [.grantsKind]

/-- `project.get_field` on a value, project.py 501-506: anything but a text is a TypeError. -/
def lookUp (env : ModelCheckEnv) : Yaml → Res UField
  | .str s => env.getText s
  | _ => .error .typeError

/-- The fields of a mapping, model.py 324-346: without the property the message about it is a KeyError. -/
def mappingFields (env : ModelCheckEnv) (q : FDef) : List (Res (List MapProblem)) :=
  match dictGet q "fields" with
  | none => [.error .keyError]
  | some (.list l) => l.map (fun v => missingField (lookUp env v) (.unknown (v.text?.getD "")))
  | some _ => [.ok [.fieldsKind]]

/-- One mapping, model.py 261-356, step by step. -/
def mapSteps (env : ModelCheckEnv) (name : String) (v : Yaml) : List (Res (List MapProblem)) :=
  .ok (if validName name then [] else [.badName]) ::
    (match v with
    | .dict q =>
      .ok (wants q "link" Yaml.isStr (.wrongKind "link") ++ wants q "group_label" Yaml.isStr (.wrongKind "group_label") ++
        wants q "description" Yaml.isStr (.wrongKind "description")) :: mappingFields env q ++
      [.ok (unknownKeys ["fields", "group_label", "description", "link", "label"] .unknownKey q)]
    | _ => [.ok [.notDict]])

/-- The QueryError comes from the dates of the fields, model.py 148-160: the mappings are a dictionary, and the first reserved name Python looks
at is not among them. -/
def datesRaised (env : ModelCheckEnv) (d : FDef) : Bool :=
  (match env.dates with
    | .error _ => true
    | .ok _ => false) &&
  (match dictGet d "mappings", env.order with
    | none, _ :: _ => true
    | some (.dict ms), w :: _ => (dictGet ms w).isNone
    | _, _ => false)

/-- The mappings, model.py 258-362: a QueryError ends the loop and is reported, unless it is about a field that misses a key. Simplification: a
value of `mappings` that is no dictionary is taken not to spell that message itself. -/
def mappingsChecks (env : ModelCheckEnv) (d : FDef) : Res (List ModelProblem) :=
  match mappingsOf env d with
  | .error .query => if env.badField && datesRaised env d then .error .query else .ok [.mappings]
  | .error e => .error e
  | .ok ms =>
    match runUntil (ms.flatMap (fun m => (mapSteps env m.1 m.2).map (modelTagged (.mapping m.1)))) with
    | (ps, none) => .ok ps
    | (ps, some .query) => .ok (ps ++ [.mappings])
    | (_, some e) => .error e

/-- The weekdays, week_start_day_types.py 10. -/
def weekStartDays : List String := ["monday", "tuesday", "wednesday", "thursday", "friday", "saturday", "sunday"]

/-- The properties a model may have, model.py 96-109. -/
def modelKeys : List String :=
  ["version", "type", "name", "label", "connection", "week_start_day", "timezone", "default_convert_tz", "fiscal_month_offset",
   "access_grants", "mappings"]

/-- `Model.collect_errors`, model.py 176-370. -/
def modelErrorsOf (env : ModelCheckEnv) (d : FDef) : Res (List ModelProblem) :=
  match dictGet d "name" with
  | some (.str name) =>
    seqChecks
      [.ok (if validName name then [] else [.badName]),
       .ok (wants d "connection" Yaml.isStr (.wrongKind "connection") ++ wants d "label" Yaml.isStr (.wrongKind "label") ++
         wants d "fiscal_month_offset" Yaml.isInt (.wrongKind "fiscal_month_offset") ++
         wants d "week_start_day" (Yaml.oneOf weekStartDays) .weekStart ++
         wants d "timezone" env.timezone .timezone ++
         wants d "default_convert_tz" Yaml.isBool (.wrongKind "default_convert_tz")),
       grantsChecks d,
       mappingsChecks env d,
       .ok (unknownKeys (modelKeys ++ ["_file_path"]) .unknownKey d)]
  | _ => .error .typeError

/-- What `get_mappings` reads of each mapping, model.py 381-385: whether the name is reserved, and the fields. Simplification: fields that are no
texts are left out (looking them up is a TypeError). -/
def mappingLists (ms : FDef) : List (Bool × List String) :=
  ms.map (fun m => (decide (m.1 ∈ specialMappings),
    match m.2 with
    | .dict q => (match dictGet q "fields" with
      | some (.list l) => l.filterMap Yaml.text?
      | _ => [])
    | _ => []))

/-- The field a mapping names, with the join graph of its view, model.py 388-396. -/
def mapFieldOf (env : ModelCheckEnv) (hash : String → Res String) (n : String) : Res MField :=
  match env.getText n with
  | .error e => .error e
  | .ok f => .ok ⟨f.role, hash f.view⟩

end ML
