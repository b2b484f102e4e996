import Verif.FieldCheck.Model
/-
What validating a view reports: `/repo/metrics_layer/core/model/view.py` 46-56 and 166-173 (construction), 69-154 (properties), 197-950
(`_error`, `collect_errors`, `collect_required_access_grant_errors`, `collect_identifier_errors`), 970-996 (fields), and
`/repo/metrics_layer/core/model/set.py` 14-71 (sets).
-/
set_option autoImplicit false
namespace ML

/-- What the validation of a set reports, set.py 18-71. -/
inductive SetProblem
  /-- 21-22: a QueryError, reported by the view -/
  | missing (key : String)
  /-- 35-36 -/
  | badName
  /-- 38-42 -/
  | noView
  /-- 44-50 -/
  | fieldsKind
  /-- 58-64 -/
  | unknown (field : String)
  /-- 66-70 -/
  | unknownKey (key : String)
deriving DecidableEq, Repr

/-- What the validation of one identifier reports, view.py 678-950. -/
inductive IdProblem
  /-- 682-692 -/
  | nameKind
  /-- 693-694 -/
  | badName
  /-- 696-706 -/
  | typeKind
  /-- 707-717 -/
  | badType
  /-- 724-733 -/
  | noReference
  /-- the value of the property is not of the required type -/
  | wrongKind (key : String)
  /-- 744-756 -/
  | noView
  /-- 758-768 -/
  | joinType
  /-- 770-784 -/
  | relationship
  /-- 809-818: a warning -/
  | noBraces
  /-- 820-836 -/
  | sqlUnknown (name : String)
  /-- 837-850 -/
  | fieldUnknown
  /-- 863-873 -/
  | notPrimary
  /-- 874-884 -/
  | itemNotDict
  /-- 885-895 -/
  | itemNoName
  /-- 943-949 -/
  | unknownKey (key : String)
deriving DecidableEq, Repr

/-- What the validation of a view reports, view.py 201-631. Names of identifiers are shown as Python's `str` shows them. -/
inductive ViewProblem
  /-- 202-205 -/
  | fields
  /-- 208-216 -/
  | noModel
  /-- 218-219 -/
  | badName
  /-- the value of the property is not of the required type -/
  | wrongKind (key : String)
  /-- 236-250 -/
  | tooLong
  /-- 262-271: a warning -/
  | bothTables
  /-- 272-281 -/
  | noTable
  /-- 308-317 -/
  | derivedNoSql
  /-- 318-327 -/
  | derivedSqlKind
  /-- 344-353 -/
  | dateNotTime
  /-- 356-365 -/
  | dateNotJoinable
  /-- 366-372 -/
  | dateUnknown
  /-- 399-404 -/
  | setNotDict
  /-- 405-412 -/
  | set (p : SetProblem)
  /-- 426-433 -/
  | alwaysNotDict
  /-- 437-441 -/
  | always (p : FieldProblem)
  /-- 443-448: a warning -/
  | noPrimaryKey
  /-- 463-470 -/
  | accessNotDict
  /-- 471-477 -/
  | accessNoField
  /-- 478-490 -/
  | accessUnknown (field : String)
  /-- 491-500 -/
  | accessNoAttribute
  /-- 501-510 -/
  | accessAttributeKind
  /-- 512-520 -/
  | grant (p : FieldProblem)
  /-- 531-543 -/
  | eventUnknown
  /-- 591-592 -/
  | identifiers
  /-- 567 -/
  | identifier (name : String) (p : IdProblem)
  /-- 568-574 -/
  | duplicateIdentifier (name : String)
  /-- 576-589 -/
  | compositeUnknown (name ref : String)
  /-- 598 -/
  | field (name : String) (r : FieldReport)
  /-- 600-609 -/
  | manyKeys
  /-- 611-622 -/
  | duplicateFields
  /-- 624-629 -/
  | unknownKey (key : String)
deriving DecidableEq, Repr

/-- What validating a view reads besides the definition, view.py 201-950. -/
structure ViewEnv where
  /-- the look-ups and the SQL generation of field validation; `view` and `defaultDate` are not used -/
  base : CheckEnv
  /-- `project.get_model`: whether there is a model (view.py 143-154) -/
  model : Res Bool
  /-- `project.can_access_field`, project.py 394-396 -/
  canAccess : FDef → Res Bool
  /-- `project.get_joinable_views` -/
  joinable : String → Res (List String)
  /-- `project.get_view` finds a view -/
  hasView : String → Bool
  /-- `Set({**s, "view_name": view}).field_names()` for a set with a list of fields, set.py 73-101 -/
  setNames : String → FDef → Res (List String)
  /-- `resolve_sql_table_name`, view.py 1008-1047 -/
  table : String → Res String

/-- Python's `str` of a value. view.py 61, 132, 141. -/
def showYaml (env : ViewEnv) : Yaml → String
  | .str s => s
  | v => env.base.shown v

/-- `View.__init__`, view.py 46-56 and 166-173: `sets` is filled in, the name is in lower case, two keys are required. -/
def viewInit (d : FDef) : Res FDef :=
  let d := if (dictGet d "sets").isSome then d else dictSet d "sets" (.list [])
  let d := match dictGet d "name" with
    | some (.str s) => dictSet d "name" (.str (String.ofList (s.toList.map Char.toLower)))
    | _ => d
  if (dictGet d "name").isSome ∧ (dictGet d "fields").isSome then .ok d else .error .query

/-- `Field.__init__`, field.py 144-160 and 840-850, on the value of an element of `fields`, view.py 980-982. Elements that are no
dictionaries: `"name" in x` looks into texts and lists, `x["name"]` is then a TypeError. -/
def fieldInit (pre : Option Yaml) : Yaml → Res FDef
  | .dict f =>
    let f := match pre with
      | some v => dictSet f "label_prefix" v
      | none => f
    let f := match dictGet f "name" with
      | some (.str s) => dictSet f "name" (.str (String.ofList (s.toList.map Char.toLower)))
      | _ => f
    let f := match dictGet f "label_prefix" with
      | some .null => f.filter (fun e => e.1 ≠ "label_prefix")
      | _ => f
    if (dictGet f "name").isSome ∧ (dictGet f "field_type").isSome then .ok f else .error .query
  | .str s =>
    if pre.isSome then .error .typeError
    else if containsSub "name".toList s.toList ∨ containsSub "label_prefix".toList s.toList then .error .typeError else .error .query
  | .list l =>
    if pre.isSome then .error .typeError
    else if l.any (fun v => v.text? = some "name") ∨ l.any (fun v => v.text? = some "label_prefix") then .error .typeError
    else .error .query
  | _ => .error .typeError

/-- What a `for` loop goes through: the elements of a list, the keys of a dictionary, the characters of a text. view.py 980. -/
def iterate : Yaml → Res (List Yaml)
  | .list l => .ok l
  | .dict l => .ok (l.map (fun e => .str e.1))
  | .str s => .ok (s.toList.map (fun c => .str (String.ofList [c])))
  | _ => .error .typeError

/-- The loop over the fields, view.py 980-996, without expanding dimension groups. -/
def fieldsLoop (env : ViewEnv) (pre : Option Yaml) : List Yaml → Res (List FDef)
  | [] => .ok []
  | v :: l =>
    match fieldInit pre v with
    | .error e => .error e
    | .ok f =>
      match env.canAccess f with
      | .error e => .error e
      | .ok b =>
        match fieldsLoop env pre l with
        | .error e => .error e
        | .ok r => .ok (if b then f :: r else r)

/-- `fields(show_hidden=True)`, view.py 970-996. -/
def checkedFields (env : ViewEnv) (d : FDef) : Res (List FDef) :=
  match dictGet d "fields" with
  | none => .ok []
  | some v =>
    match iterate v with
    | .error e => .error e
    | .ok l => fieldsLoop env (if truthyOpt (dictGet d "field_prefix") then dictGet d "field_prefix" else none) l

/-- The property `sql_table_name`, view.py 57-63. -/
def viewTable (env : ViewEnv) (d : FDef) : Res (Option String) :=
  match dictGet d "sql_table_name" with
  | none => .ok none
  | some v => (env.table (showYaml env v)).map some

/-- A report about the table: it is placed at `self.sql_table_name`, which is computed for it. view.py 264, 284. -/
def tableReport (env : ViewEnv) (d : FDef) (p : ViewProblem) : Res (List ViewProblem) :=
  match viewTable env d with
  | .error e => .error e
  | .ok _ => .ok [p]

/-- The length of the description, view.py 236-250. -/
def descriptionCheck (d : FDef) : List ViewProblem :=
  match dictGet d "description" with
  | some (.str s) => if s.length > 1024 then [.tooLong] else []
  | _ => []

/-- Label, description and hidden, view.py 221-260. -/
def viewPlain (d : FDef) : List ViewProblem :=
  wants d "label" Yaml.isStr (.wrongKind "label") ++
  wants d "description" Yaml.isStr (.wrongKind "description") ++
  descriptionCheck d ++
  wants d "hidden" Yaml.isBool (.wrongKind "hidden")

/-- Where the rows come from, view.py 262-292. -/
def tableChecks (env : ViewEnv) (d : FDef) : List (Res (List ViewProblem)) :=
  [(if (dictGet d "sql_table_name").isSome ∧ (dictGet d "derived_table").isSome then tableReport env d .bothTables else .ok []),
   (if (dictGet d "sql_table_name").isSome = false ∧ (dictGet d "derived_table").isSome = false then tableReport env d .noTable else .ok []),
   (match dictGet d "sql_table_name" with
    | none => .ok []
    | some (.str _) => .ok []
    | some _ => tableReport env d (.wrongKind "sql_table_name"))]

/-- The derived table, view.py 294-327. -/
def derivedChecks (d : FDef) : List ViewProblem :=
  match dictGet d "derived_table" with
  | none => []
  | some (.dict q) =>
    match dictGet q "sql" with
    | none => [.derivedNoSql]
    | some (.str _) => []
    | some _ => [.derivedSqlKind]
  | some _ => [.wrongKind "derived_table"]

/-- The default date once it is found, view.py 343-372. -/
def foundDate (env : ViewEnv) (name : String) (g : UField) : Res (List ViewProblem) :=
  let ps : List ViewProblem := if g.role ≠ .group ∨ g.type ≠ "time" then [.dateNotTime] else []
  match env.joinable name with
  | .ok vs => .ok (ps ++ if (vs ++ [name]).contains g.view then [] else [.dateNotJoinable])
  | .error .query => .ok (ps ++ [.dateUnknown])
  | .error .accessDenied => .ok (ps ++ [.dateUnknown])
  | .error e => .error e

/-- The default date, view.py 328-372. -/
def defaultDateChecks (env : ViewEnv) (name : String) (d : FDef) : Res (List ViewProblem) :=
  match dictGet d "default_date" with
  | none => .ok []
  | some (.str s) =>
    if s = "" then .ok []
    else
      match env.base.getByName (qualifyRef name s) with
      | .ok g => foundDate env name g
      | .error .query => .ok [.dateUnknown]
      | .error .accessDenied => .ok [.dateUnknown]
      | .error e => .error e
  | some _ => .ok [.wrongKind "default_date"]

/-- The name of a set, set.py 35-36: `re.match` on anything but a text is a TypeError. -/
def setNameCheck (s : FDef) : Res (List SetProblem) :=
  match dictGet s "name" with
  | some (.str n) => .ok (if validName n then [] else [.badName])
  | _ => .error .typeError

/-- The fields of a set, set.py 44-64: whatever `field_names` or `get_field` raises is caught. -/
def setFieldsCheck (env : ViewEnv) (name : String) (s : FDef) : List SetProblem :=
  match dictGet s "fields" with
  | some (.list _) =>
    match env.setNames name s with
    | .error _ => []
    | .ok ns => ns.flatMap (fun n => match env.base.getText n with
      | .ok _ => []
      | .error _ => [.unknown n])
  | _ => [.fieldsKind]

/-- A set of the view, set.py 14-71 with view.py 405-412. The view's name is added to it. -/
def setChecks (env : ViewEnv) (name : String) (s : FDef) : Res (List SetProblem) :=
  if (dictGet s "name").isSome = false then .ok [.missing "name"]
  else if (dictGet s "fields").isSome = false then .ok [.missing "fields"]
  else
    seqChecks
      [setNameCheck s,
       .ok (if validName name ∧ env.hasView name = false then [.noView] else []),
       .ok (setFieldsCheck env name s),
       .ok (unknownKeys ["name", "fields", "view_name"] .unknownKey s)]

/-- Reports of one kind as reports of the view. view.py 408, 437, 512, 567. -/
def tagged {α : Type} (f : α → ViewProblem) : Res (List α) → Res (List ViewProblem)
  | .ok ps => .ok (ps.map f)
  | .error e => .error e

/-- The sets, view.py 389-412. -/
def setsChecks (env : ViewEnv) (name : String) (d : FDef) : Res (List ViewProblem) :=
  match dictGet d "sets" with
  | none => .ok []
  | some (.list l) => forEach (fun v => match v with
      | .dict s => tagged .set (setChecks env name s)
      | _ => .ok [.setNotDict]) l
  | some _ => .ok [.wrongKind "sets"]

/-- One always filter, view.py 425-441 with field.py 2700-2741: its field is qualified first. -/
def alwaysCheck (env : ViewEnv) (name : String) (v : Yaml) : Res (List ViewProblem) :=
  match qualifyFilter name v with
  | .dict f => tagged .always (seqChecks [filterFieldCheck env.base f, .ok (filterValueCheck env.base f)])
  | _ => .ok [.alwaysNotDict]

/-- The always filters, view.py 414-441. -/
def alwaysChecks (env : ViewEnv) (name : String) (d : FDef) : Res (List ViewProblem) :=
  match dictGet d "always_filter" with
  | none => .ok []
  | some (.list l) => forEach (alwaysCheck env name) l
  | some _ => .ok [.wrongKind "always_filter"]

/-- One access filter, view.py 462-510. -/
def accessCheck (env : ViewEnv) (v : Yaml) : Res (List ViewProblem) :=
  match v with
  | .dict f =>
    seqChecks
      [(match dictGet f "field" with
        | none => .ok [.accessNoField]
        | some w => missingField (getValue env.base w) (.accessUnknown (w.text?.getD ""))),
       .ok (match dictGet f "user_attribute" with
        | none => [.accessNoAttribute]
        | some (.str _) => []
        | some _ => [.accessAttributeKind])]
  | _ => .ok [.accessNotDict]

/-- The access filters, view.py 450-510. -/
def accessFilterChecks (env : ViewEnv) (d : FDef) : Res (List ViewProblem) :=
  match dictGet d "access_filters" with
  | none => .ok []
  | some (.list l) => forEach (accessCheck env) l
  | some _ => .ok [.wrongKind "access_filters"]

/-- The property `event_dimension`, view.py 135-141: a name with a dot in it is answered with the default date, a KeyError without one. -/
def eventDimension (env : ViewEnv) (name : String) (d : FDef) (s : String) : Res String :=
  if '.' ∈ s.toList then
    match dictGet d "default_date" with
    | none => .error .keyError
    | some v => .ok (showYaml env v)
  else .ok (name ++ "." ++ s)

/-- `event_dimension`, view.py 521-543. -/
def eventChecks (env : ViewEnv) (name : String) (d : FDef) : Res (List ViewProblem) :=
  match dictGet d "event_dimension" with
  | none => .ok []
  | some (.str s) =>
    match eventDimension env name d s with
    | .error e => .error e
    | .ok n => if n = "" then .ok [] else missingField (env.base.getText n) .eventUnknown
  | some _ => .ok [.wrongKind "event_dimension"]

/-- An element of an identifier's `identifiers` in the property, view.py 91-102. -/
def itemFormed : Yaml → Bool
  | .dict q => (dictGet q "name").isSome
  | _ => false

/-- The properties a custom join must have, view.py 103-125. -/
def customFormed (i : FDef) : Bool :=
  (match dictGet i "relationship" with
    | none => false
    | some v => v.oneOf ["many_to_one", "one_to_one", "one_to_many", "many_to_many"]) &&
  (dictGet i "sql_on").isSome && (dictGet i "reference").isSome

/-- An identifier about which the property `identifiers` does not raise, view.py 76-125. -/
def identifierFormed : Yaml → Bool
  | .dict i =>
    (dictGet i "name").isSome && (dictGet i "type").isSome &&
    (match dictGet i "identifiers" with
      | none => true
      | some (.list l) => l.all itemFormed
      | some _ => false) &&
    (if textAt i "type" = some "join" then customFormed i else true)
  | _ => false

/-- The dictionary of a value, view.py 566. -/
def Yaml.dict? : Yaml → Option FDef
  | .dict q => some q
  | _ => none

/-- The property `identifiers`, view.py 69-128: a QueryError for anything that is not formed as it should be. -/
def viewIdentifiers (d : FDef) : Res (List FDef) :=
  match dictGet d "identifiers" with
  | none => .ok []
  | some (.list l) => if l.all identifierFormed then .ok (l.filterMap Yaml.dict?) else .error .query
  | some _ => .error .query

/-- The name looked up for a reference of an identifier's SQL, view.py 822-827. -/
def identifierRef (view ref : String) : String :=
  (fieldNameParts ref).2.1.getD view ++ "." ++ (fieldNameParts ref).2.2

/-- The reference of a custom join, view.py 722-756. -/
def referenceCheck (env : ViewEnv) (i : FDef) : List IdProblem :=
  match dictGet i "reference" with
  | none => [.noReference]
  | some (.str r) => if env.hasView r then [] else [.noView]
  | some _ => [.wrongKind "reference"]

/-- A custom join, view.py 722-796. -/
def customChecks (env : ViewEnv) (i : FDef) : List IdProblem :=
  referenceCheck env i ++
  wants i "join_type" (Yaml.oneOf ["left_outer", "inner", "full_outer", "cross"]) .joinType ++
  wants i "relationship" (Yaml.oneOf ["many_to_one", "one_to_one", "one_to_many", "many_to_many"]) .relationship ++
  wants i "sql_on" Yaml.isStr (.wrongKind "sql_on")

/-- The elements of a composite key, view.py 874-895. -/
def itemChecks : Yaml → List IdProblem
  | .dict q => if (dictGet q "name").isSome then [] else [.itemNoName]
  | _ => [.itemNotDict]

/-- A composite key, view.py 851-895. -/
def compositeChecks (i : FDef) (v : Yaml) : List IdProblem :=
  match v with
  | .list l => (if textAt i "type" = some "primary" then [] else [.notPrimary]) ++ l.flatMap itemChecks
  | _ => [.wrongKind "identifiers"]

/-- The columns of a primary or foreign identifier, view.py 798-895. -/
def keyChecks (env : ViewEnv) (view name : String) (i : FDef) : Res (List IdProblem) :=
  match dictGet i "sql" with
  | some (.str s) =>
    if containsSub "${".toList s.toList then
      forEach (fun n => if n = "TABLE" then .ok [] else missingField (env.base.getText (identifierRef view n)) (.sqlUnknown n))
        ((fieldsToReplace s.toList).map String.ofList)
    else .ok [.noBraces]
  | some _ => .ok [.wrongKind "sql"]
  | none =>
    match dictGet i "identifiers" with
    | none => missingField (env.base.getText (view ++ "." ++ name)) .fieldUnknown
    | some v => .ok (compositeChecks i v)

/-- The properties of a `join_as`, view.py 899-941. -/
def joinAsChecks (i : FDef) : List IdProblem :=
  if (dictGet i "join_as").isSome then
    wants i "join_as" Yaml.isStr (.wrongKind "join_as") ++
    wants i "join_as_label" Yaml.isStr (.wrongKind "join_as_label") ++
    wants i "join_as_field_prefix" Yaml.isStr (.wrongKind "join_as_field_prefix") ++
    wants i "include_metrics" Yaml.isBool (.wrongKind "include_metrics")
  else []

/-- The properties an identifier may have, view.py 679, 719-721, 943. -/
def identifierKeys (type : String) : List String :=
  (if type = "join" then ["sql_on", "reference", "join_type", "relationship"] else ["sql", "allowed_fanouts", "identifiers"]) ++
  ["name", "type"] ++ ["join_as", "join_as_label", "join_as_field_prefix", "include_metrics"]

/-- The rest of `collect_identifier_errors`, view.py 719-950. -/
def typedChecks (env : ViewEnv) (view name type : String) (i : FDef) : List (Res (List IdProblem)) :=
  [(if type = "join" then .ok (customChecks env i) else keyChecks env view name i),
   .ok (joinAsChecks i),
   .ok (unknownKeys (identifierKeys type) .unknownKey i)]

/-- `collect_identifier_errors`, view.py 678-950, for an identifier with a name and a type. -/
def identifierChecks (env : ViewEnv) (view : String) (i : FDef) : Res (List IdProblem) :=
  match dictGet i "name" with
  | some (.str name) =>
    match dictGet i "type" with
    | some (.str t) =>
      if ["primary", "foreign", "join"].contains t then
        seqChecks (.ok (if validName name then [] else [.badName]) :: typedChecks env view name t i)
      else .ok ((if validName name then [] else [.badName]) ++ [.badType])
    | some _ => .ok ((if validName name then [] else [.badName]) ++ [.typeKind])
    | none => .error .keyError
  | some _ => .ok [.nameKind]
  | none => .error .keyError

/-- Whether a value can be in a set, view.py 569: lists and dictionaries cannot. -/
def Yaml.hashable : Yaml → Bool
  | .list _ => false
  | .dict _ => false
  | _ => true

/-- The number a value counts as when compared: true is 1. view.py 569, 578. -/
def Yaml.number? : Yaml → Option ℚ
  | .bool b => some (if b then 1 else 0)
  | .int n => some n
  | .float q => some q
  | _ => none

/-- Equality of two values that can be in a set, view.py 569, 578. -/
def Yaml.same (v w : Yaml) : Bool :=
  match v, w with
  | .null, .null => true
  | .str s, .str t => decide (s = t)
  | v, w =>
    match v.number?, w.number? with
    | some p, some q => decide (p = q)
    | _, _ => false

/-- The name of an identifier, view.py 568, 578. -/
def nameOf (i : FDef) : Yaml := (dictGet i "name").getD .null

/-- A name that was used before, view.py 568-575. -/
def usedCheck (env : ViewEnv) (used : List Yaml) (i : FDef) : Res (List ViewProblem) :=
  if (nameOf i).hashable = false then .error .typeError
  else .ok (if used.any (·.same (nameOf i)) then [.duplicateIdentifier (showYaml env (nameOf i))] else [])

/-- A reference of a composite key, view.py 578-589. -/
def partCheck (env : ViewEnv) (all : List FDef) (i : FDef) (v : Yaml) : Res (List ViewProblem) :=
  match v with
  | .dict q =>
    if all.all (fun j => (nameOf j).hashable) = false ∨ (nameOf q).hashable = false then .error .typeError
    else .ok (if all.any (fun j => (nameOf j).same (nameOf q)) then []
      else [.compositeUnknown (showYaml env (nameOf i)) (showYaml env (nameOf q))])
  | _ => .error .attributeError

/-- The references of a composite key, view.py 576-589. -/
def partsCheck (env : ViewEnv) (all : List FDef) (i : FDef) : Res (List ViewProblem) :=
  match dictGet i "identifiers" with
  | some (.list l) => forEach (partCheck env all i) l
  | some _ => .error .attributeError
  | none => .ok []

/-- The steps of the loop over the identifiers, in order. view.py 566-589. -/
def identifierSteps (env : ViewEnv) (view : String) (all : List FDef) (used : List Yaml) : List FDef → List (Res (List ViewProblem))
  | [] => []
  | i :: l =>
    tagged (.identifier (showYaml env (nameOf i))) (identifierChecks env view i) :: usedCheck env used i :: partsCheck env all i ::
      identifierSteps env view all (used ++ [nameOf i]) l

/-- Steps until one of them raises: what was reported before it stays. view.py 565-592. -/
def runUntil {π : Type} : List (Res (List π)) → List π × Option Err
  | [] => ([], none)
  | .error e :: _ => ([], some e)
  | .ok ps :: l => (ps ++ (runUntil l).1, (runUntil l).2)

/-- The identifiers, view.py 563-592: a QueryError ends the loop and is reported. -/
def identifiersChecks (env : ViewEnv) (name : String) (d : FDef) : Res (List ViewProblem) :=
  match viewIdentifiers d with
  | .error .query => .ok [.identifiers]
  | .error e => .error e
  | .ok ids =>
    match runUntil (identifierSteps env name ids [] ids) with
    | (ps, none) => .ok ps
    | (ps, some .query) => .ok (ps ++ [.identifiers])
    | (_, some e) => .error e

/-- The environment the fields of the view are checked in. view.py 598 with field.py 434-441, 1718-1721. -/
def fieldEnv (env : ViewEnv) (name : String) (d : FDef) : CheckEnv :=
  { env.base with view := name, defaultDate := (dictGet d "default_date").map (showYaml env) }

/-- The reports about one field, view.py 598. -/
def fieldReports (env : ViewEnv) (name : String) (d f : FDef) : Res (List ViewProblem) :=
  tagged (.field ((textAt f "name").getD "")) (collectErrors (fieldEnv env name d) f)

/-- The names of the primary keys that are no measures, view.py 594-597. -/
def keyNames (fs : List FDef) : List Yaml :=
  (fs.filter (fun f => truthyOpt (dictGet f "primary_key") && decide (textAt f "field_type" ≠ some "measure"))).map nameOf

/-- The fields, view.py 594-622. A field's name that is no text has made its own validation raise before names are compared. -/
def fieldsChecks (env : ViewEnv) (name : String) (d : FDef) (fs : List FDef) : List (Res (List ViewProblem)) :=
  fs.map (fieldReports env name d) ++
  [.ok (if ((keyNames fs).filterMap Yaml.text?).dedup.length > 1 then [.manyKeys] else []),
   .ok (if (fs.filterMap (textAt · "name")).Nodup then [] else [.duplicateFields])]

/-- The properties a view may have, view.py 21-45. -/
def viewKeys : List String :=
  ["version", "type", "name", "model_name", "label", "description", "hidden", "sql_table_name", "derived_table", "default_date",
   "row_label", "sets", "always_filter", "access_filters", "required_access_grants", "event_dimension", "event_name", "extra",
   "identifiers", "fields", "fields_for_analysis"]

/-- The checks after the name, view.py 221-630. -/
def viewChecks (env : ViewEnv) (name : String) (d : FDef) (fs : List FDef) : List (Res (List ViewProblem)) :=
  [.ok (viewPlain d)] ++ tableChecks env d ++
  [.ok (derivedChecks d),
   defaultDateChecks env name d,
   .ok (wants d "row_label" Yaml.isStr (.wrongKind "row_label")),
   .ok (wants d "extra" Yaml.isDict (.wrongKind "extra")),
   setsChecks env name d,
   alwaysChecks env name d,
   .ok (if fs.any (fun f => truthyOpt (dictGet f "primary_key")) then [] else [.noPrimaryKey]),
   accessFilterChecks env d,
   .ok ((grantChecks env.base d).map .grant),
   eventChecks env name d,
   .ok (wants d "event_name" Yaml.isStr (.wrongKind "event_name")),
   .ok (wants d "fields_for_analysis" Yaml.isList (.wrongKind "fields_for_analysis")),
   identifiersChecks env name d] ++
  fieldsChecks env name d fs ++
  [.ok (unknownKeys (viewKeys ++ ["model", "field_prefix", "_file_path"]) .unknownKey d)]

/-- `View.collect_errors`, view.py 201-631. -/
def viewErrorsOf (env : ViewEnv) (d : FDef) : Res (List ViewProblem) :=
  match checkedFields env d with
  | .error .query => .ok [.fields]
  | .error e => .error e
  | .ok fs =>
    match env.model with
    | .error .query => .ok [.noModel]
    | .error e => .error e
    | .ok false => .ok [.noModel]
    | .ok true =>
      match dictGet d "name" with
      | some (.str name) => seqChecks (.ok (if validName name then [] else [.badName]) :: viewChecks env name d fs)
      | _ => .error .typeError

/-- The reports that are warnings: those whose text begins with `Warning:`. view.py 266, 444, 814 with field.py 1470-1479. -/
def ViewProblem.isWarning : ViewProblem → Bool
  | .bothTables => true
  | .noPrimaryKey => true
  | .identifier _ .noBraces => true
  | .field _ r => decide (r.warnings > 0)
  | _ => false

end ML
