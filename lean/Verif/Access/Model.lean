import Verif.Names.Model
/-
Access control and field lookup: `metrics_layer/core/model/project.py`,
`metrics_layer/core/model/view.py`, `metrics_layer/core/model/field.py`.

Simplifications shared by this file:
* definitions have passed the constructors' own `validate` (required keys present, right types);
* user attribute values and allowed values are strings;
* properties the lookups do not read (sql, labels, ...) are left out;
* the `model` argument of the lookups only ends up in the returned objects and is left out;
* `functools.lru_cache` is modelled separately, in `Verif/Project`.
-/
set_option autoImplicit false
namespace ML

/-- `AccessGrant`, model.py 30-45. -/
structure Grant where
  name : String
  userAttr : String
  allowed : List String
  deriving DecidableEq, Repr

/-- `project._user` when it is not `None`: a dictionary; a stored `None` is `none`. project.py 75-76 and 399. -/
abbrev User := List (String × Option String)

/-- `self._user.get(attr)`: `None` when missing or stored as `None`. project.py 404. -/
def User.get (u : User) (attr : String) : Option String :=
  match u.find? (fun p => p.1 = attr) with
  | some (_, v) => v
  | none => none

/-- `ZenlyticFieldType`, field.py. `none` stands for a definition without the key. -/
inductive FieldType where
  | dimension | dimensionGroup | measure | none
  deriving DecidableEq, Repr

/-- A field definition (a dictionary in a view file), field.py 145-160. -/
structure FieldDef where
  name : String
  fieldType : FieldType
  typ : String := "string"
  grants : List String := []
  timeframes : List String := []
  intervals : List String := []
  hidden : Bool := false
  primaryKey : Bool := false
  tags : List String := []
  deriving DecidableEq, Repr

/-- A view definition, view.py 30-58. -/
structure ViewDef where
  name : String
  grants : List String := []
  fields : List FieldDef := []
  hidden : Bool := false
  deriving DecidableEq, Repr

/-- A dashboard definition, dashboard.py. -/
structure DashDef where
  name : String
  grants : List String := []
  deriving DecidableEq, Repr

/-- A model definition (only the access grants matter here), model.py 133-142. -/
structure ModelDef where
  name : String
  accessGrants : List Grant := []
  deriving DecidableEq, Repr

/-- The part of a `Project` the lookups read, project.py 24-46. -/
structure Proj where
  models : List ModelDef := []
  views : List ViewDef := []
  dashboards : List DashDef := []
  user : Option User := none
  deriving DecidableEq, Repr

/-- A `Field` object: its view's name, its (lower-cased) definition and the time frame chosen
by the expansion of a dimension group, field.py 145-160 and view.py 978-996. -/
structure Field where
  viewName : String
  name : String
  fieldType : FieldType
  typ : String
  dimGroup : Option String
  hidden : Bool
  primaryKey : Bool
  tags : List String
  deriving DecidableEq, Repr

/-- `Project.access_grants`, project.py 379-380. -/
def accessGrants (P : Proj) : List Grant := P.models.flatMap (·.accessGrants)

/-- `Project.get_access_grant`, project.py 382-386. -/
def getAccessGrant (P : Proj) (name : String) : Res Grant :=
  match (accessGrants P).find? (fun g => g.name = name) with
  | some g => .ok g
  | none => .error .query

/-- One decision of `_can_access_object`, project.py 404-409. -/
def grantDecision (u : User) (g : Grant) : Bool :=
  match u.get g.userAttr with
  | none => true
  | some v => g.allowed.contains v

/-- The loop of `_can_access_object`, project.py 401-410: all decisions are computed before
they are combined. -/
def decisions (P : Proj) (u : User) : List String → Res (List Bool)
  | [] => .ok []
  | n :: ns =>
    match getAccessGrant P n with
    | .error e => .error e
    | .ok g =>
      match decisions P u ns with
      | .error e => .error e
      | .ok ds => .ok (grantDecision u g :: ds)

/-- `Project._can_access_object`, project.py 398-414; `req` is `obj.required_access_grants`
(missing and empty behave alike). -/
def canAccess (P : Proj) (req : List String) : Res Bool :=
  match P.user with
  | none => .ok true
  | some u =>
    if req.isEmpty then .ok true
    else match decisions P u req with
      | .error e => .error e
      | .ok ds => .ok (ds.all id)

/-- `Project.can_access_field`, project.py 394-396: the view is asked first. -/
def canAccessField (P : Proj) (v : ViewDef) (f : FieldDef) : Res Bool :=
  match canAccess P v.grants with
  | .error e => .error e
  | .ok cv =>
    match canAccess P f.grants with
    | .error e => .error e
    | .ok cf => .ok (cf && cv)

/-- `for x in xs: if p(x): out.append(x)` where `p` may raise. project.py 416-423. -/
def filterRes {α : Type} (p : α → Res Bool) : List α → Res (List α)
  | [] => .ok []
  | x :: xs =>
    match p x with
    | .error e => .error e
    | .ok b =>
      match filterRes p xs with
      | .error e => .error e
      | .ok ys => .ok (if b then x :: ys else ys)

/-- `for x in xs: out.extend(f(x))` where `f` may raise. project.py 440-452. -/
def concatRes {α β : Type} (f : α → Res (List β)) : List α → Res (List β)
  | [] => .ok []
  | x :: xs =>
    match f x with
    | .error e => .error e
    | .ok ys =>
      match concatRes f xs with
      | .error e => .error e
      | .ok zs => .ok (ys ++ zs)

/-- `View.__init__` lower-cases the name, view.py 40-50. -/
def ViewDef.init (v : ViewDef) : ViewDef := { v with name := lower v.name }

/-- `Project._all_views`, project.py 416-423. -/
def allViews (P : Proj) (showHidden : Bool) : Res (List ViewDef) :=
  filterRes (fun v =>
    match canAccess P v.grants with
    | .error e => .error e
    | .ok a => .ok (a && (showHidden || v.hidden == false))) (P.views.map ViewDef.init)

/-- `Project._all_dashboards`, project.py 344-351. -/
def allDashboards (P : Proj) : Res (List DashDef) :=
  filterRes (fun d => canAccess P d.grants) P.dashboards

/-- `Project.get_dashboard`, project.py 356-364. -/
def getDashboard (P : Proj) (name : String) : Res DashDef :=
  match allDashboards P with
  | .error e => .error e
  | .ok ds =>
    match ds.find? (fun d => d.name = name) with
    | some d => .ok d
    | none => .error .accessDenied

/-- `Project.get_view`, project.py 428-436 (`views()` shows hidden views by default). -/
def getView (P : Proj) (name : String) : Res ViewDef :=
  match allViews P true with
  | .error e => .error e
  | .ok vs =>
    match vs.find? (fun v => v.name = name) with
    | some v => .ok v
    | none => .error .accessDenied

/-- `Field(f, view=self)`, field.py 145-160: the name is lower-cased. -/
def mkField (v : ViewDef) (f : FieldDef) (dg : Option String) (hidden : Bool) : Field :=
  { viewName := v.name, name := lower f.name, fieldType := f.fieldType, typ := f.typ,
    dimGroup := dg, hidden := hidden, primaryKey := f.primaryKey, tags := f.tags }

/-- The body of the loop of `View._all_fields`, view.py 985-995. -/
def expandField (v : ViewDef) (expand : Bool) (f : FieldDef) : List Field :=
  if expand && f.fieldType == .dimensionGroup then
    if !f.timeframes.isEmpty then
      f.timeframes.map (fun t => mkField v f (some t) (if t = "raw" then true else f.hidden))
    else if !f.intervals.isEmpty then
      f.intervals.map (fun i => mkField v f (some (i ++ "s")) f.hidden)
    else []
  else [mkField v f none f.hidden]

/-- `View._all_fields`, view.py 978-996. -/
def viewAllFields (P : Proj) (v : ViewDef) (expand : Bool) : Res (List Field) :=
  concatRes (fun f =>
    match canAccessField P v f with
    | .error e => .error e
    | .ok b => .ok (if b then expandField v expand f else [])) v.fields

/-- `View.fields` on a fresh view object, view.py 970-976. -/
def viewFields (P : Proj) (v : ViewDef) (showHidden expand : Bool) : Res (List Field) :=
  match viewAllFields P v expand with
  | .error e => .error e
  | .ok fs => .ok (if showHidden then fs else fs.filter (fun f => !f.hidden))

/-- `Project.fields` without the cache, project.py 462-489. -/
def projFields (P : Proj) (viewName : Option String) (showHidden expand : Bool) :
    Res (List Field) :=
  match viewName with
  | none =>
    match allViews P true with
    | .error e => .error e
    | .ok vs => concatRes (fun v => viewFields P v showHidden expand) vs
  | some n =>
    match getView P n with
    | .error e => .error e
    | .ok v => viewFields P v showHidden expand

/-- `Field.alias()`, field.py 482-494. An unset dimension group prints as `None`. -/
def Field.alias (f : Field) : String :=
  match f.fieldType with
  | .dimensionGroup =>
    let g := f.dimGroup.getD "None"
    if f.typ = "time" then f.name ++ "_" ++ g
    else if f.typ = "duration" then g ++ "_" ++ f.name
    else f.name
  | _ => f.name

/-- `Field.id()`, field.py 175-179. -/
def Field.id (f : Field) : String := f.viewName ++ "." ++ f.alias

/-- `Field.equal`, field.py 879-892. Simplification: only for expanded fields, i.e. a dimension
group always has a chosen time frame (the lookups always expand). -/
def Field.equal (f : Field) (request : String) : Bool :=
  let (_, v, n) := fieldNameParts request
  match v with
  | some v' => if v' ≠ "" ∧ v' ≠ f.viewName then false else f.alias == n
  | none => f.alias == n

/-- `Project._parse_field_and_view_name`, project.py 540-549. -/
def parseFieldAndViewName (fieldName : String) (viewName : Option String) :
    Res (String × Option String) :=
  if '.' ∈ fieldName.toList then
    let (_, sv, n) := fieldNameParts fieldName
    match viewName with
    | some v => if v ≠ "" ∧ sv ≠ some v then .error .query else .ok (lower n, sv)
    | none => .ok (lower n, sv)
  else .ok (lower fieldName, viewName)

/-- The implicit row count of a view, project.py 566. -/
def countField (v : ViewDef) : Field :=
  { viewName := v.name, name := "count", fieldType := .measure, typ := "count", dimGroup := none,
    hidden := false, primaryKey := false, tags := [] }

/-- `Project._matching_field_handler`, project.py 551-576. -/
def matchingFieldHandler (P : Proj) (matching : List Field) (name : String)
    (viewName : Option String) : Res Field :=
  match matching with
  | [f] => .ok f
  | _ :: _ :: _ => .error .query
  | [] =>
    match viewName with
    | some v =>
      if name = "count" ∧ v ≠ "" then
        match getView P v with
        | .error e => .error e
        | .ok vd => .ok (countField vd)
      else .error .accessDenied
    | none => .error .accessDenied

/-- `Project.get_field` without the cache, project.py 501-506. -/
def getField (P : Proj) (fieldName : String) (viewName : Option String) : Res Field :=
  match parseFieldAndViewName fieldName viewName with
  | .error e => .error e
  | .ok (n, v) =>
    match projFields P v true true with
    | .error e => .error e
    | .ok fs => matchingFieldHandler P (fs.filter (fun f => f.equal n)) n v

/-- `Project.get_field_by_name` without the cache, project.py 516-520. -/
def getFieldByName (P : Proj) (fieldName : String) (viewName : Option String) : Res Field :=
  match parseFieldAndViewName fieldName viewName with
  | .error e => .error e
  | .ok (n, v) =>
    match projFields P v true false with
    | .error e => .error e
    | .ok fs => matchingFieldHandler P (fs.filter (fun f => f.name == n)) n v

/-- The tag spellings accepted by `get_field_by_tag`, project.py 526. -/
def tagOptions (tag : String) : Res (List String) :=
  match tag.toList.getLast? with
  | none => .error .indexError
  | some c =>
    if c ≠ 's' then .ok [tag, tag ++ "s"] else .ok [tag, String.ofList tag.toList.dropLast]

/-- `Project.get_field_by_tag` without the cache and without `join_graphs`, project.py 523-531. -/
def getFieldByTag (P : Proj) (tag : String) (viewName : Option String) : Res Field :=
  match tagOptions tag with
  | .error e => .error e
  | .ok opts =>
    match projFields P viewName true true with
    | .error e => .error e
    | .ok fs =>
      matchingFieldHandler P (fs.filter (fun f => f.tags.any (fun t => opts.contains t))) tag viewName

/-- `Project.does_field_exist`, project.py 533-538: only the not-found exception is caught. -/
def doesFieldExist (P : Proj) (fieldName : String) (viewName : Option String) : Res Bool :=
  match getField P fieldName viewName with
  | .ok _ => .ok true
  | .error .accessDenied => .ok false
  | .error e => .error e

/-- `Project.deduplicate_fields`, project.py 590-596: `seen` is `running_field_list`. -/
def dedupGo (seen : List String) : List Field → List Field
  | [] => []
  | f :: fs =>
    if f.id ∈ seen then dedupGo seen fs else f :: dedupGo (seen ++ [f.id]) fs

/-- `Project.deduplicate_fields`, project.py 590-596. -/
def deduplicateFields (fs : List Field) : List Field := dedupGo [] fs

end ML
