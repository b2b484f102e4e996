import Verif.FieldCheck.Model
import Verif.ViewCheck.Model
import Verif.FilterStr.Model
import Verif.JoinAs.Model
/-
Dashboards and their elements: `/repo/metrics_layer/core/model/dashboard.py`, with the look-up of a model
(`/repo/metrics_layer/core/model/project.py` 366-377), of a dashboard (353-364), and the constructor and `filter_dict` of
`/repo/metrics_layer/core/model/filter.py` (126-149).
-/
set_option autoImplicit false
namespace ML

/-- A model of the project, of which dashboard.py 26-32, 65 and 170 read the name and the first day of the week. Simplification: a
`week_start_day` that is no text is left out. -/
structure DModel where
  name : String
  week : Option String

/-- What a dashboard asks of its project (dashboard.py 22, 65, 81-97, 113, 147, 169): the models, whether a field can be looked up, the
timezone, and the present time in it (filter.py, `_today`). Looking up a field is modelled elsewhere (`Names/Model.lean`). -/
structure DashEnv where
  models : List DModel
  getField : Yaml → Res Unit
  timezone : Yaml
  now : DateTime
  num : ToNumeric

/-- One dictionary that `Filter.filter_dict` returns, filter.py 137-143: the definition passed, and the "expression" and "value" put into it, if
any. The "field" put into it is the one that is there. -/
structure DFilter where
  given : FDef
  meaning : Option Comparison

/-- `for x in xs: out.append(f(x))` where `f` may raise. dashboard.py 66, 135, 170, 184. -/
def mapDash {α β : Type} (f : α → Res β) : List α → Res (List β)
  | [] => .ok []
  | x :: xs =>
    match f x with
    | .error e => .error e
    | .ok y =>
      match mapDash f xs with
      | .error e => .error e
      | .ok ys => .ok (y :: ys)

/-- `for x in xs: out.extend(f(x))` where `f` may raise. dashboard.py 66, 81-97, 144-153, 175-179. -/
def flatDash {α β : Type} (f : α → Res (List β)) : List α → Res (List β)
  | [] => .ok []
  | x :: xs =>
    match f x with
    | .error e => .error e
    | .ok ys =>
      match flatDash f xs with
      | .error e => .error e
      | .ok zs => .ok (ys ++ zs)

/-- A value of a filter as `Filter._filter_dict` treats it, filter.py 349-470. Simplification: a number with a fraction is treated as the whole
number 2, which is neither true nor false, and 1.0 and 0.0 as 1 and 0; a dictionary cannot be hashed, like a list. -/
def filterValue : Yaml → FVal
  | .null => .null
  | .bool b => .bool b
  | .int n => .int n
  | .float q => if q = 1 then .int 1 else if q = 0 then .int 0 else .int 2
  | .str s => .str s.toList
  | .list _ => .list []
  | .dict _ => .list []

/-- The text of a week start day among the values of a definition, or null. dashboard.py 65, 172-174. -/
def weekYaml : Option String → Yaml
  | none => .null
  | some s => .str s

/-- `{**raw, "week_start_day": …, "timezone": …}`, dashboard.py 65-66, 169-176. -/
def withInfo (env : DashEnv) (week : Option String) (raw : FDef) : FDef :=
  dictSet (dictSet raw "week_start_day" (weekYaml week)) "timezone" env.timezone

/-- `Filter(definition).filter_dict(json_safe)` for a definition with its week start day, filter.py 126-149: the keys "field" and "value" are required;
each comparison is put into the definition; for the empty value, the definition is returned as it is. Simplification: what earlier calls
leave of pendulum's week settings has no influence (`C25_no_influence`), so that they are the default here; `json_safe` only writes the expression as a text. -/
def runFilter (env : DashEnv) (week : Option String) (d : FDef) : Res (List DFilter) :=
  match dictGet d "field" with
  | none => .error .query
  | some _ =>
    match dictGet d "value" with
    | none => .error .query
    | some v =>
      match filterValue v with
      | .str [] => .ok [⟨d, none⟩]
      | w =>
        match (filterDict env.num env.now week w defaultWeek).1 with
        | .error e => .error e
        | .ok cs => .ok (cs.map (fun c => ⟨d, some c⟩))

/-- The body of the loops of both `parsed_filters`, dashboard.py 66, 176: a filter must be a dictionary. -/
def runRaw (env : DashEnv) (week : Option String) : Yaml → Res (List DFilter)
  | .dict raw => runFilter env week (withInfo env week raw)
  | _ => .error .typeError

/-- `_raw_filters`, dashboard.py 59-62, 162-165, and going through it. -/
def rawFilters (d : FDef) : Res (List Yaml) :=
  match dictGet d "filters" with
  | none => .ok []
  | some .null => .ok []
  | some v => iterate v

/-! ### Elements -/

/-- `DashboardElement.__init__` and `validate`, dashboard.py 21-25, 34-38. Simplification: an element that is no dictionary is an error of no particular kind. -/
def elementInit : Yaml → Res FDef
  | .dict e =>
    match dictGet e "model" with
    | none => .error .query
    | some _ => .ok e
  | _ => .error .other

/-- `Project.get_model`, project.py 369-377: the first of the name. -/
def modelNamed (env : DashEnv) : Yaml → Res DModel
  | .str s =>
    match env.models.find? (fun m => m.name = s) with
    | some m => .ok m
    | none => .error .accessDenied
  | _ => .error .accessDenied

/-- `DashboardElement.get_model`, dashboard.py 26-32. `get_model` of the project never returns None. -/
def elementModel (env : DashEnv) (e : FDef) : Res DModel :=
  modelNamed env ((dictGet e "model").getD .null)

/-- `DashboardElement.metrics`, dashboard.py 50-56. -/
def elementMetrics (e : FDef) : Yaml :=
  let input := match dictGet e "metric" with
    | some v => v
    | none => (dictGet e "metrics").getD (.list [])
  match input with
  | .str s => .list [.str s]
  | v => v

/-- `DashboardElement.slice_by`, dashboard.py 46-48. -/
def elementSlices (e : FDef) : Yaml := (dictGet e "slice_by").getD (.list [])

/-- `DashboardElement.parsed_filters`, dashboard.py 64-66. -/
def elementFilters (env : DashEnv) (e : FDef) : Res (List DFilter) :=
  match elementModel env e with
  | .error er => .error er
  | .ok m =>
    match rawFilters e with
    | .error er => .error er
    | .ok raws => flatDash (runRaw env m.week) raws

/-- `DashboardElement.to_dict`, dashboard.py 40-44: the definition, with these "metrics" and "filters". Simplification: `json.dumps` raises for values that are
no JSON, such as dates. -/
structure ElementDict where
  defn : FDef
  metrics : Yaml
  filters : List DFilter

/-- `DashboardElement.to_dict`, dashboard.py 40-44. -/
def elementDict (env : DashEnv) (e : FDef) : Res ElementDict :=
  match elementFilters env e with
  | .error er => .error er
  | .ok fs => .ok ⟨e, elementMetrics e, fs⟩

/-- What validating a dashboard reports, dashboard.py 72-99, 144-153. -/
inductive DashProblem
  /-- 75-80 -/
  | model (v : Yaml)
  /-- 82-85 -/
  | metric (v : Yaml)
  /-- 87-90 -/
  | slice (v : Yaml)
  /-- 92-98 -/
  | elementFilter (v : Yaml)
  /-- 145-150 -/
  | filter (v : Yaml)

/-- One reference to a field, checked by `_function_executes`, dashboard.py 82-90, 101-107. -/
def checkField (env : DashEnv) (p : Yaml → DashProblem) (v : Yaml) : List DashProblem :=
  match env.getField v with
  | .ok _ => []
  | .error _ => [p v]

/-- One filter of an element, dashboard.py 92-98: `f.get` needs a dictionary; a filter without field is looked up as None. -/
def checkElementFilter (env : DashEnv) : Yaml → Res (List DashProblem)
  | .dict f => .ok (checkField env .elementFilter ((dictGet f "field").getD .null))
  | _ => .error .attributeError

/-- The first step of `DashboardElement.collect_errors`, dashboard.py 75-80: the message ends in the dashboard's name, which must be a text then. -/
def checkModel (env : DashEnv) (named : Bool) (e : FDef) : Res (List DashProblem) :=
  match elementModel env e with
  | .ok _ => .ok []
  | .error _ => if named then .ok [.model ((dictGet e "model").getD .null)] else .error .typeError

/-- `DashboardElement.collect_errors`, dashboard.py 72-99; `named` says whether the dashboard's name is a text. -/
def elementErrors (env : DashEnv) (named : Bool) (e : FDef) : Res (List DashProblem) :=
  match checkModel env named e with
  | .error er => .error er
  | .ok p1 =>
    match iterate (elementMetrics e) with
    | .error er => .error er
    | .ok ms =>
      match iterate (elementSlices e) with
      | .error er => .error er
      | .ok ss =>
        match rawFilters e with
        | .error er => .error er
        | .ok fs =>
          match flatDash (checkElementFilter env) fs with
          | .error er => .error er
          | .ok p4 => .ok (p1 ++ ms.flatMap (checkField env .metric) ++ ss.flatMap (checkField env .slice) ++ p4)

/-! ### Dashboards -/

/-- The first step of `Dashboard.__init__`, dashboard.py 112-113: `name.lower()` needs a text unless the name is null. -/
def lowerName (d : FDef) : Res FDef :=
  match dictGet d "name" with
  | none => .ok d
  | some .null => .ok d
  | some (.str s) => .ok (dictSet d "name" (.str (lower s)))
  | some _ => .error .attributeError

/-- The second step of `Dashboard.__init__`, dashboard.py 115-116. -/
def withLayout (d : FDef) : FDef :=
  match dictGet d "layout" with
  | none => dictSet d "layout" (.str "grid")
  | some .null => dictSet d "layout" (.str "grid")
  | some _ => d

/-- `Dashboard.__init__` and `validate`, dashboard.py 111-120, 128-132: the layout is there by then. -/
def dashInit (d : FDef) : Res FDef :=
  match lowerName d with
  | .error e => .error e
  | .ok d =>
    match dictGet (withLayout d) "name" with
    | none => .error .query
    | some _ => .ok (withLayout d)

/-- `Dashboard.elements`, dashboard.py 182-184: all elements are made before any is looked at. -/
def dashElements (d : FDef) : Res (List FDef) :=
  match iterate ((dictGet d "elements").getD (.list [])) with
  | .error e => .error e
  | .ok es => mapDash elementInit es

/-- The first day of the week of a dashboard's own filters, dashboard.py 170-174: the one all elements' models have, if there is just one. -/
def sharedWeek (weeks : List (Option String)) : Option String :=
  match weeks.dedup with
  | [w] => w
  | _ => none

/-- `Dashboard.parsed_filters`, dashboard.py 167-180. A dictionary returned by `filter_dict` has at least the keys put into it, so that it is never
equal to `{}` (178) and none is left out. -/
def dashFilters (env : DashEnv) (d : FDef) : Res (List DFilter) :=
  match dashElements d with
  | .error e => .error e
  | .ok es =>
    match mapDash (elementModel env) es with
    | .error e => .error e
    | .ok ms =>
      match rawFilters d with
      | .error e => .error e
      | .ok raws => flatDash (runRaw env (sharedWeek (ms.map (·.week)))) raws

/-- `Dashboard.to_dict`, dashboard.py 134-138: the definition, with these "elements" and "filters". Simplification: as for `ElementDict`. -/
structure DashDict where
  defn : FDef
  elements : List ElementDict
  filters : List DFilter

/-- `Dashboard.to_dict`, dashboard.py 134-138. -/
def dashDict (env : DashEnv) (d : FDef) : Res DashDict :=
  match dashElements d with
  | .error e => .error e
  | .ok es =>
    match mapDash (elementDict env) es with
    | .error e => .error e
    | .ok ds =>
      match dashFilters env d with
      | .error e => .error e
      | .ok fs => .ok ⟨d, ds, fs⟩

/-- One filter of a dashboard, dashboard.py 145-150: `f["field"]` is read again where the message is made, outside of the `try`. Simplification: a filter that is no
dictionary raises a type error, as indexing a text, a list or a number with a text does. -/
def checkDashFilter (env : DashEnv) : Yaml → Res (List DashProblem)
  | .dict f =>
    match dictGet f "field" with
    | none => .error .keyError
    | some v => .ok (checkField env .filter v)
  | _ => .error .typeError

/-- Whether the name is a text, dashboard.py 79. -/
def isNamed (d : FDef) : Bool :=
  match dictGet d "name" with
  | some (.str _) => true
  | _ => false

/-- `Dashboard.collect_errors`, dashboard.py 144-154. -/
def dashErrors (env : DashEnv) (d : FDef) : Res (List DashProblem) :=
  match rawFilters d with
  | .error e => .error e
  | .ok raws =>
    match flatDash (checkDashFilter env) raws with
    | .error e => .error e
    | .ok ps =>
      match dashElements d with
      | .error e => .error e
      | .ok es =>
        match flatDash (elementErrors env (isNamed d)) es with
        | .error e => .error e
        | .ok qs => .ok (ps ++ qs)

/-- `Dashboard.label`, dashboard.py 122-126. -/
def dashLabel (d : FDef) : Res Yaml :=
  match dictGet d "label" with
  | some v => if v.truthy then .ok v else fallback
  | none => fallback
where
  /-- dashboard.py 126 -/
  fallback : Res Yaml :=
    match dictGet d "name" with
    | some (.str s) => .ok (.str (defaultPrefix s))
    | _ => .error .attributeError

/-- `Dashboard.printable_attributes`, dashboard.py 156-160: the values among name, label and description that are written and not null. `to_dict` must
succeed. -/
def dashPrintable (env : DashEnv) (d : FDef) : Res FDef :=
  match dashDict env d with
  | .error e => .error e
  | .ok _ => .ok (["name", "label", "description"].filterMap (fun k =>
      match dictGet d k with
      | none => none
      | some .null => none
      | some v => some (k, v)))

/-- `Project.get_dashboard` for a user who may see all, project.py 353-364: every dashboard is made, and the first of the name returned. Access is modelled in
`Access/Model.lean`. -/
def dashNamed (ds : List FDef) (name : String) : Res FDef :=
  match mapDash dashInit ds with
  | .error e => .error e
  | .ok made =>
    match made.find? (fun d => textAt d "name" = some name) with
    | some d => .ok d
    | none => .error .accessDenied

end ML
