import Verif.Basic
/-
`Project.validate` and `Project._validate_dashboard_names`,
metrics_layer/core/model/project.py 235-342.

The collectors of the single objects (`Model.collect_errors`, `JoinGraph.collect_errors`,
`get_field_by_tag`, `View.sql_table_name`, `View.referenced_fields`, `View.collect_errors`,
`Dashboard.collect_errors`) are inputs: the value they return, or the text of the error they raise.
Errors of kinds that `validate` does not catch are not modelled. Line and column numbers are left
out of the reports.
-/
set_option autoImplicit false
namespace ML

/-- One entry of the list `validate` returns, project.py 231-233. -/
structure Report where
  message : String
  viewName : Option String := none
  fieldName : Option String := none
  deriving DecidableEq, Repr

/-- A reference that could not be located, view.py 951-968: the field, the reference, and whether
the field is personal (then the text carries `Warning: ` in front). The entries of
`referenced_fields` that are fields are skipped by `validate` (project.py 296) and left out. -/
structure BadRef where
  field : String
  reference : String
  personal : Bool := false
  deriving DecidableEq, Repr

/-- What `validate` asks of a view. project.py 259-312. -/
structure VView where
  name : String
  /-- `user_attribute` of each access filter -/
  accessFilters : List String := []
  /-- text of the `QueryError` raised by `sql_table_name` -/
  tableError : Option String := none
  /-- `referenced_fields()`, or the text of the error it raises -/
  references : Except String (List BadRef) := .ok []
  errors : List Report := []

/-- What `validate` asks of a dashboard. project.py 314-318. -/
structure VDash where
  name : String
  errors : List Report := []

/-- What `validate` asks of the project. project.py 235-258. -/
structure VProject where
  /-- `collect_errors()` of each model, or the text of its `QueryError` -/
  models : List (Except String (List Report)) := []
  /-- `join_graph.collect_errors()`, or the text of its `QueryError` -/
  graph : Except String (List Report) := .ok []
  /-- per join graph the text built from the `QueryError` of `get_field_by_tag`, if raised -/
  tags : List (Option String) := []
  /-- `_required_access_filter_user_attributes` -/
  required : List String := []
  views : List VView := []
  dashboards : List VDash := []

/-- The model part, project.py 236-242: `.error` is the early return. -/
def modelErrors : List (Except String (List Report)) → Except String (List Report)
  | [] => .ok []
  | .error e :: _ => .error e
  | .ok es :: ms => match modelErrors ms with
    | .error e => .error e
    | .ok rest => .ok (es ++ rest)

/-- The customer tag part, project.py 252-260. -/
def tagErrors (ts : List (Option String)) : List Report :=
  ts.filterMap (fun t => t.map (fun e => { message := e }))

/-- The required access filters of one view, project.py 263-284. -/
def accessErrors (required : List String) (v : VView) : List Report :=
  required.filterMap (fun a =>
    if v.accessFilters.isEmpty then
      some { message := "View " ++ v.name ++ " does not have any access filters, but an access filter"
               ++ " with user attribute " ++ a ++ " is required.", viewName := some v.name }
    else if v.accessFilters.all (fun f => f != a) then
      some { message := "View " ++ v.name ++ " does not have an access filter with the required user"
               ++ " attribute " ++ a, viewName := some v.name }
    else none)

/-- `str(e) + f" in the view {view.name}"`, project.py 289, 293. -/
def inView (e : String) (v : VView) : Report :=
  { message := e ++ " in the view " ++ v.name, viewName := some v.name }

/-- The report of one bad reference, project.py 297-313. -/
def refReport (v : VView) (b : BadRef) : Report :=
  { message := (if b.personal then "Warning: " else "") ++ "Could not locate reference "
      ++ b.reference ++ " in field " ++ b.field ++ " in view " ++ v.name
    viewName := some v.name, fieldName := some b.field }

/-- The loop over the views, project.py 262-314. `refs` is the local variable `referenced_fields`,
`none` while it is unbound. -/
def viewErrors (required : List String) (refs : Option (List BadRef)) : List VView → Res (List Report)
  | [] => .ok []
  | v :: vs =>
    let head := accessErrors required v ++ (v.tableError.map (inView · v)).toList
    match v.references, refs with
    | .error _, none => .error .unboundLocal
    | .error e, some old =>
      match viewErrors required (some old) vs with
      | .error x => .error x
      | .ok rest => .ok (head ++ [inView e v] ++ old.map (refReport v) ++ v.errors ++ rest)
    | .ok new, _ =>
      match viewErrors required (some new) vs with
      | .error x => .error x
      | .ok rest => .ok (head ++ new.map (refReport v) ++ v.errors ++ rest)

/-- `Counter(names)`: each distinct name with its frequency, in order of first use,
project.py 335. -/
def counter : List String → List (String × Nat)
  | [] => []
  | n :: ns => (n, (n :: ns).count n) :: (counter ns).filter (fun p => decide (p.1 ≠ n))

/-- Insertion before the first entry that is not more frequent. project.py 335. -/
def insertCommon (x : String × Nat) : List (String × Nat) → List (String × Nat)
  | [] => [x]
  | y :: ys => if y.2 ≤ x.2 then x :: y :: ys else y :: insertCommon x ys

/-- `Counter.most_common()`: a stable sort by decreasing frequency, project.py 335. -/
def mostCommon (l : List (String × Nat)) : List (String × Nat) := l.foldr insertCommon []

/-- The text for a repeated dashboard name, project.py 338. -/
def dupMessage (p : String × Nat) : Report :=
  { message := "Dashboard name " ++ p.1 ++ " appears " ++ toString p.2
      ++ " times, make sure dashboard names are unique" }

/-- `_validate_dashboard_names`, project.py 331-342: the loop stops at the first frequency that is
not above one. -/
def dashNameErrors (names : List String) : List Report :=
  ((mostCommon (counter names)).takeWhile (fun p => decide (p.2 > 1))).map dupMessage

/-- The final pass that keeps the first report of each message, project.py 322-327. -/
def cleanErrors (seen : List String) : List Report → List Report
  | [] => []
  | e :: es => if e.message ∈ seen then cleanErrors seen es
    else e :: cleanErrors (e.message :: seen) es

/-- `Project.validate`, project.py 235-329. -/
def validate (p : VProject) : Res (List Report) :=
  match modelErrors p.models with
  | .error e => .ok [{ message := e }]
  | .ok ms => match p.graph with
    | .error e => .ok [{ message := e }]
    | .ok gs => match viewErrors p.required none p.views with
      | .error x => .error x
      | .ok vs => .ok (cleanErrors [] (ms ++ gs ++ tagErrors p.tags ++ vs
          ++ p.dashboards.flatMap (·.errors) ++ dashNameErrors (p.dashboards.map (·.name))))

end ML
