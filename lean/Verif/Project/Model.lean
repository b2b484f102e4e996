import Verif.Access.Model
/-
The project as a state machine: `metrics_layer/core/model/project.py`.

Python dictionaries that can be shared (views, models, dashboards) live in a heap, so that deep
copies, shared references and in-place edits are visible. A reference is an index in the heap.

Simplifications shared by this file:
* a user dictionary is kept in the key order `json.dumps(sort_keys=True)` gives it;
* `hash` is taken as collision free, so a cache hit means: same project object, same user text,
  same arguments (project.py 52-54; `Project` has no `__eq__`, so two projects never share entries);
* `_content_hash` is a cached property (project.py 66-73), computed once: it never invalidates
  anything and is left out of the key;
* the `model` argument of lookups and the `join_graphs` argument of `get_field_by_tag` are left out;
* the join graph is an arbitrary function `build` of the project content, see `Verif/JoinGraph`.
-/
set_option autoImplicit false
namespace ML

/-- A dictionary handed to the project. `nameless` is a view, model or dashboard without the key
`name`; `other` is anything whose `type` is none of the three, project.py 188-199. -/
inductive Obj where
  | view (v : ViewDef)
  | model (m : ModelDef)
  | dash (d : DashDef)
  | nameless
  | other
  deriving DecidableEq, Repr

/-- The object as a view. project.py 186-225. -/
def Obj.asView : Obj → Option ViewDef | .view v => some v | _ => none
/-- The object as a model. project.py 186-225. -/
def Obj.asModel : Obj → Option ModelDef | .model m => some m | _ => none
/-- The object as a dashboard. project.py 186-225. -/
def Obj.asDash : Obj → Option DashDef | .dash d => some d | _ => none

/-- The arguments of `Project.fields`, project.py 463-469. -/
structure FieldsArgs where
  viewName : Option String
  showHidden : Bool
  expand : Bool
  deriving DecidableEq, Repr

/-- Which of the three cached single-field lookups: `get_field`, `get_field_by_name`,
`get_field_by_tag`. project.py 500-530. -/
inductive LKind where
  | field | byName | byTag
  deriving DecidableEq, Repr

/-- The key of a single-field lookup. The three `lru_cache`s are one table with the kind in the
key. project.py 500-530. -/
structure LKey where
  user : Option User
  kind : LKind
  name : String
  viewName : Option String
  deriving DecidableEq, Repr

/-- The mutable project object, project.py 33-46. `G` is the type of join graphs. -/
structure PState (G : Type) where
  heap : List Obj := []
  models : List Nat := []
  views : List Nat := []
  dashboards : List Nat := []
  user : Option User := none
  fieldsC : List ((Option User × FieldsArgs) × List Field) := []
  lookupC : List (LKey × Field) := []
  graph : Option G := none

section
variable {G : Type}

/-- The object a reference points to. Python references, project.py 30-48. -/
def getObj (h : List Obj) (r : Nat) : Option Obj := h[r]?

/-- What the project's three lists currently hold, read through the references. project.py 30-48. -/
def PState.content (s : PState G) : Proj :=
  { models := s.models.filterMap (fun r => (getObj s.heap r).bind Obj.asModel)
    views := s.views.filterMap (fun r => (getObj s.heap r).bind Obj.asView)
    dashboards := s.dashboards.filterMap (fun r => (getObj s.heap r).bind Obj.asDash)
    user := s.user }

/-- The user part of `Project.__hash__`, project.py 52-54: `None` and `{}` give the same text. -/
def userKey : Option User → Option User
  | some [] => none
  | u => u

/-- Dictionary lookup in a cache. `functools.lru_cache`, project.py 462-530. -/
def cacheGet {K V : Type} [DecidableEq K] (c : List (K × V)) (k : K) : Option V :=
  match c.find? (fun p => decide (p.1 = k)) with
  | some p => some p.2
  | none => none

/-- `Project.refresh_cache`, project.py 56-64. -/
def PState.refresh (s : PState G) : PState G :=
  { s with fieldsC := [], lookupC := [], graph := none }

/-- `next(v for v in self._views if v["name"] == view_name)`, project.py 90 and 104. -/
def PState.findView (s : PState G) (viewName : String) : Option Nat :=
  s.views.find? (fun r => decide (((getObj s.heap r).bind Obj.asView).map (·.name) = some viewName))

/-- An in-place edit of the object at `r`. project.py 89-113. -/
def PState.write (s : PState G) (r : Nat) (o : Obj) : PState G := { s with heap := s.heap.set r o }

/-- An in-place edit of the `fields` of the view at `r`. project.py 89-113. -/
def PState.editFields (s : PState G) (r : Nat) (f : List FieldDef → List FieldDef) : PState G :=
  match (getObj s.heap r).bind Obj.asView with
  | some v => s.write r (.view { v with fields := f v.fields })
  | none => s

/-- The condition and append of `add_field`, project.py 98-99. -/
def appendField (fd : FieldDef) (fs : List FieldDef) : List FieldDef :=
  if fs.any (fun f => lower f.name == lower fd.name) then fs else fs ++ [fd]

/-- `Project.add_field`, project.py 89-101. -/
def PState.addField (s : PState G) (fd : FieldDef) (viewName : String) (refresh : Bool) :
    PState G × Option Err :=
  match s.findView viewName with
  | none => (s, some .accessDenied)
  | some r =>
    let s' := s.editFields r (appendField fd)
    (if refresh then s'.refresh else s', none)

/-- `Project.remove_field`, project.py 103-113. -/
def PState.removeField (s : PState G) (name viewName : String) (refresh : Bool) :
    PState G × Option Err :=
  match s.findView viewName with
  | none => (s, some .accessDenied)
  | some r =>
    let s' := s.editFields r (fun fs => fs.filter (fun f => decide (f.name ≠ name)))
    (if refresh then s'.refresh else s', none)

/-- Constructing `Field(f, view)` lower-cases the name in the caller's dictionary,
field.py 149-150. The loop of `View._all_fields` (view.py 978-984) does it for each definition in
order and stops when an access check raises. -/
def touchFields (P : Proj) (v : ViewDef) : List FieldDef → List FieldDef × Bool
  | [] => ([], true)
  | f :: fs =>
    match canAccessField P v f with
    | .error _ => ({ f with name := lower f.name } :: fs, false)
    | .ok _ =>
      let (fs', b) := touchFields P v fs
      ({ f with name := lower f.name } :: fs', b)

/-- The effect on the heap of listing the fields of the views at `rs` (those the user may access),
in order, until something raises. project.py 416-430. -/
def touchViews (P : Proj) (h : List Obj) : List Nat → List Obj
  | [] => h
  | r :: rs =>
    match (getObj h r).bind Obj.asView with
    | none => touchViews P h rs
    | some v =>
      match canAccess P v.grants with
      | .ok true =>
        let (fs', b) := touchFields P v v.fields
        let h' := h.set r (.view { v with fields := fs' })
        if b then touchViews P h' rs else h'
      | _ => touchViews P h rs

/-- The effect on the heap of an uncached `Project.fields`, project.py 462-489. With a view name,
only the first accessible view of that (lower-cased) name is listed. -/
def touch (s : PState G) (a : FieldsArgs) : PState G :=
  match allViews s.content true with
  | .error _ => s
  | .ok _ =>
    match a.viewName with
    | none => { s with heap := touchViews s.content s.heap s.views }
    | some n =>
      match s.views.find? (fun r =>
          match (getObj s.heap r).bind Obj.asView with
          | some v => decide (lower v.name = n) && decide (canAccess s.content v.grants = .ok true)
          | none => false) with
      | some r => { s with heap := touchViews s.content s.heap [r] }
      | none => s

/-- `Project.fields` with its `lru_cache`, project.py 462-489. Exceptions are not cached. -/
def PState.fields (s : PState G) (a : FieldsArgs) : PState G × Res (List Field) :=
  match cacheGet s.fieldsC (userKey s.user, a) with
  | some fs => (s, .ok fs)
  | none =>
    match projFields s.content a.viewName a.showHidden a.expand with
    | .error e => (touch s a, .error e)
    | .ok fs =>
      let s' := touch s a
      ({ s' with fieldsC := ((userKey s.user, a), fs) :: s'.fieldsC }, .ok fs)

/-- The part of the three single-field lookups before `self.fields` is called: the name and view
searched for, whether dimension groups are expanded, and the match condition,
project.py 502-505, 517-519, 526-528. -/
def lookupPlan (k : LKind) (n : String) (v : Option String) :
    Res (String × Option String × Bool × (Field → Bool)) :=
  match k with
  | .field =>
    match parseFieldAndViewName n v with
    | .error e => .error e
    | .ok (n', v') => .ok (n', v', true, fun f => f.equal n')
  | .byName =>
    match parseFieldAndViewName n v with
    | .error e => .error e
    | .ok (n', v') => .ok (n', v', false, fun f => f.name == n')
  | .byTag =>
    match tagOptions n with
    | .error e => .error e
    | .ok opts => .ok (n, v, true, fun f => f.tags.any (fun t => opts.contains t))

/-- `get_field`, `get_field_by_name`, `get_field_by_tag` with their `lru_cache`s,
project.py 500-531. -/
def PState.lookup (s : PState G) (k : LKind) (n : String) (v : Option String) :
    PState G × Res Field :=
  match cacheGet s.lookupC ⟨userKey s.user, k, n, v⟩ with
  | some f => (s, .ok f)
  | none =>
    match lookupPlan k n v with
    | .error e => (s, .error e)
    | .ok (n', v', expand, p) =>
      match s.fields ⟨v', true, expand⟩ with
      | (s', .error e) => (s', .error e)
      | (s', .ok fs) =>
        match matchingFieldHandler s'.content (fs.filter p) n' v' with
        | .error e => (s', .error e)
        | .ok f =>
          ({ s' with lookupC := (⟨userKey s.user, k, n, v⟩, f) :: s'.lookupC }, .ok f)

/-- `Project.join_graph`, project.py 129-134. -/
def PState.joinGraph (build : Proj → Res G) (s : PState G) : PState G × Res G :=
  match s.graph with
  | some g => (s, .ok g)
  | none =>
    match build s.content with
    | .error e => (s, .error e)
    | .ok g => ({ s with graph := some g }, .ok g)

/-- The calls a caller can make. `mutate` is an edit by the caller of a dictionary they hold;
`raise` is any exception raised by the caller's own code. project.py 75-225. -/
inductive Op where
  | addField (fd : FieldDef) (viewName : String) (refresh : Bool)
  | removeField (name viewName : String) (refresh : Bool)
  | refresh
  | setUser (u : Option User)
  | fields (a : FieldsArgs)
  | lookup (k : LKind) (n : String) (v : Option String)
  | graph
  | mutate (r : Nat) (o : Obj)
  | raise (e : Err)
  deriving Repr

/-- What a call returned. project.py 75-225. -/
inductive Out (G : Type) where
  | unit
  | fields (fs : List Field)
  | field (f : Field)
  | graph (g : G)
  | err (e : Err)
  deriving DecidableEq, Repr

/-- The outcome of a call that returns nothing or raises. project.py 75-225. -/
def Out.ofErr {G : Type} : Option Err → Out G
  | none => .unit
  | some e => .err e

/-- One call. `set_user` only stores the user, project.py 75-76. -/
def PState.step (build : Proj → Res G) (s : PState G) : Op → PState G × Out G
  | .addField fd v r => ((s.addField fd v r).1, .ofErr (s.addField fd v r).2)
  | .removeField n v r => ((s.removeField n v r).1, .ofErr (s.removeField n v r).2)
  | .refresh => (s.refresh, .unit)
  | .setUser u => ({ s with user := u }, .unit)
  | .fields a =>
    match s.fields a with
    | (s', .ok fs) => (s', .fields fs)
    | (s', .error e) => (s', .err e)
  | .lookup k n v =>
    match s.lookup k n v with
    | (s', .ok f) => (s', .field f)
    | (s', .error e) => (s', .err e)
  | .graph =>
    match s.joinGraph build with
    | (s', .ok g) => (s', .graph g)
    | (s', .error e) => (s', .err e)
  | .mutate r o => (s.write r o, .unit)
  | .raise e => (s, .err e)

/-- A caller's program: calls in sequence, `with project.replace_objects(objs): body`, and
`try: body except: pass`. An exception stops a sequence. project.py 186-225. -/
inductive Prog where
  | skip
  | op (o : Op)
  | seq (p q : Prog)
  | replace (objs : List Nat) (body : Prog)
  | attempt (body : Prog)
  deriving Repr

/-- One observation: the call, the content and user it was made against, and the answer. project.py 75-225. -/
structure Event (G : Type) where
  op : Op
  before : Proj
  out : Out G

/-- The references among `objs` whose object satisfies `p`, project.py 188-199. -/
def pick (h : List Obj) (p : Obj → Bool) (objs : List Nat) : List Nat :=
  objs.filter (fun r => match getObj h r with | some o => p o | none => false)

/-- The name of an object. project.py 186-225. -/
def Obj.name : Obj → Option String
  | .view v => some v.name
  | .model m => some m.name
  | .dash d => some d.name
  | _ => none

/-- Is it a view? project.py 186-225. -/
def Obj.isView : Obj → Bool | .view _ => true | _ => false
/-- Is it a model? project.py 186-225. -/
def Obj.isModel : Obj → Bool | .model _ => true | _ => false
/-- Is it a dashboard? project.py 186-225. -/
def Obj.isDash : Obj → Bool | .dash _ => true | _ => false
/-- Has it no name? project.py 186-225. -/
def Obj.isNameless : Obj → Bool | .nameless => true | _ => false

/-- `[x for x in current if x["name"] not in replaced_names]`, project.py 203, 208, 213. -/
def unchanged (h : List Obj) (current replaced : List Nat) : List Nat :=
  current.filter (fun r =>
    !(replaced.any (fun q => decide ((getObj h q).bind Obj.name = (getObj h r).bind Obj.name))))

/-- `json.loads(json.dumps(lst))`: the objects of the list, copied to new places. project.py 203, 208 and 213. -/
def deepCopy (h : List Obj) (refs : List Nat) : List Obj := refs.filterMap (getObj h)

/-- The state in which the body of `replace_objects` runs, project.py 187-220. -/
def PState.enter (s : PState G) (objs : List Nat) : PState G :=
  let rm := pick s.heap Obj.isModel objs
  let rv := pick s.heap Obj.isView objs
  let rd := pick s.heap Obj.isDash objs
  { s with
    heap := s.heap ++ (deepCopy s.heap s.models ++ deepCopy s.heap s.views ++
      deepCopy s.heap s.dashboards)
    models := unchanged s.heap s.models rm ++ rm
    views := unchanged s.heap s.views rv ++ rv
    dashboards := unchanged s.heap s.dashboards rd ++ rd
    fieldsC := [], lookupC := [], graph := none }

/-- The `finally` of `replace_objects`, project.py 221-225: `s` is the state on entry (its copies
were placed at the end of its heap), `t` the state when the body ended. -/
def PState.leave (s t : PState G) : PState G :=
  let n := s.heap.length
  let km := (deepCopy s.heap s.models).length
  let kv := (deepCopy s.heap s.views).length
  let kd := (deepCopy s.heap s.dashboards).length
  { t with
    models := List.range' n km
    views := List.range' (n + km) kv
    dashboards := List.range' (n + km + kv) kd
    fieldsC := [], lookupC := [], graph := none }

/-- Run a program: the final state, the exception that ended it (if any), and everything observed.
`replace_objects` is project.py 185-225; a nameless replacement raises `KeyError` before anything
is changed (lines 202, 207, 212). -/
def PState.exec (build : Proj → Res G) : PState G → Prog →
    PState G × Option Err × List (Event G)
  | s, .skip => (s, none, [])
  | s, .op o =>
    let (s', out) := s.step build o
    (s', (match out with | .err e => some e | _ => none), [⟨o, s.content, out⟩])
  | s, .seq p q =>
    match PState.exec build s p with
    | (s', some e, t) => (s', some e, t)
    | (s', none, t) =>
      match PState.exec build s' q with
      | (s'', r, t') => (s'', r, t ++ t')
  | s, .replace objs p =>
    if (pick s.heap Obj.isNameless objs).isEmpty then
      match PState.exec build (s.enter objs) p with
      | (t, r, tr) => (s.leave t, r, tr)
    else (s, some .keyError, [])
  | s, .attempt p =>
    match PState.exec build s p with
    | (s', _, t) => (s', none, t)

/-! ### A view object held by the caller -/

/-- A `View` object with its private field list, view.py 46-55 and 970-976. -/
structure ViewObj where
  defn : ViewDef
  cached : Option (List Field) := none

/-- `View.fields` on a view object, view.py 970-976: the list is computed when it is missing or
empty; the flag that expands dimension groups is not part of the key. -/
def ViewObj.fields (P : Proj) (o : ViewObj) (showHidden expand : Bool) :
    ViewObj × Res (List Field) :=
  let compute : ViewObj × Res (List Field) :=
    match viewAllFields P o.defn expand with
    | .error e => (o, .error e)
    | .ok fs => ({ o with cached := some fs },
        .ok (if showHidden then fs else fs.filter (fun f => !f.hidden)))
  match o.cached with
  | none => compute
  | some [] => compute
  | some (f :: fs) =>
    (o, .ok (if showHidden then f :: fs else (f :: fs).filter (fun f => !f.hidden)))

end
end ML
