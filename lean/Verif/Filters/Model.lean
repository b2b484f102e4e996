import Verif.Access.Model
/-
WHERE / HAVING filters: `metrics_layer/core/utils.py`, `metrics_layer/core/sql/query_filter.py`,
`metrics_layer/core/sql/query_generator.py`, `metrics_layer/core/sql/single_query_resolve.py`,
`metrics_layer/core/sql/query_design.py` and the pypika criteria they build.

Simplifications shared by this file:
* SQL text is a list of tokens; one comparison (`"x"='a'`, `x IN (...)`, `NOT (y)`) is one opaque
  token `atom i`, numbered by the caller. That a comparison's text binds tighter than AND/OR is an
  assumption on the field's SQL (see DESIGN.md).
* A leaf filter is represented by the comparisons it expands to: one for the ordinary
  expressions, one or more (ANDed) for `matches` (query_filter.py 254-268).
* `"logical_operator": null` written explicitly is left out (`none` means the key is absent).
-/
set_option autoImplicit false
namespace ML

/-- SQL tokens of a Boolean expression. text of query_filter.py 154-212. -/
inductive Tok where
  | atom (i : Nat)
  | and | or | lp | rp
  deriving DecidableEq, Repr

/-- The two connectives of pypika's `Boolean` enum. query_filter.py 187 and 192. -/
inductive BOp where
  | and | or
  deriving DecidableEq, Repr

/-- The token of a connective. query_filter.py 187 and 192. -/
def BOp.tok : BOp → Tok
  | .and => .and
  | .or => .or

/-- pypika criteria: `EmptyCriterion`, an atomic criterion, the repository's
`LiteralValueCriterion` (filter.py 21-28) and `ComplexCriterion`. -/
inductive Crit where
  | empty
  | atom (i : Nat)
  | lit (ts : List Tok)
  | complex (op : BOp) (l r : Crit)
  deriving DecidableEq, Repr

/-- pypika `Criterion.__and__`/`__or__`, with `EmptyCriterion`'s override: the empty criterion on
the left disappears. Used by query_filter.py 187-192. -/
def Crit.combine (op : BOp) : Crit → Crit → Crit
  | .empty, r => r
  | l, r => .complex op l r

/-- pypika `Criterion.all` / `Criterion.any`: a left fold starting from the empty criterion. query_filter.py 187-192. -/
def Crit.fold (op : BOp) (cs : List Crit) : Crit := cs.foldl (Crit.combine op) .empty

/-- pypika `ComplexCriterion.needs_brackets`. Used by query_filter.py 187-192. -/
def Crit.needsBrackets (op : BOp) : Crit → Bool
  | .complex op' _ _ => op' ≠ op
  | _ => false

/-- Parentheses, when asked for. Used by query_filter.py 187-192. -/
def bracket (b : Bool) (ts : List Tok) : List Tok := if b then .lp :: ts ++ [.rp] else ts

/-- pypika `get_sql`. `EmptyCriterion` has no text: asking for it raises. Used by query_generator.py 240-256. -/
def Crit.render : Crit → Res (List Tok)
  | .empty => .error .notImplemented
  | .atom i => .ok [.atom i]
  | .lit ts => .ok ts
  | .complex op l r =>
    match l.render with
    | .error e => .error e
    | .ok tl =>
      match r.render with
      | .error e => .error e
      | .ok tr =>
        .ok (bracket (l.needsBrackets op) tl ++ op.tok :: bracket (r.needsBrackets op) tr)

/-- A leaf condition: the value of its `field` key, whether it has a `group_by` key, and the
comparisons it expands to. query_filter.py 41-78. -/
structure Leaf where
  field : Option String
  groupBy : Bool := false
  first : Nat
  rest : List Nat := []
  deriving DecidableEq, Repr

/-- A filter object as it comes from JSON: a leaf dictionary, a dictionary with `conditions`, a
list, anything else. utils.py 19-36. -/
inductive FObj where
  | leaf (l : Leaf)
  | group (op : Option String) (conds : List FObj)
  | list (items : List FObj)
  | other
  deriving Repr

mutual
/-- The inner function of `flatten_filters`, utils.py 22-31; `acc` is `flat_list`. -/
def flattenRec (acc : List Leaf) : FObj → List Leaf
  | .leaf l => acc ++ [l]
  | .group _ cs => flattenRecList acc cs
  | .list cs => flattenRecList acc cs
  | .other => acc
/-- Its `for` loops. utils.py 22-31. -/
def flattenRecList (acc : List Leaf) : List FObj → List Leaf
  | [] => acc
  | c :: cs => flattenRecList (flattenRec acc c) cs
end

/-- `flatten_filters`, utils.py 19-34. -/
def flattenFilters (filters : List FObj) : List Leaf := flattenRec [] (.list filters)

/-- `MetricsLayerFilterGroupLogicalOperatorType.options`, filter.py 31-34. -/
def logicalOptions : List String := ["AND", "OR"]

mutual
/-- `MetricsLayerFilter.validate` on groups, query_filter.py 86-105. An empty group falls through
to the leaf checks and is rejected there. Leaves are taken as valid: their field exists and their
expression is known. -/
def validateFilter : FObj → Res Unit
  | .leaf _ => .ok ()
  | .group op cs =>
    match cs with
    | [] => .error .parse
    | c :: cs' =>
      match validateList (c :: cs') with
      | .error e => .error e
      | .ok () =>
        match op with
        | some o => if o ∈ logicalOptions then .ok () else .error .parse
        | none => .ok ()
  | .list _ => .error .attributeError
  | .other => .error .attributeError
/-- The loop over the conditions, query_filter.py 87-89. -/
def validateList : List FObj → Res Unit
  | [] => .ok ()
  | c :: cs =>
    match validateFilter c with
    | .error e => .error e
    | .ok () => validateList cs
end

/-- `MetricsLayerFilter.criterion`, query_filter.py 247-273: `matches` gives the conjunction of
its comparisons, everything else a single one. -/
def leafCrit (l : Leaf) : Crit :=
  match l.rest with
  | [] => .atom l.first
  | _ => Crit.fold .and ((l.first :: l.rest).map .atom)

/-- The choice of connective in `group_sql_query`, query_filter.py 186-193. -/
def combineGroup (op : Option String) (cs : List Crit) : Res Crit :=
  if op = some "OR" then .ok (Crit.fold .or cs)
  else if op = none ∨ op = some "AND" then .ok (Crit.fold .and cs)
  else .error .parse

mutual
/-- `group_sql_query` and the leaf branch next to it, query_filter.py 154-193 and 209-212. -/
def groupSql : FObj → Res Crit
  | .leaf l => .ok (leafCrit l)
  | .group op cs =>
    match groupSqlList cs with
    | .error e => .error e
    | .ok ps => combineGroup op ps
  | .list _ => .error .attributeError
  | .other => .error .attributeError
/-- The loop over the conditions, query_filter.py 162-185. -/
def groupSqlList : List FObj → Res (List Crit)
  | [] => .ok []
  | c :: cs =>
    match groupSql c with
    | .error e => .error e
    | .ok p =>
      match groupSqlList cs with
      | .error e => .error e
      | .ok ps => .ok (p :: ps)
end

/-- A filter handed to the query generator: the text of a literal, or a JSON object. query_filter.py 41-78. -/
inductive QFilter where
  | literal (ts : List Tok)
  | json (f : FObj)

/-- `MetricsLayerFilter.__init__` followed by `sql_query()`, query_filter.py 41-64 and 195-212. -/
def QFilter.sql : QFilter → Res Crit
  | .literal ts => .ok (.lit ts)
  | .json f =>
    match validateFilter f with
    | .error e => .error e
    | .ok () => groupSql f

/-- The `where` / `having` argument of a query: a text or a list of JSON filters. single_query_resolve.py 24-46. -/
inductive WhereArg where
  | text (ts : List Tok)
  | filters (fs : List FObj)

/-- `_parse_filter_object`, query_generator.py 99-118: the access filter comes first. -/
def parseFilterObject (w : WhereArg) (access : Option (List Tok)) : List QFilter :=
  (match access with
   | some ts => [QFilter.literal ts]
   | none => []) ++
  (match w with
   | .text ts => [QFilter.literal ts]
   | .filters fs => fs.map QFilter.json)

/-- `[f.sql_query() for f in filters]`, query_generator.py 174. -/
def sqlList : List QFilter → Res (List Crit)
  | [] => .ok []
  | f :: fs =>
    match f.sql with
    | .error e => .error e
    | .ok c =>
      match sqlList fs with
      | .error e => .error e
      | .ok cs => .ok (c :: cs)

/-- The WHERE (or HAVING) clause, query_generator.py 172-175: `none` when there is no filter. -/
def clauseText (fs : List QFilter) : Res (Option (List Tok)) :=
  match fs with
  | [] => .ok none
  | _ =>
    match sqlList fs with
    | .error e => .error e
    | .ok cs =>
      match (Crit.fold .and cs).render with
      | .error e => .error e
      | .ok ts => .ok (some ts)

/-! ### Row-level access filters -/

/-- One entry of a view's `access_filters`. query_design.py 267-272. -/
structure AccessFilter where
  field : String
  userAttr : String
  deriving DecidableEq, Repr

/-- Join token lists with `AND` (`" and ".join(conditions)`). query_design.py 286. -/
def joinAnd : List (List Tok) → List Tok
  | [] => []
  | [t] => t
  | t :: ts => t ++ .and :: joinAnd ts

/-- The conditions collected by `get_access_filter`, query_design.py 262-283, for the access
filters of the views in the request, in order. `cmp field value` are the comparisons
`Filter.filter_dict` derives from the user's value (classification is modelled in
`Verif/FilterStr`). An absent, `None` or empty value skips the filter. -/
def accessConditions (user : Option User) (cmp : String → String → List Nat)
    (afs : List AccessFilter) : List Nat :=
  afs.flatMap (fun af =>
    match user with
    | none => []
    | some u =>
      match u.get af.userAttr with
      | none => []
      | some v => if v = "" then [] else cmp af.field v)

/-- `get_access_filter`, query_design.py 262-288: the text, or nothing. -/
def accessFilterText (user : Option User) (cmp : String → String → List Nat)
    (afs : List AccessFilter) : Option (List Tok) :=
  match accessConditions user cmp afs with
  | [] => none
  | cs => some (joinAnd (cs.map (fun i => [Tok.atom i])))

/-- The WHERE clause of a single query, query_generator.py 42-60, 99-118 and 172-175. -/
def whereClause (w : WhereArg) (user : Option User) (cmp : String → String → List Nat)
    (afs : List AccessFilter) : Res (Option (List Tok)) :=
  clauseText (parseFilterObject w (accessFilterText user cmp afs))

/-! ### Mixing measures and dimensions -/

/-- `self.field_lookup[f["field"]].field_type`, single_query_resolve.py 120-122 and 143-144. -/
def leafTypes (lookup : List (String × FieldType)) : List Leaf → Res (List FieldType)
  | [] => .ok []
  | l :: ls =>
    match l.field with
    | none => .error .keyError
    | some n =>
      match lookup.find? (fun p => p.1 = n) with
      | none => .error .keyError
      | some (_, t) =>
        match leafTypes lookup ls with
        | .error e => .error e
        | .ok ts => .ok (t :: ts)

/-- The check on one filter of `parse_where` / `parse_having`, single_query_resolve.py 114-128 and
137-150 (funnel filters left out). -/
def checkMix (lookup : List (String × FieldType)) (f : FObj) : Res Unit :=
  match f with
  | .group _ (c :: cs) =>
    match leafTypes lookup (flattenFilters (c :: cs)) with
    | .error e => .error e
    | .ok ts =>
      if ts.contains .measure && (ts.contains .dimension || ts.contains .dimensionGroup) then
        .error .query
      else .ok ()
  | _ => .ok ()

/-- `parse_where` / `parse_having` on a list of filters, single_query_resolve.py 97-152. -/
def parseFilters (lookup : List (String × FieldType)) : List FObj → Res Unit
  | [] => .ok ()
  | f :: fs =>
    match checkMix lookup f with
    | .error e => .error e
    | .ok () => parseFilters lookup fs

/-- `parse_identifiers_from_dicts`, single_query_resolve.py 224-232. -/
def identifiersFromDicts (filters : List FObj) : Res (List String) :=
  let rec go : List Leaf → Res (List String)
    | [] => .ok []
    | l :: ls =>
      if l.groupBy then go ls
      else match l.field with
        | none => .error .query
        | some n =>
          match go ls with
          | .error e => .error e
          | .ok ns => .ok (n :: ns)
  go (flattenFilters filters)

end ML
