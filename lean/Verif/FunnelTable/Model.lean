import Verif.Funnel.Model
import Verif.Answer.Model
/-
A whole funnel query: the base query of events, the steps (area `Funnel`), the grouped union of the steps and the conditions on its lines, with what a warehouse answers.
`/repo/metrics_layer/core/sql/query_funnel.py` 37-102, 126-157, 224-269. Metrics are aggregate measures without `filters`; number metrics and conditions given as text
are not in this area. The join graphs by which the customer field is looked up (query_funnel.py 258-269) are a parameter, `link`.
-/
set_option autoImplicit false
namespace ML
open Spec

/-- `Field.id()`: the view and the alias, field.py 175-179. -/
def AnsField.fid (f : AnsField) : String := f.view ++ "." ++ f.name

/-- What a funnel query reads of the project besides fields: the visible primary key of a view (view.py 193-195), the field tagged `customer` for the query's join graphs
(query_funnel.py 135-140), and the `sql_distinct_key` of a measure by aliases (field.py 572-579). -/
structure FunnelProject extends AnsProject where
  viewKey : String → Option AnsField
  link : Res String
  distinctAlias : AnsField → String

/-- The arguments of a funnel query, single_query_resolve.py 57-66. Comparison `i` is on field `fieldOf i`; a step is the list of its comparisons; `having` gives the field and
the comparison of each condition; `hasOrder` says whether `order_by` is given. `lookup` are the fields of `field_lookup`. -/
structure FunnelQuestion where
  metrics : List String
  dimensions : List String
  wheres : List FObj
  having : List (String × Nat)
  steps : List (List Nat)
  window : StepWindow
  viewName : Option (String × String)
  dateOf : String → String × String
  hasOrder : Bool
  limit : Option Nat
  lookup : List AnsField
  fieldOf : Nat → String

/-- `[f for f in l]` without repetition, in some order (here that of first occurrence): `list(set(…))`, query_funnel.py 132, 153. -/
def setOf (l : List String) : List String := l.dedup

/-- The loop over dimensions of `_enrich_query_design`, query_funnel.py 244-248: fields that are not yet in `field_lookup` are added to it. -/
def enrichDims (get : String → Res AnsField) : List AnsField → List String → Res (List AnsField)
  | lookup, [] => .ok lookup
  | lookup, n :: ns =>
    match get n with
    | .error e => .error e
    | .ok f => enrichDims get (if f.fid ∈ lookup.map AnsField.fid then lookup else lookup ++ [f]) ns

/-- The loop over metrics of `_enrich_query_design`, query_funnel.py 249-257: the fields in `field_lookup` and the primary keys to add to the dimensions. A view without
primary key is an AttributeError. -/
def enrichMetrics (P : FunnelProject) : List AnsField → List String → Res (List AnsField × List AnsField)
  | lookup, [] => .ok (lookup, [])
  | lookup, n :: ns =>
    match P.get n with
    | .error e => .error e
    | .ok m =>
      match P.viewKey m.view with
      | none => .error .attributeError
      | some k =>
        let new := k.fid ∉ lookup.map AnsField.fid
        let lookup := if new then lookup ++ [k] else lookup
        let lookup := if m.fid ∈ lookup.map AnsField.fid then lookup else lookup ++ [m]
        match enrichMetrics P lookup ns with
        | .error e => .error e
        | .ok (l, ks) => .ok (l, if new then k :: ks else ks)

/-- The statement of a funnel: the base query with its columns, the columns of the date and of the person, the columns the steps' comparisons are on, the steps and the branches
of the union, the columns of each branch after `step` and `step_order` and its GROUP BY, the conditions on the lines (column and comparison) and the limit.
query_funnel.py 37-90. -/
structure FunnelStmt where
  base : Block
  date : String
  person : String
  compares : Nat → Res String
  steps : List (StepSql (List Nat))
  union : List StepSelect
  columns : List (SqlExpr × String)
  groupBy : List String
  having : List (String × Nat)
  limit : Option Nat

/-- A measure by aliases: its column and the column of its view's key take the place of their SQL; `sql_query(alias_only=True)`, field.py 510-516, 572-579, 645-648. -/
def aliasMeasure (P : FunnelProject) (f : AnsField) (m : Measure) : Measure :=
  { m with sql := f.label, pk := (P.viewKey f.view).map (fun k => (k.fid, k.label)), distinctKey := P.distinctAlias f }

/-- `_get_base_select`, query_funnel.py 92-102: the aggregates are those for an unknown functional key. -/
def funnelColumns (P : FunnelProject) (w : Warehouse) : List AnsField → Res (List (SqlExpr × String))
  | [] => .ok []
  | f :: fs =>
    let x : Res SqlExpr := match f.sql with
      | .dimension _ => .ok (.row f.label)
      | .measure m => (aggregateSql (aliasMeasure P f m) w .doesNotExist).map .agg
    match x with
    | .error e => .error e
    | .ok x =>
      match funnelColumns P w fs with
      | .error e => .error e
      | .ok xs => .ok ((x, f.label) :: xs)

/-- The base query, `_subquery` with `no_group_by`, query_funnel.py 224-240, and the parts of `MetricsLayerQuery` it uses, query_generator.py 42-75, 154-189, 302-327: an ordering is
refused. `sorted` of the fields only changes the order of the columns, which are used by name; it is left out. -/
def funnelBase (P : AnsProject) (w : Warehouse) (views : List String) (hasOrder : Bool) (fs : List AnsField) (wheres : List FObj) (fieldOf : Nat → String) : Res Block :=
  if hasOrder then .error .argument
  else
    match clauseText (parseFilterObject (.filters wheres) (accessText (P.access views))) with
    | .error e => .error e
    | .ok wh =>
      let cond := fun i => match P.get (fieldOf i) with
        | .error e => .error e
        | .ok f => fieldExpr w (P.fpk views) f
      match checkConds cond (clauseComparisons wh) with
      | .error e => .error e
      | .ok _ => .ok ⟨views, rawSelect fs, wh, none, false, none, [], hasNullsOption w, none, cond⟩

/-- The columns of conditions, query_funnel.py 191-199 and query_base.py 19-35: by the alias of their field. -/
def havingColumns (get : String → Res AnsField) : List (String × Nat) → Res (List (String × Nat))
  | [] => .ok []
  | (n, i) :: hs =>
    match get n with
    | .error e => .error e
    | .ok f =>
      match havingColumns get hs with
      | .error e => .error e
      | .ok cs => .ok ((f.label, i) :: cs)

/-- The fields of the base query, query_funnel.py 126-147 and 224-229: the requested dimensions, the date, the customer, the fields of the conditions, the keys that are added,
and the metrics with those of the conditions on lines. Also: the date, the customer, the metrics, and the fields in `field_lookup`. -/
def funnelFields (P : FunnelProject) (q : FunnelQuestion) : Res (List AnsField × AnsField × AnsField × List String × List AnsField) :=
  match eventDate q.viewName (q.metrics.map q.dateOf) with
  | .error e => .error e
  | .ok date =>
    match P.get date with
    | .error e => .error e
    | .ok dateField =>
      let metrics := q.metrics ++ setOf (q.having.map Prod.fst)
      match P.link with
      | .error _ => .error .query
      | .ok link =>
        match P.get link with
        | .error e => .error e
        | .ok linkField =>
          let dims := q.dimensions ++ [date, link] ++ setOf (q.steps.flatten.map q.fieldOf)
          match enrichDims P.get q.lookup dims with
          | .error e => .error e
          | .ok lookup =>
            match enrichMetrics P lookup metrics with
            | .error e => .error e
            | .ok (lookup, keys) =>
              match getAll P.get dims with
              | .error e => .error e
              | .ok ds =>
                match getAll P.get metrics with
                | .error e => .error e
                | .ok ms => .ok (ds ++ keys ++ ms, dateField, linkField, metrics, lookup)

/-- `FunnelQuery.get_query`, query_funnel.py 37-90. -/
def buildFunnel (P : FunnelProject) (w : Warehouse) (known : String → Bool) (q : FunnelQuestion) : Res FunnelStmt :=
  match funnelFields P q with
  | .error e => .error e
  | .ok (fs, dateField, linkField, metrics, lookup) =>
    match funnelBase P.toAnsProject w (lookup.map AnsField.view).dedup q.hasOrder fs q.wheres q.fieldOf with
    | .error e => .error e
    | .ok base =>
      match funnelSql known q.window q.steps with
      | .error e => .error e
      | .ok (steps, union) =>
        match getAll P.get (metrics ++ q.dimensions) with
        | .error e => .error e
        | .ok gs =>
          match funnelColumns P w gs with
          | .error e => .error e
          | .ok cols =>
            match havingColumns P.get q.having with
            | .error e => .error e
            | .ok hv => .ok ⟨base, dateField.label, linkField.label, fun i => (P.get (q.fieldOf i)).map AnsField.label, steps, union, cols,
                (gs.filter (fun f => !f.isMeasure)).map AnsField.label, hv, limitClause w q.limit⟩

/-! ### The warehouse -/

section
variable {ρ : Type}

/-- The value of a column of the base query on a row, or NULL if there is no such column (such a statement is never answered). Meaning of query_funnel.py 41. -/
def baseValue (E : Engine ρ) (sel : List (SqlExpr × String)) (r : ρ) (c : String) : Val :=
  match columnOf sel c with
  | some (_, x) => x.eval E [r]
  | none => none

/-- The columns as the steps and the union see them. Meaning of query_funnel.py 41. -/
def baseEngine (E : Engine ρ) (sel : List (SqlExpr × String)) : Engine ρ := ⟨baseValue E sel, E.hash⟩

/-- The columns a scalar names. Meaning of query_funnel.py 92-102. -/
def Scalar.texts : Scalar → List String
  | .raw s => [s]
  | .adjusted s => [s]
  | .hashed p => [p]
  | .plus a b => a.texts ++ b.texts
  | .keyIfValue s p => [s, p]

/-- The columns an aggregate names. Meaning of query_funnel.py 92-102. -/
def Agg.texts : Agg → List String
  | .sum s | .sumDistinct s | .count s | .countDistinct s | .countDistinctParen s | .avg s | .median s | .max s | .min s => s.texts
  | .minus a b | .ratio a b => a.texts ++ b.texts
  | .scaledBack a | .nullIfZero a => a.texts

/-- The columns an expression names. Meaning of query_funnel.py 92-102. -/
def SqlExpr.texts : SqlExpr → List String
  | .row s => [s]
  | .agg a => a.texts

/-- The comparison of a step is true of a row: that of its column. Meaning of query_funnel.py 185-199. -/
def FunnelStmt.compared (D : Db ρ) (s : FunnelStmt) (r : ρ) (i : Nat) : Bool :=
  match s.compares i with
  | .ok c => decide (D.test i (baseValue D.engine s.base.select r c) = .t)
  | .error _ => false

/-- The events of the statement: the rows the base query keeps, with the columns of person and date. Meaning of query_funnel.py 41-60. -/
def FunnelStmt.data (D : Db ρ) (diff : String → ℚ → ℚ → Option ℤ) (s : FunnelStmt) (kept : List ρ) : FunnelData (List Nat) ρ ℚ ℚ where
  events := kept
  person r := baseValue D.engine s.base.select r s.person
  time r := baseValue D.engine s.base.select r s.date
  holds cs r := cs.all (s.compared D r)
  diff := diff

/-- The columns the statement names of the base query. Meaning of query_funnel.py 37-90. -/
def FunnelStmt.names (s : FunnelStmt) : List String :=
  [s.date, s.person] ++ s.steps.flatMap (fun t => t.cond.filterMap (fun i => (s.compares i).toOption)) ++ s.columns.flatMap (fun c => c.1.texts) ++ s.groupBy

/-- The groups of a branch: one for each combination of the GROUP BY columns; without them all rows, or every row for itself when nothing is aggregated. Meaning of
query_funnel.py 63-71. -/
def FunnelStmt.groups (D : Db ρ) (s : FunnelStmt) (rows : List ρ) : List (List ρ) :=
  if s.groupBy = [] then (if s.columns = [] then rows.map (fun r => [r]) else [rows])
  else
    let dims := fun r => s.groupBy.map (baseValue D.engine s.base.select r)
    (rows.map dims).dedup.map (fun k => rows.filter (fun r => dims r = k))

/-- A line of the result: the number of the step and the values of the columns (`step` is the text of the number, C38). Meaning of query_funnel.py 63-73. -/
def FunnelStmt.line (D : Db ρ) (s : FunnelStmt) (order : Nat) (G : List ρ) : Nat × List Val :=
  (order, s.columns.map (fun c => c.1.eval (baseEngine D.engine s.base.select) G))

/-- The lines of a branch. Meaning of query_funnel.py 63-73. -/
def FunnelStmt.branch (D : Db ρ) (s : FunnelStmt) (ctes : List (String × List (StepRow ρ ℚ))) (u : StepSelect) : Option (List (Nat × List Val)) :=
  (dictGet ctes u.cte).map (fun rows => (s.groups D (rows.map Prod.fst)).map (s.line D u.order))

/-- The conditions on a line, each on the only column of its name. Meaning of query_funnel.py 82-84. -/
def FunnelStmt.kept (D : Db ρ) (s : FunnelStmt) (l : Nat × List Val) : Bool :=
  s.having.all (fun h => match columnOf s.columns h.1 with
    | some (i, _) => decide (D.test h.2 (l.2[i]?).join = .t)
    | none => false)

/-- `out` is an answer a warehouse may give: every column named is a column of the base query, and every condition is on one column of the result; lines in any order.
Meaning of query_funnel.py 37-90. -/
def FunnelStmt.Answers (D : Db ρ) (diff : String → ℚ → ℚ → Option ℤ) (s : FunnelStmt) (out : List (Nat × List Val)) : Prop :=
  (∀ c ∈ s.names, columnOf s.base.select c ≠ none) ∧ (∀ h ∈ s.having, columnOf s.columns h.1 ≠ none) ∧
  ∃ rows ctes parts lines,
    KeepsItems D s.base s.base.whereText ((D.rows s.base.views).map (fun r => [r])) (rows.map (fun r => [r])) ∧
    evalSteps (s.data D diff rows) [] s.steps = .ok ctes ∧
    s.union.mapM (s.branch D ctes) = some parts ∧
    lines.Perm (parts.flatten.filter (s.kept D)) ∧
    out = (match s.limit with | none => lines | some n => lines.take n)

end
end ML
