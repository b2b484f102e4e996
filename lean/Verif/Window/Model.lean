import Verif.Answer.Model
import Verif.FilterStr.Model
import Verif.NonAdd.Model
/-
Queries with non-additive metrics: the CASE expression of such a metric, the subquery with the latest (or earliest) date of each
window, the join of that subquery, and what a warehouse answers.
`/repo/metrics_layer/core/sql/query_generator.py` 78-97, 197-239, 377-424, `/repo/metrics_layer/core/model/field.py` 263-300,
2675-2686. What such queries do to the stored definitions is area `NonAdd` (C49); here definitions are read as written, with
qualified names. Not in this area: filters with a `group_by`, funnels, filters given as text, number measures that refer to
non-additive ones.
-/
set_option autoImplicit false
namespace ML
open Spec

/-- `window_choice`, field.py 2365 (validation admits these two). -/
inductive WinChoice
  | max | min
  deriving DecidableEq, Repr

/-- The text of a choice, as used in names, field.py 2677-2679 and query_generator.py 393. -/
def WinChoice.text : WinChoice → String
  | .max => "max"
  | .min => "min"

/-- The measure type of the temporary measure, query_generator.py 399. -/
def WinChoice.type : WinChoice → MeasureType
  | .max => .max
  | .min => .min

/-- A `non_additive_dimension` with qualified names, field.py 452-469; `aware` is `window_aware_of_query_dimensions` (default
true, query_generator.py 200) and `nullsEqual` is `nulls_are_equal` (default false, line 222). -/
structure WinDef where
  name : String
  choice : WinChoice
  aware : Bool
  groups : List String
  nullsEqual : Bool
  deriving DecidableEq, Repr

/-- A non-additive metric: its view and name, the measure without any filter, and its own filters, field.py 246-300. The text of the
measure's key, used by symmetric aggregates, is the one with the metric's own filters and without those of the window, field.py 575-582. -/
structure WinMeasure where
  view : String
  name : String
  measure : Measure
  filters : List MeasureFilter
  win : WinDef

/-- `non_additive_alias`, field.py 2675-2680. -/
def WinMeasure.column (m : WinMeasure) : String := m.view ++ "_" ++ m.win.choice.text ++ "_" ++ lower (lastPart m.win.name)

/-- `non_additive_cte_alias`, field.py 2682-2686. -/
def WinMeasure.cteAlias (m : WinMeasure) : String := "cte_" ++ m.name ++ "_" ++ lower (lastPart m.win.name)

/-- `window_grouping.replace(".", "_")`, field.py 290. -/
def dotted (s : String) : String := String.ofList (s.toList.map (fun c => if c = '.' then '_' else c))

/-- The text that refers to the window's date, field.py 283-285. -/
def WinMeasure.dateRef (m : WinMeasure) : String := m.cteAlias ++ "." ++ m.column

/-- The text that refers to a grouping in the subquery, field.py 290-294. -/
def WinMeasure.groupRef (m : WinMeasure) (g : String) : String := m.cteAlias ++ "." ++ dotted g

/-- `filters_to_apply`, field.py 270-297: the metric's own filters except one on a field with the metric's name, the date, the
groupings. -/
def WinMeasure.allFilters (m : WinMeasure) : List MeasureFilter :=
  m.filters.filter (fun f => f.field ≠ some m.name) ++
    ⟨some m.win.name, some (.literal m.dateRef.toList), none⟩ ::
      m.win.groups.map (fun g => ⟨some g, some (.literal (m.groupRef g).toList), none⟩)

/-- `else_0`, field.py 274-278. -/
def WinMeasure.elseZero (m : WinMeasure) : Bool := m.measure.type ≠ .count ∧ m.measure.type ≠ .countDistinct

/-- The CASE expression of the metric, field.py 263-300. A count without primary key is refused. -/
def WinMeasure.case (num : ToNumeric) (now : DateTime) (m : WinMeasure) : Res CaseSql :=
  if m.measure.sql = "*" then .error .query
  else translateFilters num now m.measure.sql m.allFilters m.elseZero

/-- The project: the fields that are not non-additive metrics, the non-additive metrics by the names they are asked for with,
whether a dimension is a variation of the non-additive one (`name` is equal, query_generator.py 205-207), and the text of a CASE
expression with its references replaced (`C26_text`, C45). -/
structure WinProject where
  base : AnsProject
  win : String → Option WinMeasure
  variation : String → String → Bool
  num : ToNumeric
  now : DateTime
  render : CaseSql → String

/-- `get_field`, query_design.py 259-260: a non-additive metric is a measure whose SQL is its CASE expression, field.py 298-300. -/
def WinProject.get (W : WinProject) (n : String) : Res AnsField :=
  match W.win n with
  | none => W.base.get n
  | some m =>
    match m.case W.num W.now with
    | .error e => .error e
    | .ok c => .ok ⟨m.view, m.name, false, .measure { m.measure with sql := W.render c }⟩

/-- The project as `Answer` reads it, query_design.py 259-260. -/
def WinProject.project (W : WinProject) : AnsProject := { W.base with get := W.get }

/-- The loop of query_generator.py 84-97: the metrics of SELECT and HAVING, the first of each CTE alias. -/
def winEntries (W : WinProject) (seen : List String) : List String → List WinMeasure
  | [] => []
  | n :: ns =>
    match W.win n with
    | none => winEntries W seen ns
    | some m => if m.cteAlias ∈ seen then winEntries W seen ns else m :: winEntries W (m.cteAlias :: seen) ns

/-- The subquery's dimensions, query_generator.py 199-211. -/
def winGroups (W : WinProject) (q : Question) (d : WinDef) : List String :=
  firstSeen (d.groups ++ if d.aware then q.dimensions.map lower else q.dimensions.filter (W.variation d.name))

/-- The name of the temporary measure, query_generator.py 393. -/
def WinDef.temp (d : WinDef) : String := d.choice.text ++ "_" ++ lastPart d.name

/-- The temporary measure in the view of the date, query_generator.py 393-404. -/
def tempField (d : WinDef) (view sql : String) : AnsField :=
  ⟨view, d.temp, false, .measure { type := d.choice.type, sql := sql, pk := none }⟩

/-- The project of the subquery, query_generator.py 393-411: the temporary measure is found under its qualified name. -/
def withTemp (W : WinProject) (d : WinDef) (view sql : String) : AnsProject :=
  { W.project with get := fun n => if n = view ++ "." ++ d.temp then .ok (tempField d view sql) else W.get n }

/-- The subquery's arguments, query_generator.py 413-419: the same WHERE, no HAVING; it always groups (line 406). -/
def winQuestion (q : Question) (groups : List String) (temp : String) : Question where
  metrics := [temp]
  dimensions := groups
  wheres := q.wheres
  havings := []
  whereNames := []
  havingNames := []
  orderNames := []
  groupFilters := []
  order := .absent
  limit := none
  force := true
  fieldOf := q.fieldOf

/-- A subquery with its alias and the pairs (expression, column) it is joined on, query_generator.py 213-239. -/
structure WinJoin where
  name : String
  cte : Block
  on : List (String × String)
  nullsEqual : Bool

/-- The expression of a dimension, query_generator.py 225. -/
def dimText (f : AnsField) : Res String :=
  match f.sql with
  | .dimension s => .ok s
  | .measure _ => .error .other

/-- The pairs of the join condition, query_generator.py 223-238. -/
def onPairs : List AnsField → Res (List (String × String))
  | [] => .ok []
  | f :: fs =>
    match dimText f with
    | .error e => .error e
    | .ok s =>
      match onPairs fs with
      | .error e => .error e
      | .ok ps => .ok ((s, f.label) :: ps)

/-- The views of the subquery: of its dimensions, of the date and of the fields of WHERE, query_generator.py 378-391. -/
def winViews (gs : List AnsField) (date : AnsField) (ws : List AnsField) : List String :=
  ((gs ++ date :: ws).map AnsField.view).dedup

/-- `_non_additive_cte` and the join, query_generator.py 198-239 and 377-424. -/
def buildWinJoin (W : WinProject) (w : Warehouse) (q : Question) (m : WinMeasure) : Res WinJoin :=
  match getAll W.get (winGroups W q m.win) with
  | .error e => .error e
  | .ok gs =>
    match W.get m.win.name with
    | .error e => .error e
    | .ok date =>
      match dimText date with
      | .error e => .error e
      | .ok sql =>
        match getAll W.get q.whereNames with
        | .error e => .error e
        | .ok ws =>
          match buildBlock (withTemp W m.win date.view sql) w (winViews gs date ws)
              (winQuestion q (winGroups W q m.win) (date.view ++ "." ++ m.win.temp)) with
          | .error e => .error e
          | .ok b =>
            match onPairs gs with
            | .error e => .error e
            | .ok ps => .ok ⟨m.cteAlias, b, ps, m.win.nullsEqual⟩

/-- The loop of query_generator.py 198-239. -/
def buildWinJoins (W : WinProject) (w : Warehouse) (q : Question) : List WinMeasure → Res (List WinJoin)
  | [] => .ok []
  | m :: ms =>
    match buildWinJoin W w q m with
    | .error e => .error e
    | .ok j =>
      match buildWinJoins W w q ms with
      | .error e => .error e
      | .ok js => .ok (j :: js)

/-- The statement: the main block, the joined subqueries, the columns of subqueries that the CASE expressions refer to
(field.py 280-296), and the fields they compare with them. -/
structure WinStmt where
  block : Block
  joins : List WinJoin
  refs : List String
  fields : List String

/-- The metrics whose non-additive dimension counts, query_generator.py 84-86. -/
def winNames (q : Question) : List String := q.metrics ++ q.havingNames

/-- The non-additive metrics among the names, query_generator.py 86-88. -/
def winMeasures (W : WinProject) (ns : List String) : List WinMeasure := ns.filterMap W.win

/-- The whole statement, single_query_resolve.py 48-91 and query_generator.py 154-280; the subqueries are sorted by the name of
their column (line 198). -/
def buildWinStmt (W : WinProject) (w : Warehouse) (q : Question) : Res WinStmt :=
  match lookupViews W.project q with
  | .error e => .error e
  | .ok views =>
    match buildBlock W.project w views q with
    | .error e => .error e
    | .ok b =>
      match buildWinJoins W w q ((winEntries W [] (winNames q)).insertionSort (fun a b => a.column ≤ b.column)) with
      | .error e => .error e
      | .ok js => .ok ⟨b, js,
          (winMeasures W (winNames q)).flatMap (fun m => m.dateRef :: m.win.groups.map m.groupRef),
          (winMeasures W (winNames q)).flatMap (fun m => m.win.name :: m.win.groups)⟩

/-! ### The warehouse -/

section
variable {ρ : Type}

/-- A row of the FROM with the cells of the subqueries joined to it, by their full names in lower case (unquoted identifiers);
query_generator.py 213-239. -/
abbrev WRow (ρ : Type) := ρ × List (String × Val)

/-- Equality in a join condition, query_generator.py 226-238: NULL equals nothing, or NULL when asked for (`equal_null` on
Snowflake, OR elsewhere). -/
def joinEq (nullsEqual : Bool) : Val → Val → Bool
  | some x, some y => x = y
  | none, none => nullsEqual
  | _, _ => false

/-- One equality of the join condition, query_generator.py 226-238. -/
def WinJoin.pairMatches (E : Engine ρ) (j : WinJoin) (r : ρ) (l : List Val) (p : String × String) : Bool :=
  match columnOf j.cte.select p.2 with
  | some c => joinEq j.nullsEqual (E.value r p.1) ((l[c.1]?).join)
  | none => false

/-- The join condition on a row and a line of the subquery, query_generator.py 215-239; without pairs it is `1=1`. -/
def WinJoin.matching (E : Engine ρ) (j : WinJoin) (r : ρ) (l : List Val) : Bool := j.on.all (j.pairMatches E r l)

/-- The full names of the subquery's columns, query_generator.py 213. -/
def WinJoin.columns (j : WinJoin) : List String := j.cte.select.map (fun c => lower (j.name ++ "." ++ c.2))

/-- The cells of a line of the subquery, or NULLs when no line matches (LEFT JOIN), query_generator.py 216, 239. -/
def WinJoin.cells (j : WinJoin) (l : Option (List Val)) : List (String × Val) :=
  j.columns.zipIdx.map (fun c => (c.1, match l with | some l => (l[c.2]?).join | none => none))

/-- LEFT JOIN of one row with the lines of a subquery, query_generator.py 216, 239. -/
def WinJoin.extend (E : Engine ρ) (j : WinJoin) (lines : List (List Val)) (x : WRow ρ) : List (WRow ρ) :=
  match lines.filter (j.matching E x.1) with
  | [] => [(x.1, x.2 ++ j.cells none)]
  | ms => ms.map (fun l => (x.1, x.2 ++ j.cells (some l)))

/-- All joins in turn, query_generator.py 198-239. -/
def extendAll (E : Engine ρ) : List (WinJoin × List (List Val)) → List (WRow ρ) → List (WRow ρ)
  | [], xs => xs
  | (j, ls) :: rest, xs => extendAll E rest (xs.flatMap (j.extend E ls))

/-- The value of a reference to a subquery's column, field.py 283-294. -/
def cellOf (cells : List (String × Val)) (s : String) : Val := ((cells.find? (fun c => c.1 = lower s)).map (·.2)).join

/-- SQL equality: unknown when a side is NULL. Used for the conditions of field.py 280-296. -/
def sqlEqual : Val → Val → Option Bool
  | some x, some y => some (x = y)
  | _, _ => none

/-- The truth of a condition of a CASE expression: the conditions on subqueries compare a field with a column; the others are
about the row alone (C23, C26). field.py 270-297. -/
def winTruth (W : WinProject) (E : Engine ρ) (truth : ρ → String → Comparison → Option Bool) (x : WRow ρ) (field : String)
    (c : Comparison) : Option Bool :=
  match c.value with
  | .literal s => match (W.get field).bind dimText with
    | .ok t => sqlEqual (E.value x.1 t) (cellOf x.2 (String.ofList s))
    | .error _ => none
  | _ => truth x.1 field c

/-- The engine `E'` reads expressions on joined rows: a CASE expression as SQL does, and any other text from the row; field.py
263-300. -/
structure ReadsCases (W : WinProject) (E : Engine ρ) (truth : ρ → String → Comparison → Option Bool) (E' : Engine (WRow ρ)) :
    Prop where
  case : ∀ n m c, W.win n = some m → m.case W.num W.now = .ok c →
    ∀ x, E'.value x (W.render c) = c.eval (winTruth W E truth) (fun y t => E.value y.1 t) x
  plain : ∀ s, (∀ n m c, W.win n = some m → m.case W.num W.now = .ok c → s ≠ W.render c) → ∀ x, E'.value x s = E.value x.1 s
  hash : E'.hash = E.hash

/-- An answer to the statement, query_generator.py 154-280: every subquery is answered, every column that is referred to exists
once, the views of the compared fields are in the FROM, and the main block is answered over the joined rows. -/
def WinStmt.Answers (W : WinProject) (D : Db ρ) (E' : Engine (WRow ρ)) (s : WinStmt) (out : List (List Val)) : Prop :=
  ∃ tables, List.Forall₂ (fun j ls => j.cte.Answers D (D.rows j.cte.views) ls) s.joins tables ∧
    (∀ j ∈ s.joins, ∀ p ∈ j.on, columnOf j.cte.select p.2 ≠ none) ∧
    (∀ n ∈ s.fields, ∀ f, W.get n = .ok f → f.view ∈ D.tables s.block.views) ∧
    (∀ r ∈ s.refs, (s.joins.flatMap WinJoin.columns).count (lower r) = 1) ∧
    s.block.Answers ⟨fun vs => (D.rows vs).map (fun r => (r, [])), D.tables, E', D.test⟩
      (extendAll D.engine (s.joins.zip tables) ((D.rows s.block.views).map (fun r => (r, [])))) out

end
end ML
