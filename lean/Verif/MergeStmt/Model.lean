import Verif.Merged.Model
import Verif.Answer.Model
import Verif.Refs.Model
/-
The whole statement of a merged query, and what a warehouse answers to it.
`/repo/metrics_layer/core/sql/query_merged_results.py` 18-138, `/repo/metrics_layer/core/sql/merged_query_resolve.py` 82-112,
`/repo/metrics_layer/core/sql/query_base.py` 18-37, `/repo/metrics_layer/core/sql/query_filter.py` 154-223,
`/repo/metrics_layer/core/model/field.py` 538-555.
The joins and the dimension columns are in area `Merged`. `order_by` is not an argument of this statement (merged_query_resolve.py
82-101): it is only read to collect field names.
-/
set_option autoImplicit false
namespace ML
open Spec

/-- What `strict_replaced_query` reads of a metric: its view, its column `alias(with_view=True)`, whether it is written as a formula
(`is_merged_result or type == "number"`) and its SQL, field.py 538-555. -/
structure SMetric where
  view : String
  column : String
  formula : Bool
  sql : List Char
  deriving DecidableEq, Repr

/-- The loop of `strict_replaced_query`, field.py 541-554: for each reference of the original text, in order; `${TABLE}.` is
dropped. -/
def strictEach (value : List Char → Res (List Char)) : List (List Char) → List Char → Res (List Char)
  | [], text => .ok text
  | n :: ns, text =>
    if n = "TABLE".toList then strictEach value ns (replaceAll (refText n ++ ['.']) [] text)
    else match value n with
      | .error e => .error e
      | .ok v => strictEach value ns (replaceAll (refText n) v text)

/-- `strict_replaced_query`, field.py 538-555. `get` is `get_field_with_view_info`, given the metric's view, which raises for an
unknown name and never gives `None`, so the branch of lines 551-552 is left out. The first argument bounds the depth of
references: Python raises RecursionError. -/
def strictSql (get : String → List Char → Res SMetric) : ℕ → SMetric → Res (List Char)
  | 0, _ => .error .recursion
  | n + 1, f =>
    match strictEach (fun name =>
        match get f.view name with
        | .error e => .error e
        | .ok g =>
          if g.formula then
            match strictSql get n g with
            | .error e => .error e
            | .ok t => .ok ('(' :: t ++ [')'])
          else .ok g.column.toList) (fieldsToReplace f.sql) f.sql with
    | .error e => .error e
    | .ok t => .ok (strip t)

/-- A column of the SELECT: an expression on columns of the sub-queries, or the text of a formula; query_merged_results.py 88, 130
and 136. -/
inductive MSel
  | expr (e : MExpr)
  | formula (t : List Char)
  deriving DecidableEq, Repr

/-- The definition of the statement, merged_query_resolve.py 89-101: the sub-queries and their dimensions, the columns of their
metrics, the merged metrics, `having` with the field of each comparison, and the limit. -/
structure MergedDef where
  src : MergeDef
  metrics : List (String × List String)
  merged : List SMetric
  having : List FObj
  fieldOf : ℕ → String
  limit : Option ℕ

/-- The loop over the merged metrics, query_merged_results.py 133-137: those whose column is there already are left out. -/
def mergedColumns (get : String → List Char → Res SMetric) (depth : ℕ) : List SMetric → List (MSel × String) → Res (List (MSel × String))
  | [], acc => .ok acc
  | m :: ms, acc =>
    if acc.any (fun c => c.2 = m.column) then mergedColumns get depth ms acc
    else match strictSql get depth m with
      | .error e => .error e
      | .ok t => mergedColumns get depth ms (acc ++ [(.formula t, m.column)])

/-- `get_select_columns`, query_merged_results.py 81-138: metrics, dimensions, merged metrics. -/
def mergedSelect (get : String → List Char → Res SMetric) (depth : ℕ) (d : MergedDef) : Res (List (MSel × String)) :=
  match dimensionSql d.src with
  | .error e => .error e
  | .ok ds => mergedColumns get depth d.merged
      ((metricColumns d.metrics).map (fun p => (.expr p.2, p.1)) ++ ds.map (fun p => (.expr p.2, p.1)))

/-- The joins of `build_cte_from`, query_merged_results.py 43-55. -/
def mergeJoins (d : MergeDef) (first : String) : List String → Res (List (String × MJoin))
  | [] => .ok []
  | h :: hs =>
    match mergeJoin d first h with
    | .error e => .error e
    | .ok j =>
      match mergeJoins d first hs with
      | .error e => .error e
      | .ok js => .ok ((h, j) :: js)

/-- The FROM of the statement, query_merged_results.py 43-55. -/
def mergeFrom (d : MergeDef) : Res (List (String × MJoin)) :=
  match d.hashes with
  | [] => .ok []
  | h :: hs => mergeJoins d h hs

/-- The statement, query_merged_results.py 18-31: the joined sub-queries with the columns they have, the SELECT, the WHERE made of
`having` with the column each comparison is on, and the limit. -/
structure MStmt where
  src : MergeDef
  tables : List (String × List String)
  select : List (MSel × String)
  whereText : Option (List Tok)
  cond : ℕ → Res String
  limit : Option ℕ

/-- The columns of a sub-query: its dimensions and its metrics, merged_query_resolve.py 60-79. -/
def subColumns (d : MergedDef) (h : String) : List String :=
  ((dictGet d.src.dims h).getD []).map MDim.column ++ (dictGet d.metrics h).getD []

/-- `_handle_cte_alias_replacement` with an empty lookup, query_filter.py 214-223: the column of the field of a comparison; `lookup` is
`project.get_field`. -/
def conditionColumn (lookup : String → Res SMetric) (d : MergedDef) (i : ℕ) : Res String :=
  (lookup (d.fieldOf i)).map SMetric.column

/-- The columns of all comparisons are looked up while the WHERE is built, query_base.py 21-36 and query_filter.py 176-179 and
203-207. -/
def checkColumns (cond : ℕ → Res String) : List ℕ → Res Unit
  | [] => .ok ()
  | i :: is =>
    match cond i with
    | .error e => .error e
    | .ok _ => checkColumns cond is

/-- `get_query` of the merged results, query_merged_results.py 18-36 (up to the text of the statement). -/
def mergedStatement (get : String → List Char → Res SMetric) (lookup : String → Res SMetric) (depth : ℕ) (d : MergedDef) : Res MStmt :=
  match mergeFrom d.src with
  | .error e => .error e
  | .ok _ =>
    match mergedSelect get depth d with
    | .error e => .error e
    | .ok sel =>
      match clauseText (d.having.map QFilter.json) with
      | .error e => .error e
      | .ok wt =>
        match checkColumns (conditionColumn lookup d) (clauseComparisons wt) with
        | .error e => .error e
        | .ok _ =>
          .ok { src := d.src, tables := d.src.hashes.map (fun h => (h, subColumns d h)), select := sel, whereText := wt,
                cond := conditionColumn lookup d, limit := limitClause d.src.warehouse d.limit }

/-! ### The warehouse -/

section
variable {V : Type} [DecidableEq V]

/-- The warehouse on the statement of query_merged_results.py 18-36: the columns a formula names, its value given those of the columns
(it reads no others), the truth of comparison `i` on a value, and whether WHERE may name a column of the SELECT. -/
structure MWarehouse (V : Type) where
  names : List Char → List String
  compute : List Char → (String → Option V) → Option V
  reads : ∀ t e e', (∀ c ∈ names t, e c = e' c) → compute t e = compute t e'
  test : ℕ → Option V → TV
  selectInWhere : Bool

/-- The only sub-query with a column of this name; formulas and WHERE name columns without their sub-query, field.py 550 and
query_filter.py 217-223. -/
def ownerOf (tables : List (String × List String)) (c : String) : Option String :=
  match tables.filter (fun p => c ∈ p.2) with
  | [p] => some p.1
  | _ => none

/-- The value of a column named without its sub-query, field.py 550 and query_filter.py 217-223. -/
def nameValue (tables : List (String × List String)) (row : JRow (MRow V)) (c : String) : Option V :=
  (ownerOf tables c).bind (fun h => (dictGet row h).bind (fun r => r c))

/-- The value of a column of the SELECT, query_merged_results.py 81-138. -/
def MSel.eval (W : MWarehouse V) (tables : List (String × List String)) (row : JRow (MRow V)) : MSel → Option V
  | .expr e => e.eval row
  | .formula t => W.compute t (nameValue tables row)

/-- A formula's columns are known and not ambiguous, query_merged_results.py 136. -/
def MSel.Known (W : MWarehouse V) (tables : List (String × List String)) : MSel → Prop
  | .expr _ => True
  | .formula t => ∀ c ∈ W.names t, ownerOf tables c ≠ none

/-- What comparison `i` of the WHERE compares: a column of a sub-query or, where that is allowed, of the SELECT;
query_merged_results.py 26-28. -/
def MStmt.compared (W : MWarehouse V) (s : MStmt) (i : ℕ) : Option MSel :=
  match s.cond i with
  | .error _ => none
  | .ok c =>
    match ownerOf s.tables c with
    | some h => some (.expr (.col h c))
    | none => if W.selectInWhere then (s.select.find? (fun p => p.2 = c)).map (·.1) else none

/-- The truth of comparison `i` on a row, query_merged_results.py 26-28. -/
def MStmt.truth (W : MWarehouse V) (s : MStmt) (row : JRow (MRow V)) (i : ℕ) : TV :=
  match s.compared W i with
  | none => .u
  | some x => W.test i (x.eval W s.tables row)

/-- The rows the WHERE keeps, query_merged_results.py 26-28. -/
def MStmt.Keeps (W : MWarehouse V) (s : MStmt) (rows kept : List (JRow (MRow V))) : Prop :=
  match s.whereText with
  | none => kept = rows
  | some ts => ∃ e, Reads ts e ∧ kept = rows.filter (fun row => e.eval (s.truth W row) = .t)

/-- `out` is an answer to the statement over the results `db` of the sub-queries, query_merged_results.py 18-36; lines come in any order. A
statement with an unknown or ambiguous column has none. -/
def MStmt.Answers (W : MWarehouse V) (db : String → List (MRow V)) (s : MStmt) (out : List (List (Option V))) : Prop :=
  ∃ rows kept lines, mergedRows s.src db = .ok rows ∧ (∀ c ∈ s.select, c.1.Known W s.tables) ∧
    (∀ i ∈ clauseComparisons s.whereText, s.compared W i ≠ none) ∧ s.Keeps W rows kept ∧
    lines.Perm (kept.map (fun row => s.select.map (fun c => c.1.eval W s.tables row))) ∧
    out = (match s.limit with | none => lines | some n => lines.take n)

end
end ML
