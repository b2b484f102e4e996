import Verif.Basic
import Mathlib.Data.Rat.Floor
import Mathlib.Data.List.Dedup
import Mathlib.Data.List.Sort
import Mathlib.Algebra.BigOperators.Group.List.Basic
/-
The aggregate SQL of a measure (model/field.py 517-816) as a syntax tree with the exact text the
library writes, and the value a warehouse gives it. Numbers are exact rationals: the rounding of
FLOAT64 / DOUBLE PRECISION and the overflow of DECIMAL(38,0) are not modelled. Every non-null value,
text keys included, is represented by a rational.
-/
set_option autoImplicit false
namespace ML

/-- The warehouses, model/definitions.py 2-11. -/
inductive Warehouse
  | snowflake | bigquery | redshift | postgres | druid | sqlServer | duckDb | databricks
  | azureSynapse | trino
  deriving DecidableEq, Repr

/-- `symmetric_aggregates_supported_warehouses`, model/definitions.py 24. -/
def supportsSymmetric (w : Warehouse) : Bool :=
  match w with
  | .snowflake | .redshift | .bigquery | .postgres | .duckDb => true
  | _ => false

/-- Scalar expressions inside the aggregates: SQL text of the project, the scaled value
`adjusted_sum`, the hashed key `pk_sum`, their sum, and the key of rows whose value is not null,
field.py 626-704 and 728-737. -/
inductive Scalar
  | raw (sql : String)
  | adjusted (sql : String)
  | hashed (pk : String)
  | plus (a b : Scalar)
  | keyIfValue (sql pk : String)
  deriving DecidableEq, Repr

/-- Aggregate expressions, field.py 581-816. -/
inductive Agg
  | sum (s : Scalar)
  | sumDistinct (s : Scalar)
  | count (s : Scalar)
  | countDistinct (s : Scalar)
  | countDistinctParen (s : Scalar)
  | avg (s : Scalar)
  | median (s : Scalar)
  | max (s : Scalar)
  | min (s : Scalar)
  | minus (a b : Agg)
  | scaledBack (a : Agg)
  | nullIfZero (a : Agg)
  | ratio (a b : Agg)
  deriving DecidableEq, Repr

/-! ### Text -/

/-- The `adjusted_sum` texts, field.py 634, 654, 674, 696. -/
def adjustedText (w : Warehouse) (sql : String) : String :=
  "(CAST(FLOOR(COALESCE(" ++ sql ++ ", 0) * (1000000 * 1.0)) AS " ++
    (if w = .bigquery then "FLOAT64" else "DECIMAL(38,0)") ++ "))"

/-- The `pk_sum` texts, field.py 636, 656, 676, 698. -/
def hashedText (w : Warehouse) (pk : String) : String :=
  match w with
  | .bigquery => "CAST(FARM_FINGERPRINT(CAST(" ++ pk ++ " AS STRING)) AS BIGNUMERIC)"
  | .redshift => "(FARMFINGERPRINT64(" ++ pk ++ "))::NUMERIC(38, 0)"
  | .snowflake => "(TO_NUMBER(MD5(" ++ pk ++
      "), 'XXXXXXXXXXXXXXXXXXXXXXXXXXXXXXXX') % 1.0e27)::NUMERIC(38, 0)"
  | _ => "(HASHTEXTEXTENDED(" ++ pk ++ ", 0))::NUMERIC(38, 0)"

/-- The text of a scalar, field.py 626-704 and 734. -/
def Scalar.text (w : Warehouse) : Scalar → String
  | .raw s => s
  | .adjusted s => adjustedText w s
  | .hashed pk => hashedText w pk
  | .plus a b => a.text w ++ " + " ++ b.text w
  | .keyIfValue s pk => "CASE WHEN  (" ++ s ++ ")  IS NOT NULL THEN  " ++ pk ++ "  ELSE NULL END"

/-- The text of an aggregate, field.py 581-816. -/
def Agg.text (w : Warehouse) : Agg → String
  | .sum s => "SUM(" ++ s.text w ++ ")"
  | .sumDistinct s => "SUM(DISTINCT " ++ s.text w ++ ")"
  | .count s => "COUNT(" ++ s.text w ++ ")"
  | .countDistinct s => "COUNT(DISTINCT " ++ s.text w ++ ")"
  | .countDistinctParen s => "COUNT(DISTINCT(" ++ s.text w ++ "))"
  | .avg s => "AVG(" ++ s.text w ++ ")"
  | .median s => "MEDIAN(" ++ s.text w ++ ")"
  | .max s => "MAX(" ++ s.text w ++ ")"
  | .min s => "MIN(" ++ s.text w ++ ")"
  | .minus a b => a.text w ++ " - " ++ b.text w
  | .scaledBack a =>
    let t := if w = .bigquery then "FLOAT64" else "DOUBLE PRECISION"
    "COALESCE(CAST((" ++ a.text w ++ ") AS " ++ t ++ ") / CAST((1000000*1.0) AS " ++ t ++ "), 0)"
  | .nullIfZero a => "NULLIF(" ++ a.text w ++ ", 0)"
  | .ratio a b => "(" ++ a.text w ++ " / " ++ b.text w ++ ")"

/-! ### Building the expression -/

/-- The measure types with an aggregate of their own, `type_lookup`, field.py 520-531. `number`
replaces references by the aggregates of other measures and is not modelled here. -/
inductive MeasureType
  | sum | sumDistinct | count | countDistinct | average | averageDistinct | median | max | min
  deriving DecidableEq, Repr

/-- What `aggregate_sql_query` reads of a measure and its view: the replaced SQL, the id and the
replaced SQL of the view's primary key (wrapped in the measure's filters by `_get_sql_distinct_key`),
the replaced `sql_distinct_key` and the `primary_key_count` flag, field.py 517-579. -/
structure Measure where
  type : MeasureType
  sql : String
  pk : Option (String × String)
  distinctKey : String := ""
  primaryKeyCount : Bool := false
  deriving DecidableEq, Repr

/-- What `functional_pk` returns: nothing (the view found has no visible primary key), the
`does_not_exist` marker, or a field, query_design.py 195-219. -/
inductive FunctionalPk
  | none
  | doesNotExist
  | key (id : String)
  deriving DecidableEq, Repr

/-- `_needs_symmetric_aggregate`, field.py 557-573. -/
def needsSymmetric (m : Measure) (fpk : FunctionalPk) : Res Bool :=
  match fpk with
  | .none => .ok false
  | .doesNotExist => match m.pk with
    | Option.none => .error .query
    | some _ => .ok true
  | .key id => match m.pk with
    | Option.none => .error .query
    | some (pid, _) => .ok (decide (pid ≠ id))

/-- `_sum_symmetric_aggregate` on a supported warehouse, field.py 603-704. -/
def symSum (sql pk : String) : Agg :=
  .scaledBack (.minus (.sumDistinct (.plus (.adjusted sql) (.hashed pk))) (.sumDistinct (.hashed pk)))

/-- `_count_symmetric_aggregate`, field.py 717-737. -/
def symCount (sql pk : String) : Agg := .nullIfZero (.countDistinct (.keyIfValue sql pk))

/-- The key text of the view, `self.view.primary_key.sql_query(...)`, field.py 629-632 and others.
Reached only after `needsSymmetric`, so the key is there. -/
def pkText (m : Measure) : String := match m.pk with | some p => p.2 | Option.none => ""

/-- `aggregate_sql_query`, field.py 517-536 and 581-797, branch by branch. -/
def aggregateSql (m : Measure) (w : Warehouse) (fpk : FunctionalPk) : Res Agg :=
  match m.type with
  | .sum =>
    if supportsSymmetric w then
      match needsSymmetric m fpk with
      | .error e => .error e
      | .ok true => .ok (symSum m.sql (pkText m))
      | .ok false => .ok (.sum (.raw m.sql))
    else .ok (.sum (.raw m.sql))
  | .sumDistinct =>
    if supportsSymmetric w then .ok (symSum m.sql m.distinctKey) else .error .query
  | .count =>
    if supportsSymmetric w then
      match needsSymmetric m fpk with
      | .error e => .error e
      | .ok true =>
        if m.primaryKeyCount then .ok (.countDistinctParen (.raw m.sql))
        else .ok (symCount m.sql (pkText m))
      | .ok false => .ok (.count (.raw m.sql))
    else .ok (.count (.raw m.sql))
  | .countDistinct => .ok (.countDistinctParen (.raw m.sql))
  | .average =>
    if supportsSymmetric w then
      match needsSymmetric m fpk with
      | .error e => .error e
      | .ok true => .ok (.ratio (symSum m.sql (pkText m)) (symCount m.sql (pkText m)))
      | .ok false => .ok (.avg (.raw m.sql))
    else .ok (.avg (.raw m.sql))
  | .averageDistinct =>
    if supportsSymmetric w then .ok (.ratio (symSum m.sql m.distinctKey) (symCount m.sql m.distinctKey))
    else .error .query
  | .median =>
    match w with
    | .druid | .postgres | .bigquery | .sqlServer | .azureSynapse | .trino => .error .query
    | _ => .ok (.median (.raw m.sql))
  | .max => .ok (.max (.raw m.sql))
  | .min => .ok (.min (.raw m.sql))

/-- `functional_pk` with the primary keys of the views, query_design.py 195-219: the visible primary
key of the view found (`view.primary_key`, view.py 193-195, nothing when it has none), or the marker. -/
def functionalPkField (viewPk : String → Option String) (reported : Option String) : FunctionalPk :=
  match reported with
  | Option.none => .doesNotExist
  | some v => match viewPk v with
    | Option.none => .none
    | some id => .key id

/-! ### Values -/

/-- A SQL value: NULL or a number. Meaning of field.py 581-816. -/
abbrev Val := Option ℚ

/-- What the warehouse knows: the value of a scalar text on a row, and its hash function. Meaning of field.py 581-816. -/
structure Engine (ρ : Type) where
  value : ρ → String → Val
  hash : ℚ → ℤ

/-- The scaled value `FLOOR(COALESCE(x, 0) * 1000000)`, field.py 634 and others. -/
def scaled (x : Val) : ℚ := ((x.getD 0 * 1000000).floor : ℚ)

/-- SQL value of a scalar of field.py 626-704 and 734. -/
def Scalar.eval {ρ : Type} (E : Engine ρ) (row : ρ) : Scalar → Val
  | .raw s => E.value row s
  | .adjusted s => some (scaled (E.value row s))
  | .hashed pk => (E.value row pk).map (fun k => (E.hash k : ℚ))
  | .plus a b => match a.eval E row, b.eval E row with
    | some x, some y => some (x + y)
    | _, _ => none
  | .keyIfValue s pk => match E.value row s with
    | none => none
    | some _ => E.value row pk

/-- SQL `SUM`: NULL when there is no non-null value. Used by field.py 591 and others. -/
def sqlSum (vs : List ℚ) : Val := if vs = [] then none else some vs.sum

/-- SQL `MAX`, field.py 793. -/
def sqlMax (vs : List ℚ) : Val := match vs with | [] => none | v :: vs => some (vs.foldl Max.max v)

/-- SQL `MIN`, field.py 797. -/
def sqlMin (vs : List ℚ) : Val := match vs with | [] => none | v :: vs => some (vs.foldl Min.min v)

/-- SQL `MEDIAN`, field.py 789: the middle value, or the mean of the two middle ones. -/
def sqlMedian (vs : List ℚ) : Val :=
  let s := vs.insertionSort (· ≤ ·)
  let n := s.length
  if n = 0 then none
  else match s[(n - 1) / 2]?, s[n / 2]? with
    | some a, some b => some ((a + b) / 2)
    | _, _ => none

/-- SQL value of an aggregate over the rows of a group, for the aggregates of field.py 581-816. -/
def Agg.eval {ρ : Type} (E : Engine ρ) (rows : List ρ) : Agg → Val
  | .sum s => sqlSum (rows.filterMap (s.eval E))
  | .sumDistinct s => sqlSum (rows.filterMap (s.eval E)).dedup
  | .count s => some (rows.filterMap (s.eval E)).length
  | .countDistinct s => some (rows.filterMap (s.eval E)).dedup.length
  | .countDistinctParen s => some (rows.filterMap (s.eval E)).dedup.length
  | .avg s =>
    let vs := rows.filterMap (s.eval E)
    if vs = [] then none else some (vs.sum / vs.length)
  | .median s => sqlMedian (rows.filterMap (s.eval E))
  | .max s => sqlMax (rows.filterMap (s.eval E))
  | .min s => sqlMin (rows.filterMap (s.eval E))
  | .minus a b => match a.eval E rows, b.eval E rows with
    | some x, some y => some (x - y)
    | _, _ => none
  | .scaledBack a => match a.eval E rows with
    | some x => some (x / 1000000)
    | none => some 0
  | .nullIfZero a => match a.eval E rows with
    | some x => if x = 0 then none else some x
    | none => none
  | .ratio a b => match a.eval E rows, b.eval E rows with
    | some x, some y => if y = 0 then none else some (x / y)
    | _, _ => none

end ML
