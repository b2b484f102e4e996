import Verif.SymAgg.Props
import Mathlib.Tactic.IntervalCases
/-
C21 and C22: the SQL text that reaches each warehouse, and what the aggregate functions that the
true value is written with compute.
-/
set_option autoImplicit false
namespace ML.Spec

/-- The hash of the key and the number types each warehouse is sent; nothing where it is not supported. -/
def symmetricParts (w : Warehouse) (pk : String) : Option (String × String × String) :=
  match w with
  | .snowflake => some ("(TO_NUMBER(MD5(" ++ pk ++ "), 'XXXXXXXXXXXXXXXXXXXXXXXXXXXXXXXX') % 1.0e27)::NUMERIC(38, 0)",
      "DECIMAL(38,0)", "DOUBLE PRECISION")
  | .redshift => some ("(FARMFINGERPRINT64(" ++ pk ++ "))::NUMERIC(38, 0)", "DECIMAL(38,0)", "DOUBLE PRECISION")
  | .postgres | .duckDb => some ("(HASHTEXTEXTENDED(" ++ pk ++ ", 0))::NUMERIC(38, 0)", "DECIMAL(38,0)", "DOUBLE PRECISION")
  | .bigquery => some ("CAST(FARM_FINGERPRINT(CAST(" ++ pk ++ " AS STRING)) AS BIGNUMERIC)", "FLOAT64", "FLOAT64")
  | .druid | .sqlServer | .databricks | .azureSynapse | .trino => none

/-- The text of the sum of `sql` over distinct `pk`. -/
def symmetricSumText (sql hash num float : String) : String :=
  "COALESCE(CAST((" ++ "SUM(DISTINCT " ++ "(CAST(FLOOR(COALESCE(" ++ sql ++ ", 0) * (1000000 * 1.0)) AS " ++ num ++ "))" ++ " + " ++ hash ++
    ")" ++ " - " ++ "SUM(DISTINCT " ++ hash ++ ")" ++ ") AS " ++ float ++ ") / CAST((1000000*1.0) AS " ++ float ++ "), 0)"

/-- The text of the number of distinct `pk` among the rows with a value. -/
def symmetricCountText (sql pk : String) : String :=
  "NULLIF(" ++ "COUNT(DISTINCT " ++ "CASE WHEN  (" ++ sql ++ ")  IS NOT NULL THEN  " ++ pk ++ "  ELSE NULL END" ++ ")" ++ ", 0)"

end ML.Spec

namespace ML
open Spec

theorem supports_iff (w : Warehouse) (pk : String) : supportsSymmetric w = (symmetricParts w pk).isSome := by
  cases w <;> rfl

theorem text_sum (w : Warehouse) (s : Scalar) : (Agg.sum s).text w = "SUM(" ++ s.text w ++ ")" := rfl
theorem text_sumD (w : Warehouse) (s : Scalar) : (Agg.sumDistinct s).text w = "SUM(DISTINCT " ++ s.text w ++ ")" := rfl
theorem text_count (w : Warehouse) (s : Scalar) : (Agg.count s).text w = "COUNT(" ++ s.text w ++ ")" := rfl
theorem text_countD (w : Warehouse) (s : Scalar) : (Agg.countDistinct s).text w = "COUNT(DISTINCT " ++ s.text w ++ ")" := rfl
theorem text_countP (w : Warehouse) (s : Scalar) : (Agg.countDistinctParen s).text w = "COUNT(DISTINCT(" ++ s.text w ++ "))" := rfl
theorem text_avg (w : Warehouse) (s : Scalar) : (Agg.avg s).text w = "AVG(" ++ s.text w ++ ")" := rfl
theorem text_median (w : Warehouse) (s : Scalar) : (Agg.median s).text w = "MEDIAN(" ++ s.text w ++ ")" := rfl
theorem text_max (w : Warehouse) (s : Scalar) : (Agg.max s).text w = "MAX(" ++ s.text w ++ ")" := rfl
theorem text_min (w : Warehouse) (s : Scalar) : (Agg.min s).text w = "MIN(" ++ s.text w ++ ")" := rfl
theorem text_minus (w : Warehouse) (a b : Agg) : (Agg.minus a b).text w = a.text w ++ " - " ++ b.text w := rfl
theorem text_scaled (w : Warehouse) (a : Agg) : (Agg.scaledBack a).text w = "COALESCE(CAST((" ++ a.text w ++ ") AS " ++
    (if w = .bigquery then "FLOAT64" else "DOUBLE PRECISION") ++ ") / CAST((1000000*1.0) AS " ++
    (if w = .bigquery then "FLOAT64" else "DOUBLE PRECISION") ++ "), 0)" := rfl
theorem text_nullif (w : Warehouse) (a : Agg) : (Agg.nullIfZero a).text w = "NULLIF(" ++ a.text w ++ ", 0)" := rfl
theorem text_ratio (w : Warehouse) (a b : Agg) : (Agg.ratio a b).text w = "(" ++ a.text w ++ " / " ++ b.text w ++ ")" := rfl

theorem sumText_congr (w : Warehouse) (sql pk h n f : String) (h1 : hashedText w pk = h)
    (h2 : (if w = .bigquery then "FLOAT64" else "DECIMAL(38,0)") = n) (h3 : (if w = .bigquery then "FLOAT64" else "DOUBLE PRECISION") = f) :
    (symSum sql pk).text w = symmetricSumText sql h n f := by
  have ha : (Scalar.adjusted sql).text w = "(CAST(FLOOR(COALESCE(" ++ sql ++ ", 0) * (1000000 * 1.0)) AS " ++ n ++ "))" := by
    subst h2; rfl
  have hh : (Scalar.hashed pk).text w = h := h1
  have hpl : (Scalar.plus (.adjusted sql) (.hashed pk)).text w =
      (Scalar.adjusted sql).text w ++ " + " ++ (Scalar.hashed pk).text w := rfl
  have key : ∀ a1 a2 a3 a4 a5 a6 a7 a8 a9 a10 a11 : String,
      a1 ++ (a2 ++ (a3 ++ sql ++ a4 ++ n ++ a5 ++ a6 ++ h) ++ a7 ++ a8 ++ (a2 ++ h ++ a7)) ++ a9 ++ f ++ a10 ++ f ++ a11 =
      a1 ++ a2 ++ a3 ++ sql ++ a4 ++ n ++ a5 ++ a6 ++ h ++ a7 ++ a8 ++ a2 ++ h ++ a7 ++ a9 ++ f ++ a10 ++ f ++ a11 := by
    intros
    simp only [String.append_assoc]
  unfold symSum
  rw [text_scaled, text_minus, text_sumD, text_sumD, hpl, ha, hh, h3]
  exact key _ _ _ _ _ _ _ _ _ _ _

theorem symSum_text (w : Warehouse) (sql pk h n f : String) (hp : symmetricParts w pk = some (h, n, f)) :
    (symSum sql pk).text w = symmetricSumText sql h n f := by
  apply sumText_congr
  all_goals cases w <;> cases hp <;> rfl

theorem symCount_text (w : Warehouse) (sql pk : String) : (symCount sql pk).text w = symmetricCountText sql pk := by
  have hk : (Scalar.keyIfValue sql pk).text w = "CASE WHEN  (" ++ sql ++ ")  IS NOT NULL THEN  " ++ pk ++ "  ELSE NULL END" := rfl
  simp only [symCount, text_nullif, text_countD, hk, symmetricCountText, String.append_assoc]

/-- C21 (f): the text, when the rows may repeat the measure's own (that is, the query's key is another one or unknown) and
the warehouse is one of the five with a hash: sums, counts and averages over the distinct keys. -/
theorem C21_text (m : Measure) (w : Warehouse) (fpk : FunctionalPk) (id pk h n f : String) (hp : m.pk = some (id, pk))
    (hf : fpk = .doesNotExist ∨ ∃ k, k ≠ id ∧ fpk = .key k) (hw : symmetricParts w pk = some (h, n, f)) :
    (m.type = .sum → (aggregateSql m w fpk).map (·.text w) = .ok (symmetricSumText m.sql h n f)) ∧
    (m.type = .count → (aggregateSql m w fpk).map (·.text w) =
      .ok (if m.primaryKeyCount then "COUNT(DISTINCT(" ++ m.sql ++ "))" else symmetricCountText m.sql pk)) ∧
    (m.type = .average → (aggregateSql m w fpk).map (·.text w) =
      .ok ("(" ++ symmetricSumText m.sql h n f ++ " / " ++ symmetricCountText m.sql pk ++ ")")) := by
  have hs : supportsSymmetric w = true := by rw [supports_iff w pk, hw]; rfl
  have hn : needsSymmetric m fpk = .ok true := by
    rcases hf with rfl | ⟨k, hk, rfl⟩
    · simp [needsSymmetric, hp]
    · simp only [needsSymmetric, hp, Except.ok.injEq, decide_eq_true_eq]
      exact fun c => hk c.symm
  have ht := symSum_text w m.sql pk h n f hw
  have hc := symCount_text w m.sql pk
  have hk : pkText m = pk := by simp only [pkText, hp]
  refine ⟨fun e => ?_, fun e => ?_, fun e => ?_⟩
  · simp only [aggregateSql, e, hs, hn, if_true, Except.map, hk, ht]
  · cases h1 : m.primaryKeyCount <;>
      simp only [aggregateSql, e, hs, hn, if_true, if_false, Except.map, hk, hc, h1, Bool.false_eq_true, text_countP, Scalar.text]
  · simp only [aggregateSql, e, hs, hn, if_true, Except.map, hk, ht, hc, text_ratio]

/-- C21 (g): the text of the `distinct` types, over the key the measure names: on the five warehouses, and refused elsewhere. -/
theorem C21_distinct_text (m : Measure) (w : Warehouse) (fpk : FunctionalPk) :
    (m.type = .sumDistinct → (aggregateSql m w fpk).map (·.text w) = match symmetricParts w m.distinctKey with
      | some (h, n, f) => .ok (symmetricSumText m.sql h n f)
      | none => .error .query) ∧
    (m.type = .averageDistinct → (aggregateSql m w fpk).map (·.text w) = match symmetricParts w m.distinctKey with
      | some (h, n, f) => .ok ("(" ++ symmetricSumText m.sql h n f ++ " / " ++ symmetricCountText m.sql m.distinctKey ++ ")")
      | none => .error .query) := by
  have hs := supports_iff w m.distinctKey
  have hc := symCount_text w m.sql m.distinctKey
  cases hp : symmetricParts w m.distinctKey with
  | none =>
    rw [hp] at hs
    have hs : supportsSymmetric w = false := hs
    constructor <;> intro e <;> simp only [aggregateSql, e, hs, Except.map, Bool.false_eq_true, if_false]
  | some q =>
    obtain ⟨h, n, f⟩ := q
    rw [hp] at hs
    have hs : supportsSymmetric w = true := hs
    have ht := symSum_text w m.sql m.distinctKey h n f hp
    constructor <;> intro e <;> simp only [aggregateSql, e, hs, Except.map, if_true, ht, hc, text_ratio]

/-- C22 (k): the text when the measure is aggregated plainly: its own key is the query's, or the warehouse has no hash. -/
theorem C22_plain_text (m : Measure) (w : Warehouse) (fpk : FunctionalPk)
    (hf : symmetricParts w "" = none ∨ fpk = .none ∨ ∃ id pk, m.pk = some (id, pk) ∧ fpk = .key id) :
    (m.type = .sum → (aggregateSql m w fpk).map (·.text w) = .ok ("SUM(" ++ m.sql ++ ")")) ∧
    (m.type = .count → (aggregateSql m w fpk).map (·.text w) = .ok ("COUNT(" ++ m.sql ++ ")")) ∧
    (m.type = .average → (aggregateSql m w fpk).map (·.text w) = .ok ("AVG(" ++ m.sql ++ ")")) := by
  have hn : supportsSymmetric w = false ∨ needsSymmetric m fpk = .ok false := by
    rcases hf with h | rfl | ⟨id, pk, h, rfl⟩
    · exact .inl (by rw [supports_iff w "", h]; rfl)
    · exact .inr rfl
    · exact .inr (by simp [needsSymmetric, h])
  have key : ∀ (x : Agg) (y : Res Agg), (supportsSymmetric w = true → y = .ok x) →
      (if supportsSymmetric w = true then y else .ok x) = .ok x := by
    intro x y h
    split
    · exact h ‹_›
    · rfl
  have hn' : supportsSymmetric w = true → needsSymmetric m fpk = .ok false := by
    intro c
    rcases hn with h | h
    · rw [h] at c; cases c
    · exact h
  have go : ∀ x, aggregateSql m w fpk = .ok x → (aggregateSql m w fpk).map (·.text w) = .ok (x.text w) := by
    intro x h; rw [h]; rfl
  refine ⟨fun e => ?_, fun e => ?_, fun e => ?_⟩
  · refine go (.sum (.raw m.sql)) ?_
    unfold aggregateSql
    rw [e]
    exact key _ _ fun c => by rw [hn' c]
  · refine go (.count (.raw m.sql)) ?_
    unfold aggregateSql
    rw [e]
    exact key _ _ fun c => by rw [hn' c]
  · refine go (.avg (.raw m.sql)) ?_
    unfold aggregateSql
    rw [e]
    exact key _ _ fun c => by rw [hn' c]

/-- C22 (l): maximum, minimum and the number of distinct values are plain always; a median is plain on four warehouses and
refused on the others. -/
theorem C22_other_text (m : Measure) (w : Warehouse) (fpk : FunctionalPk) :
    (m.type = .max → (aggregateSql m w fpk).map (·.text w) = .ok ("MAX(" ++ m.sql ++ ")")) ∧
    (m.type = .min → (aggregateSql m w fpk).map (·.text w) = .ok ("MIN(" ++ m.sql ++ ")")) ∧
    (m.type = .countDistinct → (aggregateSql m w fpk).map (·.text w) = .ok ("COUNT(DISTINCT(" ++ m.sql ++ "))")) ∧
    (m.type = .median → (aggregateSql m w fpk).map (·.text w) =
      if w = .snowflake ∨ w = .redshift ∨ w = .duckDb ∨ w = .databricks then .ok ("MEDIAN(" ++ m.sql ++ ")") else .error .query) := by
  refine ⟨fun e => ?_, fun e => ?_, fun e => ?_, fun e => ?_⟩
  · simp only [aggregateSql, e, Except.map, text_max, Scalar.text]
  · simp only [aggregateSql, e, Except.map, text_min, Scalar.text]
  · simp only [aggregateSql, e, Except.map, text_countP, Scalar.text]
  · cases w <;> simp only [aggregateSql, e, Except.map, text_median, Scalar.text, reduceCtorEq, or_false, or_true, if_true, if_false]

theorem sort_of_sorted_perm {vs s : List ℚ} (hp : vs.Perm s) (hs : s.Pairwise (· ≤ ·)) : vs.insertionSort (· ≤ ·) = s := by
  apply List.Perm.eq_of_pairwise (le := (· ≤ ·))
  · intro x y _ _ h1 h2; exact le_antisymm h1 h2
  · exact List.pairwise_insertionSort (· ≤ ·) vs
  · exact hs
  · exact (List.perm_insertionSort _ vs).trans hp

/-- C22 (m): the median that the true value of a median measure is written with: NULL for no values; the value with as many
values before it as after it in order; or the mean of the two in the middle. -/
theorem C22_median_value (vs lo hi : List ℚ) (a b : ℚ) (hlen : lo.length = hi.length) :
    sqlMedian [] = none ∧
    (vs.Perm (lo ++ a :: hi) → (lo ++ a :: hi).Pairwise (· ≤ ·) → trueValue .median vs = some a) ∧
    (vs.Perm (lo ++ a :: b :: hi) → (lo ++ a :: b :: hi).Pairwise (· ≤ ·) → trueValue .median vs = some ((a + b) / 2)) := by
  refine ⟨rfl, ?_, ?_⟩
  · intro hp hs
    simp only [trueValue, sqlMedian, sort_of_sorted_perm hp hs]
    have h1 : ((lo ++ a :: hi).length - 1) / 2 = lo.length := by simp; omega
    have h2 : (lo ++ a :: hi).length / 2 = lo.length := by simp; omega
    rw [h1, h2, if_neg (by simp)]
    simp
  · intro hp hs
    simp only [trueValue, sqlMedian, sort_of_sorted_perm hp hs]
    have h1 : ((lo ++ a :: b :: hi).length - 1) / 2 = lo.length := by simp; omega
    have h2 : (lo ++ a :: b :: hi).length / 2 = lo.length + 1 := by simp; omega
    rw [h1, h2, if_neg (by simp)]
    have h3 : (lo ++ a :: b :: hi)[lo.length]? = some a := by simp
    have h4 : (lo ++ a :: b :: hi)[lo.length + 1]? = some b := by
      rw [List.getElem?_append_right (by omega)]
      simp
    simp only [h3, h4]

theorem foldl_max_spec (v : ℚ) (vs : List ℚ) : vs.foldl Max.max v ∈ v :: vs ∧ ∀ y ∈ v :: vs, y ≤ vs.foldl Max.max v := by
  induction vs generalizing v with
  | nil => simp
  | cons x xs ih =>
    obtain ⟨h1, h2⟩ := ih (Max.max v x)
    refine ⟨?_, ?_⟩
    · rw [List.foldl_cons]
      rcases List.mem_cons.1 h1 with h | h
      · rw [h]
        rcases max_choice v x with e | e <;> rw [e] <;> simp
      · simp [h]
    · intro y hy
      rw [List.foldl_cons]
      simp only [List.mem_cons] at hy
      have hm := h2 (Max.max v x) (by simp)
      rcases hy with rfl | rfl | hy
      · exact le_trans (le_max_left _ _) hm
      · exact le_trans (le_max_right _ _) hm
      · exact h2 y (by simp [hy])

theorem foldl_min_spec (v : ℚ) (vs : List ℚ) : vs.foldl Min.min v ∈ v :: vs ∧ ∀ y ∈ v :: vs, vs.foldl Min.min v ≤ y := by
  induction vs generalizing v with
  | nil => simp
  | cons x xs ih =>
    obtain ⟨h1, h2⟩ := ih (Min.min v x)
    refine ⟨?_, ?_⟩
    · rw [List.foldl_cons]
      rcases List.mem_cons.1 h1 with h | h
      · rw [h]
        rcases min_choice v x with e | e <;> rw [e] <;> simp
      · simp [h]
    · intro y hy
      rw [List.foldl_cons]
      simp only [List.mem_cons] at hy
      have hm := h2 (Min.min v x) (by simp)
      rcases hy with rfl | rfl | hy
      · exact le_trans hm (min_le_left _ _)
      · exact le_trans hm (min_le_right _ _)
      · exact h2 y (by simp [hy])

/-- C22 (n): the extremes are values, and nothing lies outside them; of no values they are NULL. -/
theorem C22_extreme_values (vs : List ℚ) (x : ℚ) :
    (trueValue .max vs = some x ↔ x ∈ vs ∧ ∀ y ∈ vs, y ≤ x) ∧ (trueValue .min vs = some x ↔ x ∈ vs ∧ ∀ y ∈ vs, x ≤ y) := by
  cases vs with
  | nil => simp [trueValue, sqlMax, sqlMin]
  | cons v vs =>
    obtain ⟨h1, h2⟩ := foldl_max_spec v vs
    obtain ⟨h3, h4⟩ := foldl_min_spec v vs
    simp only [trueValue, sqlMax, sqlMin, Option.some.injEq]
    constructor
    · constructor
      · rintro rfl; exact ⟨h1, h2⟩
      · rintro ⟨h5, h6⟩; exact le_antisymm (h6 _ h1) (h2 _ h5)
    · constructor
      · rintro rfl; exact ⟨h3, h4⟩
      · rintro ⟨h5, h6⟩; exact le_antisymm (h4 _ h5) (h6 _ h3)

/-! ### Concrete cases -/

-- C21_text: an order total in a query whose rows are order lines
example : (aggregateSql ⟨.sum, "orders.total", some ("orders.id", "orders.id"), "", false⟩ .postgres (.key "lines.id")).map (·.text .postgres) =
    .ok ("COALESCE(CAST((SUM(DISTINCT (CAST(FLOOR(COALESCE(orders.total, 0) * (1000000 * 1.0)) AS DECIMAL(38,0))) + " ++
      "(HASHTEXTEXTENDED(orders.id, 0))::NUMERIC(38, 0)) - SUM(DISTINCT (HASHTEXTEXTENDED(orders.id, 0))::NUMERIC(38, 0))) " ++
      "AS DOUBLE PRECISION) / CAST((1000000*1.0) AS DOUBLE PRECISION), 0)") := by decide +kernel
example : (symmetricParts .druid "" = none) ∧ (symmetricParts .duckDb "k").isSome := ⟨rfl, rfl⟩
-- C22_median_value
example : trueValue .median [3, 1, 2] = some 2 :=
  (C22_median_value [3, 1, 2] [1] [3] 2 0 rfl).2.1 (by decide) (by simp; norm_num)
example : trueValue .max [3, 1, 2] = some 3 := (C22_extreme_values [3, 1, 2] 3).1.2 ⟨by simp, by simp; norm_num⟩

end ML
