import Verif.SymAgg.Lemmas
import Verif.Joined.Props
/-
C21 Symmetric aggregates are immune to fan-out.
C22 Symmetric aggregation is used whenever a measure could be inflated.
-/
set_option autoImplicit false
namespace ML
open Spec

section
variable {ρ : Type}

/-! ### C21 -/

/-- C21 (a): the symmetric sum over fanned-out rows is the sum of the values, each cut to six
decimals, over one row per key. -/
theorem C21_sum (E : Engine ρ) (sql pk : String) (rows reps : List ρ)
    (h : OnePerKey (fun r => E.value r pk) rows reps)
    (hv : OwnValue (fun r => E.value r pk) (fun r => E.value r sql) rows)
    (hc : NoCollision E.hash (fun r => E.value r pk) (fun r => E.value r sql) reps) :
    (symSum sql pk).eval E rows =
      some ((reps.map (fun r => ((E.value r sql).getD 0 * 1000000).floor / (1000000 : ℚ))).sum) := by
  rw [eval_symSum E sql pk h (fun a ha b hb e _ => hv.copies a ha b hb e) hc]
  congr 1
  clear h hc
  induction reps with
  | nil => simp
  | cons r rs ih =>
    simp only [List.map_cons, List.sum_cons, ← ih, scaled]
    ring

theorem sum_getD (val : ρ → Val) (reps : List ρ) :
    (reps.map (fun r => (val r).getD 0)).sum = (reps.filterMap val).sum := by
  induction reps with
  | nil => rfl
  | cons r rs ih =>
    rw [List.filterMap_cons, List.map_cons, List.sum_cons, ih]
    cases val r with
    | none => simp
    | some x => simp

/-- C21 (b): for values with at most six decimals the symmetric sum is exactly the sum over one row
per key (0 when there is none). -/
theorem C21_sum_exact (E : Engine ρ) (sql pk : String) (rows reps : List ρ)
    (h : OnePerKey (fun r => E.value r pk) rows reps)
    (hv : OwnValue (fun r => E.value r pk) (fun r => E.value r sql) rows)
    (hc : NoCollision E.hash (fun r => E.value r pk) (fun r => E.value r sql) reps)
    (h6 : SixDecimals (fun r => E.value r sql) reps) :
    (symSum sql pk).eval E rows = some (values (fun r => E.value r sql) reps).sum := by
  rw [eval_symSum E sql pk h (fun a ha b hb e _ => hv.copies a ha b hb e) hc]
  congr 1
  unfold values
  rw [← sum_getD]
  clear h hc
  induction reps with
  | nil => simp
  | cons r rs ih =>
    have ih := ih (fun x hx => h6 x (by simp [hx]))
    simp only [List.map_cons, List.sum_cons, ← ih, scaled_exact (h6 r (by simp))]
    ring

theorem floor_bounds (q : ℚ) : ((q.floor : ℤ) : ℚ) ≤ q ∧ q < ((q.floor : ℤ) : ℚ) + 1 :=
  ⟨Int.floor_le q, Int.lt_floor_add_one q⟩

/-- C21 (c): in general it is short of that sum by less than a millionth per row. -/
theorem C21_sum_error (E : Engine ρ) (sql pk : String) (rows reps : List ρ)
    (h : OnePerKey (fun r => E.value r pk) rows reps)
    (hv : OwnValue (fun r => E.value r pk) (fun r => E.value r sql) rows)
    (hc : NoCollision E.hash (fun r => E.value r pk) (fun r => E.value r sql) reps) :
    ∃ s, (symSum sql pk).eval E rows = some s ∧ s ≤ (values (fun r => E.value r sql) reps).sum ∧
      (values (fun r => E.value r sql) reps).sum ≤ s + reps.length / 1000000 := by
  refine ⟨_, eval_symSum E sql pk h (fun a ha b hb e _ => hv.copies a ha b hb e) hc, ?_⟩
  unfold values
  rw [← sum_getD]
  clear h hc
  induction reps with
  | nil => simp
  | cons r rs ih =>
    obtain ⟨i1, i2⟩ := ih
    obtain ⟨b1, b2⟩ := floor_bounds ((E.value r sql).getD 0 * 1000000)
    simp only [List.map_cons, List.sum_cons, scaled, List.length_cons, Nat.cast_succ] at *
    constructor
    · linarith
    · linarith

/-- C21 (d): the symmetric count over fanned-out rows is the number of rows with a value among one
row per key, written as NULL when it is 0. No condition on the hash is needed. -/
theorem C21_count (E : Engine ρ) (sql pk : String) (rows reps : List ρ)
    (h : OnePerKey (fun r => E.value r pk) rows reps)
    (hv : OwnValue (fun r => E.value r pk) (fun r => E.value r sql) rows) :
    (symCount sql pk).eval E rows =
      if values (fun r => E.value r sql) reps = [] then none
      else some ((values (fun r => E.value r sql) reps).length : ℚ) := by
  unfold symCount values
  simp only [Agg.eval]
  rw [eval_countKeys E sql pk h (fun a ha b hb e _ => hv.copies a ha b hb e)]
  by_cases e : reps.filterMap (fun r => E.value r sql) = []
  · rw [if_pos e, e]; simp
  · rw [if_neg e, if_neg]
    simpa using e

/-- C21 (e): the symmetric average is the average over one row per key, for values with at most six
decimals; NULL when no row has a value. -/
theorem C21_average (E : Engine ρ) (sql pk : String) (rows reps : List ρ)
    (h : OnePerKey (fun r => E.value r pk) rows reps)
    (hv : OwnValue (fun r => E.value r pk) (fun r => E.value r sql) rows)
    (hc : NoCollision E.hash (fun r => E.value r pk) (fun r => E.value r sql) reps)
    (h6 : SixDecimals (fun r => E.value r sql) reps) :
    (Agg.ratio (symSum sql pk) (symCount sql pk)).eval E rows =
      if values (fun r => E.value r sql) reps = [] then none
      else some ((values (fun r => E.value r sql) reps).sum /
        (values (fun r => E.value r sql) reps).length) := by
  simp only [Agg.eval]
  rw [C21_sum_exact E sql pk rows reps h hv hc h6, C21_count E sql pk rows reps h hv]
  by_cases e : values (fun r => E.value r sql) reps = []
  · rw [if_pos e, if_pos e]
  · rw [if_neg e, if_neg e]
    simp only
    rw [if_neg]
    simpa using e

/-- The largest value is determined by which values occur. -/
theorem sqlMax_spec (vs : List ℚ) (m : ℚ) :
    sqlMax vs = some m ↔ m ∈ vs ∧ ∀ v ∈ vs, v ≤ m := by
  have fold : ∀ (vs : List ℚ) (a : ℚ), vs.foldl Max.max a ∈ a :: vs ∧
      ∀ v ∈ a :: vs, v ≤ vs.foldl Max.max a := by
    intro vs
    induction vs with
    | nil => intro a; simp
    | cons b vs ih =>
      intro a
      obtain ⟨h1, h2⟩ := ih (Max.max a b)
      simp only [List.foldl_cons]
      constructor
      · rcases List.mem_cons.mp h1 with e | e
        · rw [e]
          rcases max_choice a b with e | e <;> rw [e] <;> simp
        · simp [e]
      · intro v hv
        have hm := h2 (Max.max a b) (by simp)
        simp only [List.mem_cons] at hv
        rcases hv with rfl | rfl | hv
        · exact (le_max_left _ _).trans hm
        · exact (le_max_right _ _).trans hm
        · exact h2 v (by simp [hv])
  cases vs with
  | nil => simp [sqlMax]
  | cons a vs =>
    simp only [sqlMax, Option.some.injEq]
    obtain ⟨h1, h2⟩ := fold vs a
    constructor
    · rintro rfl; exact ⟨h1, h2⟩
    · rintro ⟨h3, h4⟩
      exact le_antisymm (h4 _ h1) (h2 _ h3)

theorem sqlMin_spec (vs : List ℚ) (m : ℚ) :
    sqlMin vs = some m ↔ m ∈ vs ∧ ∀ v ∈ vs, m ≤ v := by
  have fold : ∀ (vs : List ℚ) (a : ℚ), vs.foldl Min.min a ∈ a :: vs ∧
      ∀ v ∈ a :: vs, vs.foldl Min.min a ≤ v := by
    intro vs
    induction vs with
    | nil => intro a; simp
    | cons b vs ih =>
      intro a
      obtain ⟨h1, h2⟩ := ih (Min.min a b)
      simp only [List.foldl_cons]
      constructor
      · rcases List.mem_cons.mp h1 with e | e
        · rw [e]
          rcases min_choice a b with e | e <;> rw [e] <;> simp
        · simp [e]
      · intro v hv
        have hm := h2 (Min.min a b) (by simp)
        simp only [List.mem_cons] at hv
        rcases hv with rfl | rfl | hv
        · exact hm.trans (min_le_left _ _)
        · exact hm.trans (min_le_right _ _)
        · exact h2 v (by simp [hv])
  cases vs with
  | nil => simp [sqlMin]
  | cons a vs =>
    simp only [sqlMin, Option.some.injEq]
    obtain ⟨h1, h2⟩ := fold vs a
    constructor
    · rintro rfl; exact ⟨h1, h2⟩
    · rintro ⟨h3, h4⟩
      exact le_antisymm (h2 _ h3) (h4 _ h1)

/-- C21 (f): the maximum, the minimum and the number of distinct values are the same over the
fanned-out rows and over one row per key. -/
theorem C21_max_min_distinct (E : Engine ρ) (sql pk : String) (rows reps : List ρ)
    (h : OnePerKey (fun r => E.value r pk) rows reps)
    (hv : OwnValue (fun r => E.value r pk) (fun r => E.value r sql) rows) :
    (Agg.max (.raw sql)).eval E rows = (Agg.max (.raw sql)).eval E reps ∧
    (Agg.min (.raw sql)).eval E rows = (Agg.min (.raw sql)).eval E reps ∧
    (Agg.countDistinctParen (.raw sql)).eval E rows = (Agg.countDistinctParen (.raw sql)).eval E reps := by
  have hm : ∀ q, q ∈ rows.filterMap (fun r => E.value r sql) ↔ q ∈ reps.filterMap (fun r => E.value r sql) :=
    mem_values_iff h hv
  refine ⟨?_, ?_, ?_⟩
  · apply Option.ext
    intro m
    simp only [Agg.eval, Scalar.eval, sqlMax_spec, hm]
  · apply Option.ext
    intro m
    simp only [Agg.eval, Scalar.eval, sqlMin_spec, hm]
  · simp only [Agg.eval, Scalar.eval]
    congr 2
    apply List.Perm.length_eq
    rw [List.perm_ext_iff_of_nodup (List.nodup_dedup _) (List.nodup_dedup _)]
    intro q
    rw [List.mem_dedup, List.mem_dedup]
    exact hm q

end

/-- C21 (g): a hash that separates the keys is not enough. Two rows with keys 1 and 2, values 0.000001
and 0, and hashes 0 and 1: the true sum is 0.000001, the symmetric sum is 0. -/
theorem C21_distinct_hashes_not_enough :
    ∃ (E : Engine (ℚ × ℚ)) (rows : List (ℚ × ℚ)),
      OnePerKey (fun r => E.value r "pk") rows rows ∧
      OwnValue (fun r => E.value r "pk") (fun r => E.value r "x") rows ∧
      (∀ k l : ℚ, (k = 1 ∨ k = 2) → (l = 1 ∨ l = 2) → E.hash k = E.hash l → k = l) ∧
      (symSum "x" "pk").eval E rows ≠ some (values (fun r => E.value r "x") rows).sum := by
  refine ⟨⟨fun r s => if s = "pk" then some r.1 else some r.2, fun k => if k = 1 then 0 else 1⟩,
    [(1, 1 / 1000000), (2, 0)], ⟨fun r h => h, ?_, ?_, fun r h _ => ⟨r, h, rfl⟩⟩, ⟨?_, ?_⟩, ?_, ?_⟩
  · simp
  · intro r _; simp
  · intro a ha b hb e
    simp only [List.mem_cons, List.not_mem_nil, or_false] at ha hb
    rcases ha with rfl | rfl <;> rcases hb with rfl | rfl <;> simp_all
  · intro a _ e; simp at e
  · rintro k l (rfl | rfl) (rfl | rfl) <;> simp
  · have h1 : (symSum "x" "pk").eval (ρ := ℚ × ℚ)
        ⟨fun r s => if s = "pk" then some r.1 else some r.2, fun k => if k = 1 then 0 else 1⟩
        [(1, 1 / 1000000), (2, 0)] = some 0 := by
      decide +kernel
    rw [h1]
    simp [values]

/-- The texts are those of the library (tests/test_symmetric_aggregates.py). -/
example : (symSum "orders.revenue" "orders.id").text .snowflake =
    "COALESCE(CAST((SUM(DISTINCT (CAST(FLOOR(COALESCE(orders.revenue, 0) * (1000000 * 1.0)) AS " ++
    "DECIMAL(38,0))) + (TO_NUMBER(MD5(orders.id), 'XXXXXXXXXXXXXXXXXXXXXXXXXXXXXXXX') % 1.0e27)" ++
    "::NUMERIC(38, 0)) - SUM(DISTINCT (TO_NUMBER(MD5(orders.id), " ++
    "'XXXXXXXXXXXXXXXXXXXXXXXXXXXXXXXX') % 1.0e27)::NUMERIC(38, 0))) AS DOUBLE PRECISION) " ++
    "/ CAST((1000000*1.0) AS DOUBLE PRECISION), 0)" := by decide +kernel

example : (symCount "orders.id" "orders.id").text .snowflake =
    "NULLIF(COUNT(DISTINCT CASE WHEN  (orders.id)  IS NOT NULL THEN  orders.id  ELSE NULL END), 0)" := by
  decide +kernel

/-! ### C21 on joined tables -/

section
variable {R : Type} [DecidableEq R]

/-- The rows of view `v` that take part in a joined result, each once. -/
def takingPart (db : String → List R) (v : String) (rows : List (JRow R)) : List R :=
  (db v).filter (fun r => decide (r ∈ partOf v rows))

/-- A column of view `v` read in a joined row: NULL where an outer join left the view out. -/
def column (v : String) (col : String → R → Val) (row : JRow R) (s : String) : Val :=
  (dictGet row v).bind (col s)

/-- One joined row for each row of `v` that takes part. -/
theorem onePerKey_joined (v : String) (db : String → List R) (rows : List (JRow R))
    (hok : ∀ r ∈ partOf v rows, r ∈ db v) (key : R → Val) (hkey : ∀ r ∈ db v, key r ≠ none)
    (huniq : ((db v).map key).Nodup) :
    ∃ reps, OnePerKey (fun row => (dictGet row v).bind key) rows reps ∧
      ∀ val : R → Val, reps.map (fun row => (dictGet row v).bind val) = (takingPart db v rows).map val := by
  have hex : ∀ l : List R, (∀ r ∈ l, r ∈ partOf v rows) →
      ∃ reps : List (JRow R), (∀ x ∈ reps, x ∈ rows) ∧ reps.map (fun row => dictGet row v) = l.map some := by
    intro l
    induction l with
    | nil => intro _; exact ⟨[], by simp, rfl⟩
    | cons r l ih =>
      intro h
      obtain ⟨reps, h1, h2⟩ := ih (fun x hx => h x (by simp [hx]))
      obtain ⟨row, hrow, hg⟩ := List.mem_filterMap.mp (h r (by simp))
      refine ⟨row :: reps, ?_, by simp [hg, h2]⟩
      intro x hx
      rcases List.mem_cons.mp hx with rfl | hx
      · exact hrow
      · exact h1 x hx
  have hmem : ∀ r ∈ takingPart db v rows, r ∈ partOf v rows := by
    intro r hr
    simpa using (List.mem_filter.mp hr).2
  obtain ⟨reps, h1, h2⟩ := hex (takingPart db v rows) hmem
  have hval : ∀ val : R → Val,
      reps.map (fun row => (dictGet row v).bind val) = (takingPart db v rows).map val := by
    intro val
    have : reps.map (fun row => (dictGet row v).bind val) =
        (reps.map (fun row => dictGet row v)).map (fun o => o.bind val) := by
      rw [List.map_map]; rfl
    rw [this, h2, List.map_map]
    rfl
  have hget : ∀ x ∈ reps, ∃ r ∈ takingPart db v rows, dictGet x v = some r := by
    intro x hx
    have : dictGet x v ∈ reps.map (fun row => dictGet row v) := List.mem_map.mpr ⟨x, hx, rfl⟩
    rw [h2] at this
    obtain ⟨r, hr, e⟩ := List.mem_map.mp this
    exact ⟨r, hr, e.symm⟩
  refine ⟨reps, ⟨h1, ?_, ?_, ?_⟩, hval⟩
  · rw [hval]
    exact huniq.sublist (List.filter_sublist.map _)
  · intro x hx
    obtain ⟨r, hr, e⟩ := hget x hx
    simp only [e, Option.bind_some]
    exact hkey r (List.mem_filter.mp hr).1
  · intro row hrow hk
    cases hg : dictGet row v with
    | none => simp [hg] at hk
    | some r =>
      have hp : r ∈ partOf v rows := List.mem_filterMap.mpr ⟨row, hrow, hg⟩
      have : r ∈ takingPart db v rows := List.mem_filter.mpr ⟨hok r hp, by simpa using hp⟩
      have h3 : (some r) ∈ reps.map (fun row => dictGet row v) := by
        rw [h2]; exact List.mem_map.mpr ⟨r, this, rfl⟩
      obtain ⟨x, hx, e⟩ := List.mem_map.mp h3
      exact ⟨x, hx, by simp only [e]⟩

omit [DecidableEq R] in
/-- A column of `v` is a value of its own rows. -/
theorem ownValue_joined (v : String) (db : String → List R) (rows : List (JRow R))
    (hok : ∀ r ∈ partOf v rows, r ∈ db v) (key val : R → Val) (hkey : ∀ r ∈ db v, key r ≠ none)
    (huniq : ((db v).map key).Nodup) :
    OwnValue (fun row => (dictGet row v).bind key) (fun row => (dictGet row v).bind val) rows := by
  have hdb : ∀ row ∈ rows, ∀ r, dictGet row v = some r → r ∈ db v := fun row hrow r hg =>
    hok r (List.mem_filterMap.mpr ⟨row, hrow, hg⟩)
  refine ⟨?_, ?_⟩
  · intro a ha b hb e
    cases hga : dictGet a v with
    | none =>
      cases hgb : dictGet b v with
      | none => rfl
      | some r =>
        simp only [hga, hgb, Option.bind_none, Option.bind_some] at e
        exact absurd e.symm (hkey r (hdb b hb r hgb))
    | some r =>
      cases hgb : dictGet b v with
      | none =>
        simp only [hga, hgb, Option.bind_none, Option.bind_some] at e
        exact absurd e (hkey r (hdb a ha r hga))
      | some r' =>
        simp only [hga, hgb, Option.bind_some] at e
        have : r = r' := List.inj_on_of_nodup_map huniq (hdb a ha r hga) (hdb b hb r' hgb) e
        rw [this]
  · intro a ha e
    cases hga : dictGet a v with
    | none => rfl
    | some r =>
      simp only [hga, Option.bind_some] at e
      exact absurd e (hkey r (hdb a ha r hga))

omit [DecidableEq R] in
theorem reps_mem {α β : Type} {f : α → β} {l : List α} {g : R → β} {m : List R}
    (h : l.map f = m.map g) {a : α} (ha : a ∈ l) : ∃ r ∈ m, f a = g r := by
  have : f a ∈ l.map f := List.mem_map.mpr ⟨a, ha, rfl⟩
  rw [h] at this
  obtain ⟨r, hr, e⟩ := List.mem_map.mp this
  exact ⟨r, hr, e.symm⟩

omit [DecidableEq R] in
theorem filterMap_of_map {α : Type} {f : α → Val} {l : List α} {g : R → Val} {m : List R}
    (h : l.map f = m.map g) : l.filterMap f = m.filterMap g := by
  have h1 : ∀ {γ : Type} (f : γ → Val) (l : List γ), l.filterMap f = (l.map f).filterMap id := by
    intro γ f l; rw [List.filterMap_map]; rfl
  rw [h1 f, h1 g, h]

/-- C21 (h): on a joined result, whatever the joins do to its rows, the symmetric sum of a column of
view `v` is the sum over the rows of `v` that take part, each counted once. -/
theorem C21_joined (db : String → List R) (base : String) (joins : List (JoinStep R)) (v : String)
    (col : String → R → Val) (hash : ℚ → ℤ) (sql pk : String)
    (hkey : ∀ r ∈ db v, col pk r ≠ none) (huniq : ((db v).map (col pk)).Nodup)
    (h6 : SixDecimals (col sql) (db v)) (hc : NoCollision hash (col pk) (col sql) (db v)) :
    (symSum sql pk).eval ⟨column v col, hash⟩ (joinedRows db base joins) =
      some (values (col sql) (takingPart db v (joinedRows db base joins))).sum := by
  have hok : ∀ r ∈ partOf v (joinedRows db base joins), r ∈ db v :=
    fun r hr => part_mem (rowsOk_joined db base joins) hr
  obtain ⟨reps, h1, h2⟩ := onePerKey_joined v db (joinedRows db base joins) hok (col pk) hkey huniq
  have hin : ∀ r ∈ takingPart db v (joinedRows db base joins), r ∈ db v := fun r hr => (List.mem_filter.mp hr).1
  rw [C21_sum_exact ⟨column v col, hash⟩ sql pk _ reps h1
    (ownValue_joined v db _ hok (col pk) (col sql) hkey huniq)]
  · congr 2
    exact filterMap_of_map (h2 (col sql))
  · intro a ha b hb k l hk hl hkl
    have ha' : dictGet a v = none ∨ ∃ r, dictGet a v = some r := by cases dictGet a v <;> simp
    have hb' : dictGet b v = none ∨ ∃ r, dictGet b v = some r := by cases dictGet b v <;> simp
    simp only [column] at hk hl ⊢
    rcases ha' with e | ⟨r, er⟩
    · rw [e] at hk; cases hk
    rcases hb' with e | ⟨r', er'⟩
    · rw [e] at hl; cases hl
    have hr : r ∈ db v := hok r (List.mem_filterMap.mpr ⟨a, h1.sub a ha, er⟩)
    have hr' : r' ∈ db v := hok r' (List.mem_filterMap.mpr ⟨b, h1.sub b hb, er'⟩)
    rw [er] at hk ⊢
    rw [er'] at hl ⊢
    exact hc r hr r' hr' k l hk hl hkl
  · intro a ha x hx
    obtain ⟨r, hr, e⟩ := reps_mem (h2 (col sql)) ha
    exact h6 r (hin r hr) x (by rw [← e]; exact hx)

end

/-! ### C22 -/

/-- The plain aggregate of a type. -/
def plainAgg (t : MeasureType) (sql : String) : Agg :=
  match t with
  | .sum | .sumDistinct => .sum (.raw sql)
  | .count => .count (.raw sql)
  | .countDistinct => .countDistinctParen (.raw sql)
  | .average | .averageDistinct => .avg (.raw sql)
  | .median => .median (.raw sql)
  | .max => .max (.raw sql)
  | .min => .min (.raw sql)

/-- C22 (a): on a warehouse with symmetric aggregates a sum, count or average is aggregated plainly
exactly when the functional primary key is the measure's own primary key, or there is none because
the view found has no visible primary key. -/
theorem C22_plain_iff (m : Measure) (w : Warehouse) (hw : supportsSymmetric w = true)
    (ht : m.type = .sum ∨ m.type = .count ∨ m.type = .average) (fpk : FunctionalPk) :
    aggregateSql m w fpk = .ok (plainAgg m.type m.sql) ↔
      fpk = .none ∨ ∃ id pk, m.pk = some (id, pk) ∧ fpk = .key id := by
  cases hp : m.pk with
  | none =>
    cases fpk <;> rcases ht with ht | ht | ht <;>
      simp [aggregateSql, ht, hw, needsSymmetric, hp, plainAgg]
  | some p =>
    obtain ⟨id, pk⟩ := p
    cases fpk with
    | none => rcases ht with ht | ht | ht <;> simp [aggregateSql, ht, hw, needsSymmetric, plainAgg]
    | doesNotExist =>
      rcases ht with ht | ht | ht <;> cases hc : m.primaryKeyCount <;>
        simp [aggregateSql, ht, hw, needsSymmetric, hp, plainAgg, symSum, symCount, hc]
    | key k =>
      by_cases e : id = k
      · subst e
        rcases ht with ht | ht | ht <;> simp [aggregateSql, ht, hw, needsSymmetric, hp, plainAgg]
      · have e' : ¬ k = id := fun c => e c.symm
        rcases ht with ht | ht | ht <;> cases hc : m.primaryKeyCount <;>
          simp [aggregateSql, ht, hw, needsSymmetric, hp, plainAgg, symSum, symCount, hc, e, e']

/-- C22 (b): without a primary key of its own such a measure is refused, with a QueryError, whenever
the query has a functional primary key or is known to have none. -/
theorem C22_no_own_key (m : Measure) (w : Warehouse) (hw : supportsSymmetric w = true)
    (ht : m.type = .sum ∨ m.type = .count ∨ m.type = .average) (fpk : FunctionalPk)
    (hf : fpk ≠ .none) (hp : m.pk = none) : aggregateSql m w fpk = .error .query := by
  cases fpk with
  | none => exact absurd rfl hf
  | doesNotExist => rcases ht with ht | ht | ht <;> simp [aggregateSql, ht, hw, needsSymmetric, hp]
  | key k => rcases ht with ht | ht | ht <;> simp [aggregateSql, ht, hw, needsSymmetric, hp]

/-- C22 (c): elsewhere a sum, count or average is plain, the `distinct` types are refused; maximum,
minimum and number of distinct values are the same everywhere; a median is refused or plain. -/
theorem C22_other_warehouses (m : Measure) (w : Warehouse) (fpk : FunctionalPk) :
    (supportsSymmetric w = false →
      ((m.type = .sum ∨ m.type = .count ∨ m.type = .average) →
        aggregateSql m w fpk = .ok (plainAgg m.type m.sql)) ∧
      ((m.type = .sumDistinct ∨ m.type = .averageDistinct) → aggregateSql m w fpk = .error .query)) ∧
    ((m.type = .max ∨ m.type = .min ∨ m.type = .countDistinct) →
      aggregateSql m w fpk = .ok (plainAgg m.type m.sql)) ∧
    (m.type = .median → aggregateSql m w fpk = .error .query ∨
      aggregateSql m w fpk = .ok (plainAgg m.type m.sql)) ∧
    (supportsSymmetric w = true →
      (m.type = .sumDistinct → aggregateSql m w fpk = .ok (symSum m.sql m.distinctKey)) ∧
      (m.type = .averageDistinct → aggregateSql m w fpk =
        .ok (.ratio (symSum m.sql m.distinctKey) (symCount m.sql m.distinctKey)))) := by
  refine ⟨fun hw => ⟨?_, ?_⟩, ?_, ?_, fun hw => ⟨?_, ?_⟩⟩
  · rintro (ht | ht | ht) <;> simp [aggregateSql, ht, hw, plainAgg]
  · rintro (ht | ht) <;> simp [aggregateSql, ht, hw]
  · rintro (ht | ht | ht) <;> simp [aggregateSql, ht, plainAgg]
  · intro ht
    cases w <;> simp [aggregateSql, ht, plainAgg]
  · intro ht; simp [aggregateSql, ht, hw]
  · intro ht; simp [aggregateSql, ht, hw]

section
variable {ρ : Type}

/-- With an unrepeated key the rows themselves are one per key. -/
theorem rows_perm_reps {key f : ρ → Val} {rows reps : List ρ} (h : OnePerKey key rows reps)
    (hf : OwnValue key f rows) (hu : (rows.filterMap key).Nodup) :
    (rows.filterMap f).Perm (reps.filterMap f) := by
  have e1 : rows.filterMap f = (rows.filter (fun r => (key r).isSome)).filterMap f := by
    have := hf.null
    clear h hu hf
    induction rows with
    | nil => rfl
    | cons r rs ih =>
      have ih := ih (fun a ha => this a (by simp [ha]))
      cases hk : key r with
      | none =>
        rw [List.filterMap_cons, this r (by simp) hk, List.filter_cons, hk]
        exact ih
      | some k =>
        rw [List.filter_cons, hk]
        simp only [Option.isSome_some, if_true, List.filterMap_cons, ih]
  have e2 : (rows.filter (fun r => (key r).isSome)).map key = (rows.filterMap key).map some := by
    clear h hu hf e1
    induction rows with
    | nil => rfl
    | cons r rs ih =>
      rw [List.filter_cons, List.filterMap_cons]
      cases hk : key r with
      | none => exact ih
      | some k => simp only [Option.isSome_some, if_true, List.map_cons, hk, ih]
  have n1 : ((rows.filter (fun r => (key r).isSome)).map key).Nodup := by
    rw [e2]
    exact hu.map (Option.some_injective _)
  rw [e1]
  apply List.Perm.filterMap
  rw [List.perm_ext_iff_of_nodup (List.Nodup.of_map _ n1) (List.Nodup.of_map _ h.once)]
  intro r
  constructor
  · intro hr
    obtain ⟨hr1, hr2⟩ := List.mem_filter.mp hr
    obtain ⟨r', hr', e⟩ := h.all r hr1 (by intro c; rw [c] at hr2; cases hr2)
    have : r' ∈ rows.filter (fun r => (key r).isSome) :=
      List.mem_filter.mpr ⟨h.sub r' hr', by rw [e]; exact hr2⟩
    rw [← key_inj n1 this hr e]
    exact hr'
  · intro hr
    refine List.mem_filter.mpr ⟨h.sub r hr, ?_⟩
    cases hk : key r with
    | none => exact absurd hk (h.nonnull r hr)
    | some k => rfl

theorem median_perm {a b : List ℚ} (h : a.Perm b) : sqlMedian a = sqlMedian b := by
  unfold sqlMedian
  have : a.insertionSort (· ≤ ·) = b.insertionSort (· ≤ ·) := by
    apply List.Perm.eq_of_pairwise (le := (· ≤ ·))
    · intro x y _ _ h1 h2; exact le_antisymm h1 h2
    · exact List.pairwise_insertionSort (· ≤ ·) a
    · exact List.pairwise_insertionSort (· ≤ ·) b
    · exact ((List.perm_insertionSort _ a).trans h).trans (List.perm_insertionSort _ b).symm
  rw [this]

/-- C22 (d): the value. On a warehouse with symmetric aggregates, when the query's functional primary
key is known and, if it is the measure's own key, is not repeated in the rows (C20), every measure but
a median has the value it has over its own view's rows, each counted once. Partial: a functional key
that is unknown because the view found has no visible primary key is excluded (C22_no_base_key), and
so is a median over fanned-out rows (C22_median). -/
theorem C22_value_partial (E : Engine ρ) (m : Measure) (w : Warehouse) (fpk : FunctionalPk) (a : Agg)
    (rows reps : List ρ) (id pk : String) (hw : supportsSymmetric w = true)
    (hm : m.pk = some (id, pk)) (hd : m.distinctKey = pk)
    (hcount : m.primaryKeyCount = true → ∀ r ∈ rows, E.value r m.sql = E.value r pk)
    (ha : aggregateSql m w fpk = .ok a) (hf : fpk ≠ .none)
    (h : OnePerKey (fun r => E.value r pk) rows reps)
    (hv : OwnValue (fun r => E.value r pk) (fun r => E.value r m.sql) rows)
    (hc : NoCollision E.hash (fun r => E.value r pk) (fun r => E.value r m.sql) reps)
    (h6 : SixDecimals (fun r => E.value r m.sql) reps)
    (htrue : fpk = .key id → (rows.filterMap (fun r => E.value r pk)).Nodup)
    (hmed : m.type = .median → fpk = .key id) :
    SameValue (a.eval E rows) (trueValue m.type (values (fun r => E.value r m.sql) reps)) := by
  have hplain : fpk = .key id → a = plainAgg m.type m.sql → m.type ≠ .sumDistinct →
      m.type ≠ .averageDistinct →
      SameValue (a.eval E rows) (trueValue m.type (values (fun r => E.value r m.sql) reps)) := by
    intro hk ea n1 n2
    have hp := rows_perm_reps h hv (htrue hk)
    have hne : rows.filterMap (fun r => E.value r m.sql) = [] ↔
        reps.filterMap (fun r => E.value r m.sql) = [] := by
      constructor
      · intro e; rw [e] at hp; exact List.nil_perm.mp hp
      · intro e; rw [e] at hp; exact List.perm_nil.mp hp
    obtain ⟨m1, m2, m3⟩ := C21_max_min_distinct E m.sql pk rows reps h hv
    rw [ea]
    cases ht : m.type with
    | sum =>
      simp only [plainAgg, Agg.eval, Scalar.eval, trueValue, SameValue, sqlSum, values, hne, hp.sum_eq]
      congr
    | sumDistinct => exact absurd ht n1
    | count =>
      simp only [plainAgg, Agg.eval, Scalar.eval, trueValue, SameValue, values, hp.length_eq]
    | countDistinct =>
      simp only [plainAgg] at m3 ⊢
      rw [m3]
      rfl
    | average =>
      simp only [plainAgg, Agg.eval, Scalar.eval, trueValue, SameValue, values, hne, hp.sum_eq,
        hp.length_eq]
      congr
    | averageDistinct => exact absurd ht n2
    | median =>
      simp only [plainAgg, Agg.eval, Scalar.eval, trueValue, SameValue, values]
      rw [median_perm hp]
    | max => simp only [plainAgg] at m1 ⊢; rw [m1]; rfl
    | min => simp only [plainAgg] at m2 ⊢; rw [m2]; rfl
  have hsum : ∀ sql, sql = m.sql → SameValue ((symSum sql pk).eval E rows)
      (if values (fun r => E.value r m.sql) reps = [] then none
        else some (values (fun r => E.value r m.sql) reps).sum) := by
    rintro _ rfl
    rw [C21_sum_exact E m.sql pk rows reps h hv hc h6]
    unfold SameValue
    split
    · rename_i e; rw [e]; rfl
    · rfl
  have havg : SameValue ((Agg.ratio (symSum m.sql pk) (symCount m.sql pk)).eval E rows)
      (if values (fun r => E.value r m.sql) reps = [] then none
        else some ((values (fun r => E.value r m.sql) reps).sum /
          (values (fun r => E.value r m.sql) reps).length)) := by
    rw [C21_average E m.sql pk rows reps h hv hc h6]; rfl
  have hpk : pkText m = pk := by unfold pkText; rw [hm]
  have hneeds : needsSymmetric m fpk = .ok true ∨ (needsSymmetric m fpk = .ok false ∧ fpk = .key id) := by
    cases hfp : fpk with
    | none => exact absurd hfp hf
    | doesNotExist => left; simp [needsSymmetric, hm]
    | key k =>
      by_cases e : id = k
      · subst e; right; simp [needsSymmetric, hm]
      · left; simp [needsSymmetric, hm, e]
  obtain ⟨m1, m2, m3⟩ := C21_max_min_distinct E m.sql pk rows reps h hv
  cases ht : m.type with
  | sum =>
    rcases hneeds with hns | ⟨hns, hk⟩
    · simp only [aggregateSql, ht, hw, hns, if_true, hpk, Except.ok.injEq] at ha
      rw [← ha]
      exact hsum m.sql rfl
    · rw [← ht]
      refine hplain hk ?_ (by simp [ht]) (by simp [ht])
      simp only [aggregateSql, ht, hw, hns, if_true, Except.ok.injEq] at ha
      rw [← ha, ht]; rfl
  | sumDistinct =>
    simp only [aggregateSql, ht, hw, if_true, hd, Except.ok.injEq] at ha
    rw [← ha]
    exact hsum m.sql rfl
  | count =>
    rcases hneeds with hns | ⟨hns, hk⟩
    · simp only [aggregateSql, ht, hw, hns, if_true, hpk] at ha
      cases hpc : m.primaryKeyCount with
      | true =>
        simp only [hpc, if_true, Except.ok.injEq] at ha
        rw [← ha]
        simp only [Agg.eval, Scalar.eval, trueValue, SameValue, values, Option.getD_some]
        have hcv := hcount hpc
        have hnd : (reps.filterMap (fun r => E.value r m.sql)).Nodup := by
          have e : reps.filterMap (fun r => E.value r m.sql) = reps.filterMap (fun r => E.value r pk) :=
            List.filterMap_congr (fun r hr => hcv r (h.sub r hr))
          rw [e]
          have e2 : reps.map (fun r => E.value r pk) =
              (reps.filterMap (fun r => E.value r pk)).map some := by
            have := h.nonnull
            clear * - this
            induction reps with
            | nil => rfl
            | cons r rs ih =>
              have ih := ih (fun x hx => this x (by simp [hx]))
              have hr := this r (by simp)
              cases hk : E.value r pk with
              | none => exact absurd hk hr
              | some k => simp only [List.map_cons, List.filterMap_cons, hk, ih]
          have := h.once
          rw [e2] at this
          exact List.Nodup.of_map _ this
        exact_mod_cast (dedup_perm h hv hnd).length_eq
      | false =>
        simp only [hpc, Bool.false_eq_true, if_false, Except.ok.injEq] at ha
        rw [← ha, C21_count E m.sql pk rows reps h hv]
        unfold SameValue trueValue
        split
        · rename_i e; rw [e]; rfl
        · rfl
    · rw [← ht]
      refine hplain hk ?_ (by simp [ht]) (by simp [ht])
      simp only [aggregateSql, ht, hw, hns, if_true, Except.ok.injEq] at ha
      rw [← ha, ht]; rfl
  | countDistinct =>
    simp only [aggregateSql, ht, Except.ok.injEq] at ha
    rw [← ha, m3]; rfl
  | average =>
    rcases hneeds with hns | ⟨hns, hk⟩
    · simp only [aggregateSql, ht, hw, hns, if_true, hpk, Except.ok.injEq] at ha
      rw [← ha]
      exact havg
    · rw [← ht]
      refine hplain hk ?_ (by simp [ht]) (by simp [ht])
      simp only [aggregateSql, ht, hw, hns, if_true, Except.ok.injEq] at ha
      rw [← ha, ht]; rfl
  | averageDistinct =>
    simp only [aggregateSql, ht, hw, if_true, hd, Except.ok.injEq] at ha
    rw [← ha]
    exact havg
  | median =>
    have hk := hmed ht
    rw [← ht]
    refine hplain hk ?_ (by simp [ht]) (by simp [ht])
    rcases (C22_other_warehouses m w fpk).2.2.1 ht with e | e
    · rw [e] at ha; cases ha
    · rw [e] at ha; exact (Except.ok.inj ha).symm
  | max =>
    simp only [aggregateSql, ht, Except.ok.injEq] at ha
    rw [← ha, m1]; rfl
  | min =>
    simp only [aggregateSql, ht, Except.ok.injEq] at ha
    rw [← ha, m2]; rfl

end

section
variable {R : Type} [DecidableEq R]

/-- C22 (e), the whole chain on joined tables: for joins that satisfy the conditions of C20 and whose
reported view has a primary key, every measure of every view but a median has the value it has over
that view's rows that take part, each counted once, whatever the joins do. -/
theorem C22_joined_partial (db : String → List R) (base : String) (joins : List (JoinStep R))
    (hs : FromShape base joins) (hr : ∀ j ∈ joins, Respects db j) (hdb : ∀ u, (db u).Nodup)
    (viewPk : String → Option String)
    (hinj : ∀ u v id, viewPk u = some id → viewPk v = some id → u = v)
    (hpk : ∀ f, reportedPk base joins = some f → viewPk f ≠ none)
    (hto : ∀ f, reportedPk base joins = some f → ∀ j ∈ joins, j.rel = .oneToMany → OnPath joins f j)
    (hno : ∀ f, reportedPk base joins = some f → ∀ j, OnPath joins f j → j.rel ≠ .manyToOne)
    (v : String) (col : String → R → Val) (hash : ℚ → ℤ) (m : Measure) (w : Warehouse)
    (hw : supportsSymmetric w = true) (id pk : String) (hv : viewPk v = some id)
    (hm : m.pk = some (id, pk)) (hd : m.distinctKey = pk) (hmed : m.type ≠ .median)
    (hcount : m.primaryKeyCount = true → ∀ r ∈ db v, col m.sql r = col pk r)
    (hkey : ∀ r ∈ db v, col pk r ≠ none) (huniq : ((db v).map (col pk)).Nodup)
    (h6 : SixDecimals (col m.sql) (db v)) (hc : NoCollision hash (col pk) (col m.sql) (db v))
    (a : Agg) (ha : aggregateSql m w (functionalPkField viewPk (reportedPk base joins)) = .ok a) :
    SameValue (a.eval ⟨column v col, hash⟩ (joinedRows db base joins))
      (trueValue m.type (values (col m.sql) (takingPart db v (joinedRows db base joins)))) := by
  have hok : ∀ r ∈ partOf v (joinedRows db base joins), r ∈ db v :=
    fun r hr => part_mem (rowsOk_joined db base joins) hr
  obtain ⟨reps, h1, h2⟩ := onePerKey_joined v db (joinedRows db base joins) hok (col pk) hkey huniq
  have hin : ∀ r ∈ takingPart db v (joinedRows db base joins), r ∈ db v := fun r hr => (List.mem_filter.mp hr).1
  have hget : ∀ x ∈ joinedRows db base joins, ∀ r, dictGet x v = some r → r ∈ db v := fun x hx r e =>
    hok r (List.mem_filterMap.mpr ⟨x, hx, e⟩)
  have hval : values (fun r => column v col r m.sql) reps =
      values (col m.sql) (takingPart db v (joinedRows db base joins)) := filterMap_of_map (h2 (col m.sql))
  rw [← hval]
  refine C22_value_partial ⟨column v col, hash⟩ m w _ a (joinedRows db base joins) reps id pk hw hm hd
    ?_ ha ?_ h1 (ownValue_joined v db _ hok (col pk) (col m.sql) hkey huniq) ?_ ?_ ?_
    (fun c => absurd c hmed)
  · intro hp x hx
    simp only [column]
    cases hg : dictGet x v with
    | none => rfl
    | some r => exact hcount hp r (hget x hx r hg)
  · unfold functionalPkField
    cases hrep : reportedPk base joins with
    | none => simp
    | some f =>
      cases hvf : viewPk f with
      | none => exact absurd hvf (hpk f hrep)
      | some k => simp only [hvf]; simp
  · intro x hx y hy k l hk hl hkl
    simp only [column] at hk hl ⊢
    cases ex : dictGet x v with
    | none => rw [ex] at hk; cases hk
    | some r =>
      cases ey : dictGet y v with
      | none => rw [ey] at hl; cases hl
      | some r' =>
        rw [ex] at hk
        rw [ey] at hl
        exact hc r (hget x (h1.sub x hx) r ex) r' (hget y (h1.sub y hy) r' ey) k l hk hl hkl
  · intro x hx q hq
    obtain ⟨r, hr, e⟩ := reps_mem (h2 (col m.sql)) hx
    exact h6 r (hin r hr) q (by rw [← e]; exact hq)
  · intro hfk
    unfold functionalPkField at hfk
    cases hrep : reportedPk base joins with
    | none => rw [hrep] at hfk; simp at hfk
    | some f =>
      rw [hrep] at hfk
      cases hvf : viewPk f with
      | none => exact absurd hvf (hpk f hrep)
      | some k =>
        simp only [hvf, FunctionalPk.key.injEq] at hfk
        subst hfk
        have hfv : f = v := hinj f v k hvf hv
        subst hfv
        obtain ⟨hmem, hmm⟩ := reportedPk_spec hrep
        have hnd := nodup_of_unrepeated db base hdb joins hs hr f hmem ⟨hmm, hto f hrep, hno f hrep⟩
        have e : (joinedRows db base joins).filterMap (fun r => column f col r pk) =
            (partOf f (joinedRows db base joins)).filterMap (col pk) := by
          unfold partOf
          rw [List.filterMap_filterMap]
          rfl
        simp only
        rw [e]
        have e2 : (partOf f (joinedRows db base joins)).map (col pk) =
            ((partOf f (joinedRows db base joins)).filterMap (col pk)).map some := by
          generalize partOf f (joinedRows db base joins) = l at hok
          clear * - hok hkey
          induction l with
          | nil => rfl
          | cons r rs ih =>
            have ih := ih (fun x hx => hok x (by simp [hx]))
            have hr := hkey r (hok r (by simp))
            cases hk : col pk r with
            | none => exact absurd hk hr
            | some k => simp only [List.map_cons, List.filterMap_cons, hk, ih]
        have h3 : ((partOf f (joinedRows db base joins)).map (col pk)).Nodup :=
          List.Nodup.map_on (fun a ha b hb e => List.inj_on_of_nodup_map huniq (hok a ha) (hok b hb) e) hnd
        rw [e2] at h3
        exact List.Nodup.of_map _ h3

end

/-! ### Concrete cases -/

/-- Columns of the shop tables: the key, and an amount. -/
def shopCol (s : String) (r : Nat × Nat) : Val :=
  if s = "key" then some r.1 else if s = "amount" then some (r.1 * 2) else none

/-- Customers joined to their orders: the sum over customers is taken symmetrically. -/
def customerSum : Measure := { type := .sum, sql := "amount", pk := some ("customers.key", "key"), distinctKey := "key" }

/-- The primary keys of the views. -/
def shopPk (v : String) : Option String :=
  if v = "orders" then some "orders.key" else if v = "customers" then some "customers.key" else none

/-- A hash far apart on the keys of the example. -/
def shopHash (k : ℚ) : ℤ := (k * 1000000000).floor

example : functionalPkField shopPk (reportedPk "customers" fanSteps) = .key "orders.key" ∧
    aggregateSql customerSum .snowflake (.key "orders.key") = .ok (symSum "amount" "key") ∧
    (symSum "amount" "key").eval ⟨column "customers" shopCol, shopHash⟩
      (joinedRows shopDb "customers" fanSteps) = some 66 ∧
    (Agg.sum (.raw "amount")).eval ⟨column "customers" shopCol, shopHash⟩
      (joinedRows shopDb "customers" fanSteps) = some 86 ∧
    trueValue .sum (values (shopCol "amount")
      (takingPart shopDb "customers" (joinedRows shopDb "customers" fanSteps))) = some 66 := by
  decide +kernel

theorem fanSteps_shape : FromShape "customers" fanSteps := by
  refine ⟨by decide, by decide, ?_⟩
  intro pre j post h
  unfold fanSteps at h
  rcases pre with _ | ⟨a, t⟩
  · injection h with h1 h2; subst h1; exact .inl rfl
  · simp at h

theorem fan_reported : reportedPk "customers" fanSteps = some "orders" := by decide

/-- The hypotheses of C22 (e) hold of the example. -/
example : SameValue ((symSum "amount" "key").eval ⟨column "customers" shopCol, shopHash⟩
      (joinedRows shopDb "customers" fanSteps))
    (trueValue .sum (values (shopCol "amount")
      (takingPart shopDb "customers" (joinedRows shopDb "customers" fanSteps)))) := by
  refine C22_joined_partial shopDb "customers" fanSteps fanSteps_shape (by decide) ?_ shopPk ?_ ?_ ?_ ?_
    "customers" shopCol shopHash customerSum .snowflake rfl "customers.key" "key" rfl rfl rfl
    (by decide) (by decide) ?_ ?_ ?_ ?_ _ (by decide)
  · intro u
    unfold shopDb
    split
    · decide
    · split
      · decide
      · split <;> decide
  · intro u v id hu hv
    unfold shopPk at hu hv
    split at hu
    · split at hv
      · simp_all
      · split at hv
        · cases hu; exact absurd (Option.some.inj hv) (by decide)
        · cases hv
    · split at hu
      · split at hv
        · cases hu; exact absurd (Option.some.inj hv) (by decide)
        · split at hv
          · simp_all
          · cases hv
      · cases hu
  · intro f hf; rw [fan_reported] at hf; cases hf; decide
  · intro f hf j hj _
    rw [fan_reported] at hf; cases hf
    exact .last hj (by revert j; decide)
  · intro f hf j hj
    have := hj.mem
    clear hj
    revert j
    decide
  · intro r _; simp [shopCol]
  · decide +kernel
  · intro r _ x hx
    simp only [shopCol] at hx
    simp only [customerSum] at hx
    simp at hx
    exact ⟨r.1 * 2 * 1000000, by rw [← hx]; push_cast; ring⟩
  · intro a ha b hb k l hk hl hkl
    have ha' : a ∈ [(10, 7), (11, 8), (12, 7)] := ha
    have hb' : b ∈ [(10, 7), (11, 8), (12, 7)] := hb
    simp only [List.mem_cons, List.not_mem_nil, or_false] at ha' hb'
    rcases ha' with rfl | rfl | rfl <;> rcases hb' with rfl | rfl | rfl <;>
      (simp only [shopCol, if_true, Option.some.injEq] at hk hl; subst hk hl) <;>
      first
        | exact absurd rfl hkl
        | (constructor <;> decide +kernel)

/-- C22, against the full statement: the base view has no primary key, so there is no functional key
and a view joined many to one is summed plainly although its rows repeat. Two orders of one customer
count the customer twice. -/
theorem C22_no_base_key :
    ∃ (db : String → List (Nat × Nat)) (joins : List (JoinStep (Nat × Nat)))
      (viewPk : String → Option String) (m : Measure) (col : String → Nat × Nat → Val) (a : Agg),
      FromShape "orders" joins ∧ (∀ j ∈ joins, Respects db j) ∧ m.type = .sum ∧
      m.pk = some ("customers.key", "key") ∧ viewPk "customers" = some "customers.key" ∧
      functionalPkField viewPk (reportedPk "orders" joins) = .none ∧
      aggregateSql m .snowflake (functionalPkField viewPk (reportedPk "orders" joins)) = .ok a ∧
      a.eval ⟨column "customers" col, fun _ => 0⟩ (joinedRows db "orders" joins) = some 40 ∧
      trueValue .sum (values (col m.sql) (takingPart db "customers" (joinedRows db "orders" joins))) =
        some 20 := by
  refine ⟨fun v => if v = "orders" then [(1, 10), (2, 10)] else if v = "customers" then [(10, 7)] else [],
    [⟨"orders", "customers", .manyToOne, .left, fun o c => o.2 == c.1⟩],
    fun v => if v = "customers" then some "customers.key" else none, customerSum, shopCol,
    .sum (.raw "amount"), ⟨by decide, by decide, ?_⟩, by decide, rfl, rfl, by decide, by decide, by decide,
    by decide +kernel, by decide +kernel⟩
  intro pre j post h
  rcases pre with _ | ⟨a, t⟩
  · injection h with h1 h2; subst h1; exact .inl rfl
  · simp at h

/-- C22, against the full statement: a median is always plain, so over fanned-out rows it weighs
repeated rows more often. -/
theorem C22_median :
    ∃ (E : Engine (ℚ × ℚ)) (rows reps : List (ℚ × ℚ)) (m : Measure) (a : Agg), m.type = .median ∧
      aggregateSql m .snowflake .doesNotExist = .ok a ∧
      OnePerKey (fun r => E.value r "pk") rows reps ∧ a.eval E rows = some 1 ∧
      trueValue .median (values (fun r => E.value r m.sql) reps) = some (3 / 2) := by
  refine ⟨⟨fun r s => if s = "pk" then some r.1 else some r.2, fun _ => 0⟩,
    [(1, 1), (1, 1), (2, 2)], [(1, 1), (2, 2)],
    { type := .median, sql := "x", pk := some ("v.pk", "pk") }, .median (.raw "x"), rfl, rfl, ?_,
    by decide +kernel, by decide +kernel⟩
  refine ⟨?_, by decide +kernel, by decide +kernel, by decide +kernel⟩
  intro r hr
  simp only [List.mem_cons, List.not_mem_nil, or_false] at hr ⊢
  rcases hr with h | h
  · exact .inl h
  · exact .inr (.inr h)

end ML
