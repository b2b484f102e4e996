import Verif.FieldCheck.Raise
import Verif.TimeGroup.Props
import Verif.Duration.Props
import Verif.Tiers.Props
import Verif.Usable.Lemmas
/-
C62: what validating a field reports, when it raises, and what a field without reports can be used for.
-/
set_option autoImplicit false
namespace ML
open Spec

/-! ### Definitions for the examples -/

/-- `orders.created`, a time group. -/
def fcDate : UField := ⟨"orders", "created", .group, "time", some ⟨["TABLE"], false⟩, none, none, none, none, none, none⟩
/-- `orders.price`, a dimension. -/
def fcPrice : UField := ⟨"orders", "price", .dimension, "number", some ⟨["TABLE"], false⟩, none, none, none, none, none, none⟩

/-- A view `orders` with the fields `created` and `price`. -/
def fcEnv : CheckEnv where
  view := "orders"
  defaultDate := some "created"
  get := fun _ n => if n = "created" ∨ n = "orders.created" then .ok fcDate
    else if n = "price" ∨ n = "orders.price" then .ok fcPrice else .error .accessDenied
  depth := 5
  getText := fun n => if n = "orders.created" then .ok fcDate else if n = "orders.price" then .ok fcPrice else .error .accessDenied
  getByName := fun n => if n = "orders.created" then .ok fcDate else .error .accessDenied
  grant := fun n => n = "finance"
  pkSql := none
  filterOk := fun _ => true
  filterSql := fun _ _ _ => .ok "case when x then y end"
  caseSql := fun _ => .ok "case when x then y end"
  tierSql := fun _ _ => "case when x then y end"
  shown := fun _ => "x"
  drill := fun l => .ok (l.filterMap (·.text?))

theorem fcEnv_looksUp : LooksUp fcEnv where
  get := by
    intro v n e h
    simp only [fcEnv] at h
    split at h
    · cases h
    · split at h
      · cases h
      · cases h; rfl
  getText := by
    intro n e h
    simp only [fcEnv] at h
    split at h
    · cases h
    · split at h
      · cases h
      · cases h; rfl
  getByName := by
    intro n e h
    simp only [fcEnv] at h
    split at h
    · cases h
    · cases h; exact .inl rfl

/-- A sum of prices. -/
def fcSum : FDef :=
  [("name", .str "total"), ("field_type", .str "measure"), ("type", .str "sum"), ("sql", .str "${price}")]
/-- A sum with several things wrong: a bad name, a template, an unknown grant and an unknown property. -/
def fcBad : FDef :=
  [("name", .str "to tal"), ("field_type", .str "measure"), ("type", .str "sum"), ("sql", .str "${cost}"),
   ("required_access_grants", .list [.str "finance", .str "staff"]), ("colour", .str "red")]
/-- A time group. -/
def fcGroup : FDef :=
  [("name", .str "created"), ("field_type", .str "dimension_group"), ("type", .str "time"), ("sql", .str "${TABLE}.created_at"),
   ("timeframes", .list [.str "raw", .str "date", .str "week"])]
/-- A duration. -/
def fcDuration : FDef :=
  [("name", .str "age"), ("field_type", .str "dimension_group"), ("type", .str "duration"), ("sql_start", .str "${TABLE}.a"),
   ("sql_end", .str "${TABLE}.b"), ("intervals", .list [.str "day", .str "year"])]
/-- A tier. -/
def fcTier : FDef :=
  [("name", .str "bucket"), ("field_type", .str "dimension"), ("type", .str "tier"), ("sql", .str "${TABLE}.price"),
   ("tiers", .list [.int 10, .int 20])]

/-! ### What is reported -/

/-- C62 (a): when validating a field ends with a report, the report lists exactly the problems of the specification. -/
theorem C62_exact (env : CheckEnv) (d : FDef) (name : String) (hname : Given d "name" (.str name)) (rs : List FieldReport)
    (h : collectErrors env d = .ok rs) (p : FieldProblem) :
    (∃ r ∈ rs, r.problem = p) ↔ HasProblem env name ((textAt d "field_type").getD "") d p := by
  unfold collectErrors at h
  cases hf : fieldProblems env d with
  | error e => rw [hf] at h; cases h
  | ok ps =>
    rw [hf] at h; cases h
    rw [← fieldProblems_iff hname hf]
    simp

/-- Nothing is wrong with the sum. -/
example : Given fcSum "name" (.str "total") ∧ collectErrors fcEnv fcSum = .ok [] := ⟨rfl, by decide +kernel⟩
/-- Four things are wrong with the other one. -/
example : Given fcBad "name" (.str "to tal") ∧ collectErrors fcEnv fcBad =
    .ok [⟨0, .badName⟩, ⟨0, .noGrant "staff"⟩, ⟨0, .badRef "cost"⟩, ⟨0, .unknownKey "colour"⟩] := ⟨rfl, by decide +kernel⟩

/-- C62 (b): a report is marked as a warning exactly when it says that a `case` is deprecated or that a measure has no date; in a personal
field every report is marked, and these two are marked twice. -/
theorem C62_marks (env : CheckEnv) (d : FDef) (rs : List FieldReport) (h : collectErrors env d = .ok rs) (r : FieldReport) (hr : r ∈ rs) :
    (¬ IsSet d "is_personal_field" → (0 < r.warnings ↔ r.problem = .caseDeprecated ∨ r.problem = .noDate) ∧ r.warnings ≤ 1) ∧
    (IsSet d "is_personal_field" → 0 < r.warnings ∧ (r.warnings = 2 ↔ r.problem = .caseDeprecated ∨ r.problem = .noDate)) := by
  unfold collectErrors at h
  cases hf : fieldProblems env d with
  | error e => rw [hf] at h; cases h
  | ok ps =>
    rw [hf] at h; cases h
    obtain ⟨p, -, rfl⟩ := List.mem_map.mp hr
    have hw : p.isWarning = true ↔ p = .caseDeprecated ∨ p = .noDate := by cases p <;> simp [FieldProblem.isWarning]
    simp only
    constructor
    · intro hn
      rw [← truthyOpt_false_iff] at hn
      rw [hn, ← hw]
      cases p.isWarning <;> simp
    · intro hs
      rw [← truthyOpt_iff] at hs
      rw [hs, ← hw]
      cases p.isWarning <;> simp

/-- A personal metric without a date is warned about twice. -/
example : collectErrors { fcEnv with defaultDate := none } (("is_personal_field", .bool true) :: fcSum) = .ok [⟨2, .noDate⟩] ∧
    collectErrors { fcEnv with defaultDate := none } fcSum = .ok [⟨1, .noDate⟩] := by decide +kernel

/-! ### When validating raises -/

/-- C62 (c): validating a field ends with a report, unless the definition is one of the listed ones; then it raises. -/
theorem C62_raises (env : CheckEnv) (hl : LooksUp env) (d : FDef) (name : String) (hname : Given d "name" (.str name)) :
    (∃ e, collectErrors env d = .error e) ↔ Raises env name ((textAt d "field_type").getD "") d := by
  rw [← fieldProblems_fails hl hname]
  unfold collectErrors Fails
  cases fieldProblems env d with
  | error e => simp
  | ok ps => simp

/-- A time group without timeframes, and one without SQL. -/
example : LooksUp fcEnv ∧
    collectErrors fcEnv [("name", .str "created"), ("field_type", .str "dimension_group"), ("type", .str "time"), ("sql", .str "x")] =
      .error .keyError ∧
    collectErrors fcEnv [("name", .str "created"), ("field_type", .str "dimension_group"), ("type", .str "time"),
      ("timeframes", .list [.str "date"])] = .error .keyError :=
  ⟨fcEnv_looksUp, by decide +kernel, by decide +kernel⟩

/-- C62 (d): validating a field whose name is not a text raises. -/
theorem C62_raises_name (env : CheckEnv) (d : FDef) (h : ¬ GivesText d "name") : ∃ e, collectErrors env d = .error e := by
  unfold collectErrors fieldProblems
  unfold GivesText Given at h
  cases hn : dictGet d "name" with
  | none => exact ⟨_, rfl⟩
  | some v =>
    cases v with
    | str s => exact absurd ⟨s, hn⟩ h
    | _ => exact ⟨_, rfl⟩

/-- A numeric name. -/
example : ¬ GivesText [("name", .int 5)] "name" := by rintro ⟨s, h⟩; cases h

/-- The SQL of a tier with no tiers. -/
theorem ownSql_noTiers {env : CheckEnv} {name : String} {d : FDef} {t : String} (ht : Given d "type" (.str "tier"))
    (hs : Given d "sql" (.str t)) (hf : ¬ HasKey d "filters") (hna : ¬ HasKey d "non_additive_dimension") (hti : Given d "tiers" (.list [])) :
    ownSql env name d = .error .indexError := by
  have hf' : dictGet d "filters" = none := by
    cases h : dictGet d "filters" with
    | none => rfl
    | some v => exact absurd ⟨v, h⟩ hf
  have hna' : dictGet d "non_additive_dimension" = none := by
    cases h : dictGet d "non_additive_dimension" with
    | none => rfl
    | some v => exact absurd ⟨v, h⟩ hna
  unfold Given at *
  have hq : qualifyFilters env.view d = d := by unfold qualifyFilters; rw [hf']
  unfold ownSql
  rw [hq]
  have htt : textAt d "type" = some "tier" := by rw [textAt_iff]; exact ht
  simp [fieldSql, sqlBody, startSql, hs, filteredSql, hf', truthyOpt, nonAdditive, hna', tieredSql, htt, hti]

/-- C62 (e): a tier dimension with an empty list of tiers is not reported: validation raises. -/
theorem C62_raises_no_tiers (env : CheckEnv) (hl : LooksUp env) (d : FDef) (name t : String) (hname : Given d "name" (.str name))
    (hft : Given d "field_type" (.str "dimension")) (ht : Given d "type" (.str "tier")) (hs : Given d "sql" (.str t))
    (hc : ¬ HasKey d "case") (hf : ¬ HasKey d "filters") (hna : ¬ HasKey d "non_additive_dimension")
    (hti : Given d "tiers" (.list [])) : ∃ e, collectErrors env d = .error e := by
  rw [C62_raises env hl d name hname]
  refine .sql ?_ ⟨t, hs⟩ hc (.inl ⟨_, ownSql_noTiers ht hs hf hna hti⟩)
  rw [(textAt_iff _ _ _).mpr hft]; rfl

/-- Such a dimension. -/
example : collectErrors fcEnv [("name", .str "bucket"), ("field_type", .str "dimension"), ("type", .str "tier"),
    ("sql", .str "${TABLE}.price"), ("tiers", .list [])] = .error .indexError := by decide +kernel

/-- C62 (f): a filtered count of all rows is not reported: validation raises. -/
theorem C62_raises_star (env : CheckEnv) (hl : LooksUp env) (d : FDef) (name : String) (fs : List Yaml)
    (hname : Given d "name" (.str name)) (hft : Given d "field_type" (.str "measure")) (ht : ¬ Given d "type" (.str "cumulative"))
    (hs : Given d "sql" (.str "*")) (hf : Given d "filters" (.list fs)) (hne : fs ≠ []) : ∃ e, collectErrors env d = .error e := by
  rw [C62_raises env hl d name hname]
  refine .measureSql (by rw [(textAt_iff _ _ _).mpr hft]; rfl) ht ⟨_, hs⟩ (.inl ⟨.query, ?_⟩)
  unfold ownSql
  have hs' : dictGet (qualifyFilters env.view d) "sql" = some (.str "*") := by
    rw [dictGet_qualifyFilters _ _ _ (by decide)]; exact hs
  have hf' : truthyOpt (dictGet (qualifyFilters env.view d) "filters") = true := by
    unfold Given at hf
    unfold qualifyFilters
    rw [hf]
    simp only [dictGet_set, if_true, truthyOpt, Yaml.truthy]
    cases fs with
    | nil => exact absurd rfl hne
    | cons a l => rfl
  simp [fieldSql, sqlBody, startSql, hs', filteredSql, hf', Yaml.text?]

/-- Such a count. -/
example : collectErrors fcEnv [("name", .str "n"), ("field_type", .str "measure"), ("type", .str "count"), ("sql", .str "*"),
    ("filters", .list [.dict [("field", .str "price"), ("value", .str ">5")]])] = .error .query := by decide +kernel

/-! ### What a field without reports can be used for -/

/-- Nothing of the specification is wrong, except for a missing date. -/
theorem clean_problems {env : CheckEnv} {d : FDef} {name : String} (hname : Given d "name" (.str name)) (h : NothingReported env d)
    (p : FieldProblem) (hp : HasProblem env name ((textAt d "field_type").getD "") d p) : p = .noDate := by
  obtain ⟨rs, hr, hc⟩ := h
  obtain ⟨r, hm, rfl⟩ := (C62_exact env d name hname rs hr p).mpr hp
  exact hc r hm

theorem clean_returns {env : CheckEnv} {d : FDef} (h : NothingReported env d) : ¬ ∃ e, collectErrors env d = .error e := by
  rintro ⟨e, he⟩
  obtain ⟨rs, hr, -⟩ := h
  rw [he] at hr; cases hr

theorem given_or {d : FDef} {k : String} : (∃ v, dictGet d k = some v) ∨ dictGet d k = none := by
  cases dictGet d k with
  | none => exact .inr rfl
  | some v => exact .inl ⟨v, rfl⟩

/-- The words of a group about which nothing is reported. -/
theorem clean_words {env : CheckEnv} {d : FDef} {name t k : String} (ws : List String) (hname : Given d "name" (.str name))
    (h : NothingReported env d) (hft : Given d "field_type" (.str "dimension_group")) (ht : Given d "type" (.str t))
    (hk : (t, k) ∈ [("time", "timeframes"), ("duration", "intervals")]) (hkey : HasKey d k)
    (hitem : ∀ l v, Given d k (.list l) → v ∈ l → ¬ Word ws v → GroupProblem env name d (.badItem k)) :
    ∃ l, Given d k (.list l) ∧ l ≠ [] ∧ ∀ v ∈ l, ∃ w ∈ ws, v = .str w := by
  have hg : (textAt d "field_type").getD "" = "dimension_group" := by rw [(textAt_iff _ _ _).mpr hft]; rfl
  have no : ∀ p, GroupProblem env name d p → p = .noDate := fun p hp => clean_problems hname h p (.group hg hp)
  obtain ⟨v, hv⟩ := hkey
  cases v with
  | list l =>
    refine ⟨l, hv, ?_, fun v hvl => ?_⟩
    · rintro rfl
      cases no _ (.empty hk ht hv)
    · by_contra hc
      cases no _ (hitem l v hv hvl (by
        rintro ⟨w, hw, rfl⟩; exact hc ⟨w, hw, rfl⟩))
  | _ => cases no _ (.words hk ht ⟨_, hv, by rintro ⟨l, e⟩; cases e⟩)

/-- C62 (g): a time group without reports has timeframes, and every one of them is translated for every warehouse, provided the start of
the week is a weekday. -/
theorem C62_time (env : CheckEnv) (hl : LooksUp env) (d : FDef) (name : String) (hname : Given d "name" (.str name))
    (h : NothingReported env d) (hft : Given d "field_type" (.str "dimension_group")) (ht : Given d "type" (.str "time")) :
    ∃ l, Given d "timeframes" (.list l) ∧ l ≠ [] ∧ ∀ v ∈ l, ∃ tf, v = .str tf ∧
      ∀ (w : Warehouse) (f : TimeField), f.group = tf → (∃ day ∈ weekdayNames, viewWeekStart f.weekStart = day.1) →
        ∃ sql, timeSql w f = .ok sql := by
  have hg : (textAt d "field_type").getD "" = "dimension_group" := by rw [(textAt_iff _ _ _).mpr hft]; rfl
  have hkey : HasKey d "timeframes" := by
    by_contra hc
    exact clean_returns h ((C62_raises env hl d name hname).mpr (.noTimeframes hg ht hc))
  obtain ⟨l, h1, h2, h3⟩ := clean_words timeframeNames hname h hft ht (by simp) hkey
    (fun l v hl hv hn => .timeframe ht ⟨l, hl, v, hv, hn⟩)
  refine ⟨l, h1, h2, fun v hv => ?_⟩
  obtain ⟨tf, htf, rfl⟩ := h3 v hv
  refine ⟨tf, rfl, fun w f hf hd => ((C53_translated w f).1).mpr ⟨?_, fun _ => hd⟩⟩
  rw [hf]
  exact (by decide +kernel : ∀ t ∈ timeframeNames, t ∈ timeGroupNames.map Prod.fst) tf htf

/-- The time group of the example. -/
example : NothingReported fcEnv fcGroup := ⟨[], by decide +kernel, by simp⟩

/-- C62 (h): a duration without reports has intervals, and every one of them is translated for every warehouse. -/
theorem C62_duration (env : CheckEnv) (hl : LooksUp env) (d : FDef) (name : String) (hname : Given d "name" (.str name))
    (h : NothingReported env d) (hft : Given d "field_type" (.str "dimension_group")) (ht : Given d "type" (.str "duration")) :
    GivesText d "sql_start" ∧ GivesText d "sql_end" ∧ ∃ l, Given d "intervals" (.list l) ∧ l ≠ [] ∧ ∀ v ∈ l, ∃ i, v = .str i ∧
      ∀ (diff : DiffUnit → DateTime → DateTime → ℤ) (w : Warehouse) (s e : DateTime), ∃ n, durationValue diff w (i ++ "s") s e = .ok n := by
  have hg : (textAt d "field_type").getD "" = "dimension_group" := by rw [(textAt_iff _ _ _).mpr hft]; rfl
  have no : ∀ p, GroupProblem env name d p → p = .noDate := fun p hp => clean_problems hname h p (.group hg hp)
  have hkey : HasKey d "intervals" := by
    by_contra hc
    exact clean_returns h ((C62_raises env hl d name hname).mpr (.noIntervals hg ht hc))
  refine ⟨?_, ?_, ?_⟩
  · by_contra hc; cases no _ (.endKind (by simp) ht hc)
  · by_contra hc; cases no _ (.endKind (by simp) ht hc)
  · obtain ⟨l, h1, h2, h3⟩ := clean_words intervalNames hname h hft ht (by simp) hkey
      (fun l v hl hv hn => .interval ht ⟨l, hl, v, hv, hn⟩)
    refine ⟨l, h1, h2, fun v hv => ?_⟩
    obtain ⟨i, hi, rfl⟩ := h3 v hv
    refine ⟨i, rfl, fun diff w s e => (C52_units diff w (i ++ "s") s e).1 ?_⟩
    exact (by decide +kernel : ∀ i ∈ intervalNames,
      i ++ "s" ∈ ["seconds", "minutes", "hours", "days", "weeks", "months", "quarters", "years"]) i hi

/-- The duration of the example. -/
example : NothingReported fcEnv fcDuration := ⟨[], by decide +kernel, by simp⟩

/-- C62 (i): the tiers of a dimension without reports are whole numbers (true and false count as such) and there is at least one, so that
every value has a tier. -/
theorem C62_tier (env : CheckEnv) (hl : LooksUp env) (d : FDef) (name : String) (hname : Given d "name" (.str name))
    (h : NothingReported env d) (hft : Given d "field_type" (.str "dimension")) (ht : Given d "type" (.str "tier"))
    (hf : ¬ HasKey d "filters") (hna : ¬ HasKey d "non_additive_dimension") :
    ∃ l, Given d "tiers" (.list l) ∧ l ≠ [] ∧ (∀ v ∈ l, Whole v) ∧
      ∀ qs : List ℚ, qs.length = l.length → ∃ whens, tierCase qs = .ok whens ∧ ∀ x : ℚ, ∃ w, tierOf whens (some x) = some w ∧ InTier w x := by
  have hg : (textAt d "field_type").getD "" = "dimension" := by rw [(textAt_iff _ _ _).mpr hft]; rfl
  have no : ∀ p, DimensionProblem env name d p → p = .noDate := fun p hp => clean_problems hname h p (.dimension hg hp)
  have hc : ¬ HasKey d "case" := fun hc => by cases no _ (.case hc)
  have hs : GivesText d "sql" := by by_contra hs; cases no _ (.noSql hs hc)
  obtain ⟨t, hs⟩ := hs
  have hkey : HasKey d "tiers" := by by_contra hk; cases no _ (.noTiers ht hk)
  obtain ⟨v, hv⟩ := hkey
  cases v with
  | list l =>
    have hne : l ≠ [] := by
      rintro rfl
      exact clean_returns h (C62_raises_no_tiers env hl d name t hname hft ht hs hc hf hna hv)
    refine ⟨l, hv, hne, fun v hvl => ?_, fun qs hq => C31_total qs ?_⟩
    · by_contra hw; cases no _ (.tier ht ⟨l, hv, v, hvl, hw⟩)
    · rintro rfl
      exact hne (List.length_eq_zero_iff.mp hq.symm)
  | _ => cases no _ (.tiers ht ⟨_, hv, by rintro ⟨l, e⟩; cases e⟩)

/-- The tier of the example. -/
example : NothingReported fcEnv fcTier := ⟨[], by decide +kernel, by simp⟩

end ML
