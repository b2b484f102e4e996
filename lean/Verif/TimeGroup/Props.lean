import Verif.TimeGroup.Lemmas
import Verif.Week.Props
/-
C53: the timeframes of a time dimension group.
-/
set_option autoImplicit false
namespace ML
open Spec

/-- Without a time zone, moments stay as they are. -/
def noZone (t : DateTime) : DateTime := t

/-- A field of the model for the examples. -/
def timeField (group : String) : TimeField := ⟨group, .timestamp, 0, none, false, true⟩

/-- C53 (a): the field is translated exactly for the listed timeframes, and for `week` only when the week start is a weekday; everything else is a
KeyError. -/
theorem C53_translated (w : Warehouse) (f : TimeField) :
    ((∃ sql, timeSql w f = .ok sql) ↔ f.group ∈ timeGroupNames.map Prod.fst ∧
      (f.group = "week" → ∃ day ∈ weekdayNames, viewWeekStart f.weekStart = day.1)) ∧
    (∀ e, timeSql w f = .error e → e = .keyError) := by
  have hweek : ∀ w, (∃ e, weekSql w f.weekStart = .ok e) ∨ weekSql w f.weekStart = .error .keyError := by
    intro w
    by_cases h : ∃ day ∈ weekdayNames, viewWeekStart f.weekStart = day.1
    · obtain ⟨day, h1, h2⟩ := h
      exact .inl ⟨_, weekSql_eq w day h1 f.weekStart h2⟩
    · refine .inr (C32_unknown_day w f.weekStart fun day h1 h2 => h ⟨day, h1, h2⟩)
  have hiff : ∀ w, (∃ e, weekSql w f.weekStart = .ok e) ↔ ∃ day ∈ weekdayNames, viewWeekStart f.weekStart = day.1 := by
    intro w
    constructor
    · rintro ⟨e, he⟩
      by_contra h
      rw [C32_unknown_day w f.weekStart fun day h1 h2 => h ⟨day, h1, h2⟩] at he
      cases he
    · rintro ⟨day, h1, h2⟩
      exact ⟨_, weekSql_eq w day h1 f.weekStart h2⟩
  have hnone : ∀ n, timeGroupNames.lookup n = none → n ∉ timeGroupNames.map Prod.fst := by
    intro n h hn
    obtain ⟨p, hp, rfl⟩ := List.mem_map.1 hn
    have : (timeGroupNames.lookup p.1).isSome = true := (by decide +kernel : ∀ p ∈ timeGroupNames, (timeGroupNames.lookup p.1).isSome = true) p hp
    rw [h] at this; cases this
  have hmem : ∀ n g, timeGroupNames.lookup n = some g → (n, g) ∈ timeGroupNames := fun n g h => by
    rw [List.lookup_eq_some_iff] at h
    obtain ⟨l1, l2, h1, _⟩ := h
    rw [h1]; simp
  simp only [timeSql]
  generalize (if (f.timezone && f.convert) = true then applyTimezone w f.datatype TExpr.col else TExpr.col) = s
  cases hl : timeGroupNames.lookup f.group with
  | none =>
    refine ⟨⟨fun ⟨sql, h⟩ => by simp at h, fun ⟨h, _⟩ => absurd h (hnone _ hl)⟩, fun e h => ?_⟩
    simp only [Except.error.injEq] at h; exact h.symm
  | some g =>
    have hm := hmem _ _ hl
    have hin : f.group ∈ timeGroupNames.map Prod.fst := List.mem_map.2 ⟨_, hm, rfl⟩
    have hgw : g = .week ↔ f.group = "week" := by
      refine ⟨?_, ?_⟩
      · rintro rfl
        exact (by decide +kernel : ∀ p ∈ timeGroupNames, p.2 = TGroup.week → p.1 = "week") _ hm rfl
      · intro h
        exact (by decide +kernel : ∀ p ∈ timeGroupNames, p.1 = "week" → p.2 = TGroup.week) _ hm h
    simp only [hin, true_and]
    by_cases hg : g = .week
    · subst hg
      simp only [hgw.1 rfl, true_implies]
      rw [← hiff w]
      rcases hweek w with ⟨e, he⟩ | he
      · cases w <;> simp_all [sqlServerSql, bigQuerySql, otherSql]
      · cases w <;> simp_all [sqlServerSql, bigQuerySql, otherSql]
    · have hg' : ¬ f.group = "week" := fun h => hg (hgw.2 h)
      simp only [hg', false_implies, iff_true]
      clear hweek hiff hnone hmem hl hm hin hgw hg'
      cases w <;> cases g <;> first
        | exact absurd rfl hg
        | exact ⟨⟨_, rfl⟩, fun e h => by cases h⟩

/-- `fiscal_week` is no timeframe. -/
example : timeSql .snowflake (timeField "fiscal_week") = .error .keyError := by decide +kernel

theorem cut_value (w : Warehouse) (zone : DateTime → DateTime) (f : TimeField) (p : String × DiffUnit) (hp : p ∈ cuttingTimeframes)
    (hg : f.group = p.1) (t : DateTime) (ht : ColumnValue zone f t)
    (hfit : w ∈ serverWarehouses → NearServerZero p.2 (shownMoment w zone f t)) :
    Gives w zone f t (.moment (truncTo p.2 (shownMoment w zone f t))) := by
  have hl := cut_lookup p hp
  have hc := lookup_cut hp
  have hb := base_eval w zone f t
  have hv := shown_valid (w := w) ht
  have hty : f.datatype = .date → (shownMoment w zone f t).sec = 0 := shown_typed ht
  unfold Gives
  simp only [timeSql, hg, hl]
  generalize (if (f.timezone && f.convert) = true then applyTimezone w f.datatype TExpr.col else TExpr.col) = s at hb ⊢
  generalize shownMoment w zone f t = x at hb hv hty hfit ⊢
  have other : ∀ w', ∃ sql, otherSql w' f.fiscal f.weekStart s (cutGroup p.2) = .ok sql ∧ sql.eval w zone t = some (.moment (truncTo p.2 x)) := by
    intro w'
    rcases hc with h | h | h | h | h | h | h <;> rw [h] <;> exact ⟨_, rfl, by simp [TSql.eval, TExpr.eval, hb]⟩
  have server : w ∈ serverWarehouses → ∃ sql, sqlServerSql w f.fiscal f.weekStart s (cutGroup p.2) = .ok sql ∧
      sql.eval w zone t = some (.moment (truncTo p.2 x)) := by
    intro hw
    have hfit := hfit hw
    have hb2 : (TExpr.castDate s).eval w zone t = some x.midnight := by simp [TExpr.eval, hb]
    have hv2 := midnight_valid hv
    have direct : p.2 ≠ .day → (TExpr.sinceZero p.2 s).eval w zone t = some (truncTo p.2 x) :=
      fun hd => (sinceZero_eval hc hd hb hv).1 hfit
    have cast : p.2 = .month ∨ p.2 = .quarter ∨ p.2 = .year →
        (TExpr.sinceZero p.2 (.castDate s)).eval w zone t = some (truncTo p.2 x) := by
      intro hu
      rw [(sinceZero_eval hc (by rcases hu with h | h | h <;> simp [h]) hb2 hv2).1 ((near_midnight hu x).2 hfit),
        trunc_midnight (.inr hu)]
    rcases hc with h | h | h | h | h | h | h <;> rw [h] at direct cast ⊢
    · exact ⟨_, rfl, by simp only [TSql.eval, direct (by simp), Option.map_some]⟩
    · exact ⟨_, rfl, by simp only [TSql.eval, direct (by simp), Option.map_some]⟩
    · exact ⟨_, rfl, by simp only [TSql.eval, direct (by simp), Option.map_some]⟩
    · exact ⟨_, rfl, by simp [TSql.eval, hb2, truncTo, DateTime.midnight]⟩
    · exact ⟨_, rfl, by simp only [TSql.eval, cast (by simp), Option.map_some]⟩
    · exact ⟨_, rfl, by simp only [TSql.eval, cast (by simp), Option.map_some]⟩
    · exact ⟨_, rfl, by simp only [TSql.eval, cast (by simp), Option.map_some]⟩
  have big : ∃ sql, bigQuerySql f.datatype f.fiscal f.weekStart s (cutGroup p.2) = .ok sql ∧
      sql.eval w zone t = some (.moment (truncTo p.2 x)) := by
    have hk := cast_trunc hc f.datatype hty
    rcases hc with h | h | h | h | h | h | h <;> rw [h] at hk ⊢
    · exact ⟨_, rfl, by simp [TSql.eval, TExpr.eval, hb, hk]⟩
    · exact ⟨_, rfl, by simp [TSql.eval, TExpr.eval, hb, hk]⟩
    · exact ⟨_, rfl, by simp [TSql.eval, TExpr.eval, hb, hk]⟩
    · exact ⟨_, rfl, by simp [TSql.eval, TExpr.eval, hb, trunc_midnight, hk]⟩
    · exact ⟨_, rfl, by simp [TSql.eval, TExpr.eval, hb, trunc_midnight, hk]⟩
    · exact ⟨_, rfl, by simp [TSql.eval, TExpr.eval, hb, trunc_midnight, hk]⟩
    · exact ⟨_, rfl, by simp [TSql.eval, TExpr.eval, hb, trunc_midnight, hk]⟩
  cases w
  case bigquery => exact big
  case sqlServer => exact server (by simp [serverWarehouses])
  case azureSynapse => exact server (by simp [serverWarehouses])
  all_goals exact other _

/-- C53 (b): on every warehouse, `second`, `minute`, `hour`, `date`, `month`, `quarter` and `year` give the first moment of the unit the moment is
in. Partial: on SQL Server the number of units since 1900 must have 32 bits, which excludes seconds after January 1968 (see below). -/
theorem C53_cuts_partial (w : Warehouse) (zone : DateTime → DateTime) (f : TimeField) (p : String × DiffUnit) (hp : p ∈ cuttingTimeframes)
    (hg : f.group = p.1) (t : DateTime) (ht : ColumnValue zone f t)
    (hfit : w ∈ serverWarehouses → NearServerZero p.2 (shownMoment w zone f t)) :
    ∃ r, Gives w zone f t (.moment r) ∧ FirstMoment p.2 (shownMoment w zone f t) r :=
  ⟨_, cut_value w zone f p hp hg t ht hfit, truncTo_first (lookup_cut hp) (shown_valid ht)⟩

/-- 2024-02-29 23:59:59 cut to the quarter on Postgres. -/
example : ColumnValue noZone (timeField "quarter") ⟨⟨2024, 2, 29⟩, 86399⟩ ∧ ("quarter", DiffUnit.quarter) ∈ cuttingTimeframes ∧
    Gives .postgres noZone (timeField "quarter") ⟨⟨2024, 2, 29⟩, 86399⟩ (.moment ⟨⟨2024, 1, 1⟩, 0⟩) :=
  ⟨⟨⟨⟨by decide, by decide, by decide, by decide⟩, by decide, by decide⟩, by decide,
    ⟨⟨by decide, by decide, by decide, by decide⟩, by decide, by decide⟩⟩, by decide, _, rfl, by decide +kernel⟩

/-- The first moment of a unit is unique. -/
theorem first_unique {u : DiffUnit} {t r r' : DateTime} (h : FirstMoment u t r) (h' : FirstMoment u t r') : r = r' := by
  have h1 := h.first r' h'.valid h'.same
  have h2 := h'.first r h.valid h.same
  have hr := h.valid; have hr' := h'.valid
  have a1 := hr.s0; have a2 := hr.s1; have a3 := hr'.s0; have a4 := hr'.s1
  simp only [secondsOf] at h1 h2
  have hd : r.date = r'.date := ordinal_inj hr.date hr'.date (by omega)
  have hs : r.sec = r'.sec := by rw [hd] at h1 h2; omega
  cases r; cases r'; simp_all

/-- C53 (c): two rows get the same value of a timeframe exactly when their moments are in the same unit, so a query grouped by the timeframe has one
row per unit. -/
theorem C53_groups_partial (w : Warehouse) (zone : DateTime → DateTime) (f : TimeField) (p : String × DiffUnit) (hp : p ∈ cuttingTimeframes)
    (hg : f.group = p.1) (t t' : DateTime) (ht : ColumnValue zone f t) (ht' : ColumnValue zone f t')
    (hfit : w ∈ serverWarehouses → NearServerZero p.2 (shownMoment w zone f t) ∧ NearServerZero p.2 (shownMoment w zone f t'))
    (v v' : TVal) (hv : Gives w zone f t v) (hv' : Gives w zone f t' v') :
    v = v' ↔ unitNumber 1 p.2 (shownMoment w zone f t) = unitNumber 1 p.2 (shownMoment w zone f t') := by
  have key : ∀ t v, ColumnValue zone f t → (w ∈ serverWarehouses → NearServerZero p.2 (shownMoment w zone f t)) → Gives w zone f t v →
      ∃ r, v = .moment r ∧ FirstMoment p.2 (shownMoment w zone f t) r := by
    intro t v ht hfit ⟨sql, h1, h2⟩
    obtain ⟨r, ⟨sql', h3, h4⟩, h5⟩ := C53_cuts_partial w zone f p hp hg t ht hfit
    rw [h1] at h3; cases h3
    rw [h2] at h4; cases h4
    exact ⟨r, rfl, h5⟩
  obtain ⟨r, rfl, hr⟩ := key t v ht (fun h => (hfit h).1) hv
  obtain ⟨r', rfl, hr'⟩ := key t' v' ht' (fun h => (hfit h).2) hv'
  constructor
  · intro h
    cases h
    rw [← hr.same, ← hr'.same]
  · intro h
    rw [first_unique hr ⟨hr'.valid, hr'.same.trans h.symm, fun m hm hm' => hr'.first m hm (hm'.trans h)⟩]

/-- Against the full statement: on SQL Server the `second` of any moment after 1968-01-20 03:14:07 is an error of the warehouse. -/
theorem C53_sql_server_seconds (w : Warehouse) (hw : w ∈ serverWarehouses) (zone : DateTime → DateTime) (f : TimeField) (hg : f.group = "second")
    (t : DateTime) (ht : t.Valid) :
    (secondsOf t ≤ secondsOf ⟨⟨1968, 1, 20⟩, 11647⟩ → -2147483648 ≤ secondsOf t - secondsOf ⟨⟨1900, 1, 1⟩, 0⟩ → Gives w zone f t (.moment t)) ∧
    (secondsOf ⟨⟨1968, 1, 20⟩, 11647⟩ < secondsOf t → FailsOn w zone f t) := by
  have hb := base_eval w zone f t
  have hsh : shownMoment w zone f t = t := by
    unfold shownMoment
    rw [if_neg]
    rintro ⟨-, -, h⟩
    simp only [serverWarehouses, List.mem_cons, List.not_mem_nil, or_false] at hw
    rcases hw with rfl | rfl <;> simp [zonelessWarehouses] at h
  rw [hsh] at hb
  have hl : timeGroupNames.lookup "second" = some .second := by decide +kernel
  have hsql : timeSql w f = .ok (.moment (.sinceZero .second
      (if (f.timezone && f.convert) = true then applyTimezone w f.datatype TExpr.col else TExpr.col))) := by
    simp only [serverWarehouses, List.mem_cons, List.not_mem_nil, or_false] at hw
    rcases hw with rfl | rfl <;> simp only [timeSql, hg, hl, sqlServerSql]
  have hz := sinceZero_eval (u := .second) (.inl rfl) (by simp) hb ht
  have e1 : secondsOf ⟨⟨1968, 1, 20⟩, 11647⟩ = secondsOf ⟨⟨1900, 1, 1⟩, 0⟩ + 2147483647 := by decide +kernel
  refine ⟨fun h1 h2 => ⟨_, hsql, ?_⟩, fun h => ⟨_, hsql, ?_⟩⟩
  · have := hz.1 (by simp only [NearServerZero, unitNumber]; omega)
    simp only [TSql.eval, this, Option.map_some, truncTo]
  · have := hz.2 (by simp only [NearServerZero, unitNumber]; omega)
    simp only [TSql.eval, this, Option.map_none]

/-- Any moment of today is one. -/
example : secondsOf ⟨⟨1968, 1, 20⟩, 11647⟩ < secondsOf ⟨⟨2024, 5, 1⟩, 36000⟩ := by decide +kernel

/-- C53 (d): `fiscal_month`, `fiscal_quarter` and `fiscal_year` give the first moment of the unit of the month that lies the configured number of months
after the month of the moment; a zero offset is the calendar. -/
theorem C53_fiscal_partial (w : Warehouse) (zone : DateTime → DateTime) (f : TimeField) (p : String × DiffUnit) (hp : p ∈ fiscalTimeframes)
    (hg : f.group = p.1) (t : DateTime) (ht : ColumnValue zone f t)
    (hfit : w ∈ serverWarehouses → ∀ s : DateTime, monthNumber s = monthNumber (shownMoment w zone f t) + f.fiscal → NearServerZero p.2 s) :
    ∃ s r, Gives w zone f t (.moment r) ∧ s.Valid ∧ monthNumber s = monthNumber (shownMoment w zone f t) + f.fiscal ∧ FirstMoment p.2 s r := by
  have hl := fiscal_lookup p hp
  have hc := lookup_fiscal hp
  have hb := base_eval w zone f t
  have hv := shown_valid (w := w) ht
  unfold Gives
  simp only [timeSql, hg, hl]
  generalize (if (f.timezone && f.convert) = true then applyTimezone w f.datatype TExpr.col else TExpr.col) = e at hb ⊢
  generalize shownMoment w zone f t = x at hb hv hfit ⊢
  obtain ⟨y, hy, hyv, hym, hys⟩ := fiscal_eval hb hv f.fiscal
  have hcut : cutUnit p.2 := by unfold cutUnit; rcases hc with h | h | h <;> simp [h]
  refine ⟨y, truncTo p.2 y, ?_, hyv, hym, truncTo_first hcut hyv⟩
  have hmid : ∀ u : DiffUnit, u = .month ∨ u = .quarter ∨ u = .year → truncTo u y.midnight = truncTo u y := fun u hu => trunc_midnight (.inr hu) y
  have hcast : ∀ u : DiffUnit, u = .month ∨ u = .quarter ∨ u = .year → castType f.datatype (truncTo u y) = truncTo u y := by
    intro u hu
    rcases hu with rfl | rfl | rfl <;> cases f.datatype <;> rfl
  have other : ∀ w', ∃ sql, otherSql w' f.fiscal f.weekStart e (fiscalGroup p.2) = .ok sql ∧ sql.eval w zone t = some (.moment (truncTo p.2 y)) := by
    intro w'
    rcases hc with h | h | h <;> rw [h] <;> exact ⟨_, rfl, by simp [TSql.eval, TExpr.eval, hy]⟩
  have big : ∃ sql, bigQuerySql f.datatype f.fiscal f.weekStart e (fiscalGroup p.2) = .ok sql ∧ sql.eval w zone t = some (.moment (truncTo p.2 y)) := by
    rcases hc with h | h | h <;> rw [h] <;> exact ⟨_, rfl, by simp [TSql.eval, TExpr.eval, hy, hmid, hcast]⟩
  have server : w ∈ serverWarehouses → ∃ sql, sqlServerSql w f.fiscal f.weekStart e (fiscalGroup p.2) = .ok sql ∧
      sql.eval w zone t = some (.moment (truncTo p.2 y)) := by
    intro hw
    have hb2 : (TExpr.castDate (fiscalOffset f.fiscal e)).eval w zone t = some y.midnight := by simp [TExpr.eval, hy]
    have hz := (sinceZero_eval hcut (by rcases hc with h | h | h <;> simp [h]) hb2 (midnight_valid hyv)).1 ((near_midnight hc y).2 (hfit hw y hym))
    rw [hmid _ hc] at hz
    rcases hc with h | h | h <;> rw [h] at hz ⊢ <;> exact ⟨_, rfl, by simp only [TSql.eval, hz, Option.map_some]⟩
  cases w
  case bigquery => exact big
  case sqlServer => exact server (by simp [serverWarehouses])
  case azureSynapse => exact server (by simp [serverWarehouses])
  all_goals exact other _

/-- With an offset of eleven months (the fiscal year ends in January), 31 January 2024 is in the fiscal year that the code labels 2024 and
1 February 2024 in the one labelled 2025. -/
example : Gives .snowflake noZone { timeField "fiscal_year" with fiscal := 11 } ⟨⟨2024, 1, 31⟩, 3600⟩ (.moment ⟨⟨2024, 1, 1⟩, 0⟩) ∧
    Gives .snowflake noZone { timeField "fiscal_year" with fiscal := 11 } ⟨⟨2024, 2, 1⟩, 0⟩ (.moment ⟨⟨2025, 1, 1⟩, 0⟩) :=
  ⟨⟨_, rfl, by decide +kernel⟩, _, rfl, by decide +kernel⟩

/-- C53 (e): the number timeframes (on warehouses with EXTRACT): month, quarter, hour, day of the month and of the year, and those of the month the fiscal
offset leads to. -/
theorem C53_numbers_partial (w : Warehouse) (hw : w ∉ serverWarehouses) (zone : DateTime → DateTime) (f : TimeField) (t : DateTime)
    (ht : ColumnValue zone f t) :
    let x := shownMoment w zone f t
    let fm := monthNumber x + f.fiscal
    (f.group ∈ ["month_of_year_index", "month_index"] → Gives w zone f t (.number x.date.month)) ∧
    (f.group = "quarter_of_year" → Gives w zone f t (.number ((x.date.month + 2) / 3))) ∧
    (f.group = "hour_of_day" → Gives w zone f t (.number (x.sec / 3600))) ∧
    (f.group = "day_of_month" → Gives w zone f t (.number x.date.day)) ∧
    (f.group = "day_of_year" → Gives w zone f t (.number (x.date.ordinal - (⟨x.date.year, 1, 1⟩ : Date).ordinal + 1))) ∧
    (f.group ∈ ["fiscal_month_of_year_index", "fiscal_month_index"] → Gives w zone f t (.number ((fm - 1) % 12 + 1))) ∧
    (f.group = "fiscal_quarter_of_year" → Gives w zone f t (.number ((fm - 1) % 12 / 3 + 1))) := by
  have hb := base_eval w zone f t
  have hv := shown_valid (w := w) ht
  have l1 : timeGroupNames.lookup "month_of_year_index" = some .monthIndex := by decide +kernel
  have l2 : timeGroupNames.lookup "month_index" = some .monthIndex := by decide +kernel
  have l3 : timeGroupNames.lookup "quarter_of_year" = some .quarterOfYear := by decide +kernel
  have l4 : timeGroupNames.lookup "hour_of_day" = some .hourOfDay := by decide +kernel
  have l5 : timeGroupNames.lookup "day_of_month" = some .dayOfMonth := by decide +kernel
  have l6 : timeGroupNames.lookup "day_of_year" = some .dayOfYear := by decide +kernel
  have l7 : timeGroupNames.lookup "fiscal_month_of_year_index" = some .fiscalMonthIndex := by decide +kernel
  have l8 : timeGroupNames.lookup "fiscal_month_index" = some .fiscalMonthIndex := by decide +kernel
  have l9 : timeGroupNames.lookup "fiscal_quarter_of_year" = some .fiscalQuarterOfYear := by decide +kernel
  intro x fm
  simp only [Gives, timeSql]
  generalize (if (f.timezone && f.convert) = true then applyTimezone w f.datatype TExpr.col else TExpr.col) = e at hb ⊢
  replace hb : e.eval w zone t = some x := hb
  replace hv : x.Valid := hv
  obtain ⟨y, hy, hyv, hym, -⟩ := fiscal_eval hb hv f.fiscal
  have hym : monthNumber y = fm := hym
  have hm : y.date.month = (fm - 1) % 12 + 1 := by
    have := hyv.date.m1; have := hyv.date.m12
    simp only [monthNumber] at hym; omega
  have hq : (y.date.month - 1) / 3 + 1 = (fm - 1) % 12 / 3 + 1 := by omega
  have hq2 : (x.date.month - 1) / 3 + 1 = (x.date.month + 2) / 3 := by omega
  have hdoy : x.date.ordinal - daysBeforeYear x.date.year = x.date.ordinal - (⟨x.date.year, 1, 1⟩ : Date).ordinal + 1 := by
    have : (⟨x.date.year, 1, 1⟩ : Date).ordinal = daysBeforeYear x.date.year + 1 := by simp only [Date.ordinal, dbm_one]; omega
    omega
  rw [← hm, ← hq, ← hq2, ← hdoy]
  simp only [List.mem_cons, List.not_mem_nil, or_false]
  refine ⟨?_, ?_, ?_, ?_, ?_, ?_, ?_⟩
  · rintro (h | h) <;> rw [h] <;> simp only [l1, l2] <;>
      (cases w <;> first
        | (exfalso; simp [serverWarehouses] at hw; done)
        | exact ⟨_, rfl, by simp [TSql.eval, NExpr.eval, hb, partOf]⟩)
  all_goals first
    | (intro h; rw [h])
    | (rintro (h | h) <;> rw [h])
  all_goals simp only [l3, l4, l5, l6, l7, l8, l9]
  all_goals
    (cases w <;> first
      | (exfalso; simp [serverWarehouses] at hw; done)
      | exact ⟨_, rfl, by simp [TSql.eval, NExpr.eval, hb, hy, partOf]⟩)

/-- 29 February 2024 is day 60; with an offset of one month it is in fiscal month 3. -/
example : Gives .bigquery noZone (timeField "day_of_year") ⟨⟨2024, 2, 29⟩, 0⟩ (.number 60) ∧
    Gives .trino noZone { timeField "fiscal_month_index" with fiscal := 1 } ⟨⟨2024, 2, 29⟩, 0⟩ (.number 3) :=
  ⟨⟨_, rfl, by decide +kernel⟩, _, rfl, by decide +kernel⟩

/-- C53 (f): on SQL Server and Azure Synapse the same holds of the timeframes written with DATEPART. -/
theorem C53_server_numbers (w : Warehouse) (hw : w ∈ serverWarehouses) (zone : DateTime → DateTime) (f : TimeField) (t : DateTime) (ht : t.Valid) :
    let fm := monthNumber t + f.fiscal
    (f.group = "quarter_of_year" → Gives w zone f t (.number ((t.date.month + 2) / 3))) ∧
    (f.group = "hour_of_day" → Gives w zone f t (.number (t.sec / 3600))) ∧
    (f.group = "day_of_month" → Gives w zone f t (.number t.date.day)) ∧
    (f.group = "day_of_year" → Gives w zone f t (.number (t.date.ordinal - (⟨t.date.year, 1, 1⟩ : Date).ordinal + 1))) ∧
    (f.group = "fiscal_quarter_of_year" → Gives w zone f t (.number ((fm - 1) % 12 / 3 + 1))) := by
  have hb := base_eval w zone f t
  have hsh : shownMoment w zone f t = t := by
    unfold shownMoment
    rw [if_neg]
    rintro ⟨-, -, h⟩
    simp only [serverWarehouses, List.mem_cons, List.not_mem_nil, or_false] at hw
    rcases hw with rfl | rfl <;> simp [zonelessWarehouses] at h
  rw [hsh] at hb
  have l3 : timeGroupNames.lookup "quarter_of_year" = some .quarterOfYear := by decide +kernel
  have l4 : timeGroupNames.lookup "hour_of_day" = some .hourOfDay := by decide +kernel
  have l5 : timeGroupNames.lookup "day_of_month" = some .dayOfMonth := by decide +kernel
  have l6 : timeGroupNames.lookup "day_of_year" = some .dayOfYear := by decide +kernel
  have l9 : timeGroupNames.lookup "fiscal_quarter_of_year" = some .fiscalQuarterOfYear := by decide +kernel
  intro fm
  simp only [Gives, timeSql]
  generalize (if (f.timezone && f.convert) = true then applyTimezone w f.datatype TExpr.col else TExpr.col) = e at hb ⊢
  obtain ⟨y, hy, hyv, hym, -⟩ := fiscal_eval hb ht f.fiscal
  have hym : monthNumber y = fm := hym
  have hq : (y.date.month - 1) / 3 + 1 = (fm - 1) % 12 / 3 + 1 := by
    have := hyv.date.m1; have := hyv.date.m12
    simp only [monthNumber] at hym; omega
  have hq2 : (t.date.month - 1) / 3 + 1 = (t.date.month + 2) / 3 := by omega
  have hdoy : t.date.ordinal - daysBeforeYear t.date.year = t.date.ordinal - (⟨t.date.year, 1, 1⟩ : Date).ordinal + 1 := by
    have : (⟨t.date.year, 1, 1⟩ : Date).ordinal = daysBeforeYear t.date.year + 1 := by simp only [Date.ordinal, dbm_one]; omega
    omega
  rw [← hq, ← hq2, ← hdoy]
  simp only [serverWarehouses, List.mem_cons, List.not_mem_nil, or_false] at hw
  refine ⟨?_, ?_, ?_, ?_, ?_⟩ <;>
    (intro h; rw [h]; simp only [l3, l4, l5, l6, l9]
     rcases hw with rfl | rfl <;> exact ⟨_, rfl, by simp [TSql.eval, NExpr.eval, TExpr.eval, hb, hy, partOf, DateTime.midnight]⟩)

/-- The quarter of 31 March 2024 is 1, of 1 April 2. -/
example : Gives .sqlServer noZone (timeField "quarter_of_year") ⟨⟨2024, 3, 31⟩, 0⟩ (.number 1) ∧
    Gives .sqlServer noZone (timeField "quarter_of_year") ⟨⟨2024, 4, 1⟩, 0⟩ (.number 2) :=
  ⟨⟨_, rfl, by decide +kernel⟩, _, rfl, by decide +kernel⟩

/-- Against the full statement: on SQL Server and Azure Synapse, which have no EXTRACT, the week and month numbers are errors of the warehouse on every
row. -/
theorem C53_server_no_extract (w : Warehouse) (hw : w ∈ serverWarehouses) (zone : DateTime → DateTime) (f : TimeField) (t : DateTime)
    (hg : f.group ∈ ["week_index", "week_of_year", "week_of_month", "month_of_year_index", "month_index", "fiscal_month_of_year_index",
      "fiscal_month_index"]) : FailsOn w zone f t := by
  have l : ∀ g ∈ ["week_index", "week_of_year", "week_of_month", "month_of_year_index", "month_index", "fiscal_month_of_year_index",
      "fiscal_month_index"], ∃ k, timeGroupNames.lookup g = some k ∧
      (k = .weekIndex ∨ k = .weekOfMonth ∨ k = .monthIndex ∨ k = .fiscalMonthIndex) := by
    intro g hg
    simp only [List.mem_cons, List.not_mem_nil, or_false] at hg
    rcases hg with rfl | rfl | rfl | rfl | rfl | rfl | rfl
    · exact ⟨.weekIndex, by decide +kernel, by simp⟩
    · exact ⟨.weekIndex, by decide +kernel, by simp⟩
    · exact ⟨.weekOfMonth, by decide +kernel, by simp⟩
    · exact ⟨.monthIndex, by decide +kernel, by simp⟩
    · exact ⟨.monthIndex, by decide +kernel, by simp⟩
    · exact ⟨.fiscalMonthIndex, by decide +kernel, by simp⟩
    · exact ⟨.fiscalMonthIndex, by decide +kernel, by simp⟩
  obtain ⟨k, hk, hk2⟩ := l _ hg
  simp only [FailsOn, timeSql, hk]
  generalize (if (f.timezone && f.convert) = true then applyTimezone w f.datatype TExpr.col else TExpr.col) = e
  simp only [serverWarehouses, List.mem_cons, List.not_mem_nil, or_false] at hw
  rcases hw with rfl | rfl <;> rcases hk2 with rfl | rfl | rfl | rfl <;> exact ⟨_, rfl, by simp [TSql.eval, NExpr.eval]⟩

end ML
