import Verif.TimeGroup.Spec
import Verif.Dates.Lemmas
/-
Helper lemmas for C53: truncation by DATE_TRUNC and by DATEADD/DATEDIFF gives the first moment of the unit; ISO weeks.
-/
set_option autoImplicit false
namespace ML
open Spec

/-- The units a moment can be cut to. -/
def cutUnit (u : DiffUnit) : Prop :=
  u = .second ∨ u = .minute ∨ u = .hour ∨ u = .day ∨ u = .month ∨ u = .quarter ∨ u = .year

theorem first_of_date {r m : DateTime} (hr : r.date.Valid) (hm : m.Valid) (h0 : r.sec = 0) (h : ¬ m.date.lt r.date) :
    secondsOf r ≤ secondsOf m := by
  have := (ordinal_le_iff hr hm.date).2 h
  have := hm.s0
  simp only [secondsOf]; omega

theorem truncTo_first {u : DiffUnit} (hu : cutUnit u) {t : DateTime} (ht : t.Valid) : FirstMoment u t (truncTo u t) := by
  obtain ⟨⟨m1, m12, d1, dn⟩, s0, s1⟩ := ht
  rcases hu with rfl | rfl | rfl | rfl | rfl | rfl | rfl
  · exact ⟨⟨⟨m1, m12, d1, dn⟩, s0, s1⟩, rfl, fun m hm h => by simp only [unitNumber] at h; simp only [truncTo]; omega⟩
  · refine ⟨⟨⟨m1, m12, d1, dn⟩, ?_, ?_⟩, ?_, fun m hm h => ?_⟩
    · simp only [truncTo]; omega
    · simp only [truncTo]; omega
    · simp only [truncTo, unitNumber, secondsOf]; omega
    · simp only [truncTo, unitNumber, secondsOf] at h ⊢; omega
  · refine ⟨⟨⟨m1, m12, d1, dn⟩, ?_, ?_⟩, ?_, fun m hm h => ?_⟩
    · simp only [truncTo]; omega
    · simp only [truncTo]; omega
    · simp only [truncTo, unitNumber, secondsOf]; omega
    · simp only [truncTo, unitNumber, secondsOf] at h ⊢; omega
  · refine ⟨⟨⟨m1, m12, d1, dn⟩, by simp [truncTo], by simp [truncTo]⟩, rfl, fun m hm h => ?_⟩
    have := hm.s0
    simp only [truncTo, unitNumber, secondsOf] at h ⊢; omega
  · have hv : (truncTo .month t).date.Valid :=
      ⟨m1, m12, by simp [truncTo], by have := dim_bounds t.date.year t.date.month; simp only [truncTo]; omega⟩
    refine ⟨⟨hv, by simp [truncTo], by simp [truncTo]⟩, rfl, fun m hm h => first_of_date hv hm rfl ?_⟩
    obtain ⟨⟨a1, a12, b1, bn⟩, c0, c1⟩ := hm
    simp only [truncTo, unitNumber, monthNumber, Date.lt] at h ⊢; omega
  · have hv : (truncTo .quarter t).date.Valid :=
      ⟨by simp only [truncTo]; omega, by simp only [truncTo]; omega, by simp [truncTo],
        by have := dim_bounds t.date.year ((t.date.month - 1) / 3 * 3 + 1); simp only [truncTo]; omega⟩
    refine ⟨⟨hv, by simp [truncTo], by simp [truncTo]⟩, ?_, fun m hm h => first_of_date hv hm rfl ?_⟩
    · simp only [truncTo, unitNumber, monthNumber]; omega
    · obtain ⟨⟨a1, a12, b1, bn⟩, c0, c1⟩ := hm
      simp only [truncTo, unitNumber, monthNumber, Date.lt] at h ⊢; omega
  · have hv : (truncTo .year t).date.Valid :=
      ⟨by simp [truncTo], by simp [truncTo], by simp [truncTo], by have := dim_bounds t.date.year 1; simp only [truncTo]; omega⟩
    refine ⟨⟨hv, by simp [truncTo], by simp [truncTo]⟩, rfl, fun m hm h => first_of_date hv hm rfl ?_⟩
    obtain ⟨⟨a1, a12, b1, bn⟩, c0, c1⟩ := hm
    simp only [truncTo, unitNumber, Date.lt] at h ⊢; omega

theorem zero_valid : serverZero.Valid := by
  refine ⟨⟨by decide, by decide, by decide, by decide⟩, by decide, by decide⟩

theorem zero_ord : serverZero.date.ordinal = 693596 := by decide +kernel

theorem addSeconds_eq {t : DateTime} (ht : t.Valid) (n : ℤ) (r : DateTime) (hr : r.Valid)
    (h : secondsOf r = secondsOf t + n) : t.addSeconds n = r := by
  obtain ⟨hd, s0, s1⟩ := hr
  have h2 := addDays_spec ht.date ((t.sec + n) / 86400)
  simp only [secondsOf] at h
  have hdate : t.date.addDays ((t.sec + n) / 86400) = r.date := ordinal_inj h2.1 hd (by omega)
  cases r with
  | mk d s =>
    simp only [DateTime.addSeconds] at hdate ⊢
    simp only at h hd s0 s1 hdate
    rw [hdate]
    congr 1
    omega

theorem server_eq {u : DiffUnit} (hu : cutUnit u) (hday : u ≠ .day) {t : DateTime} (ht : t.Valid) :
    serverAdd u (serverDiff u serverZero t) serverZero = truncTo u t := by
  have hv := (truncTo_first hu ht).valid
  have hz := zero_ord
  have hs : serverZero.sec = 0 := rfl
  have hy : serverZero.date.year = 1900 := rfl
  have hm : serverZero.date.month = 1 := rfl
  have hdd : serverZero.date.day = 1 := rfl
  obtain ⟨⟨m1, m12, d1, dn⟩, s0, s1⟩ := ht
  rcases hu with rfl | rfl | rfl | rfl | rfl | rfl | rfl
  · refine addSeconds_eq zero_valid _ _ hv ?_
    simp only [serverDiff, absSeconds, secondsOf, truncTo, hz, hs]; omega
  · refine addSeconds_eq zero_valid _ _ hv ?_
    simp only [serverDiff, absSeconds, secondsOf, truncTo, hz, hs]; omega
  · refine addSeconds_eq zero_valid _ _ hv ?_
    simp only [serverDiff, absSeconds, secondsOf, truncTo, hz, hs]; omega
  · exact absurd rfl hday
  · simp only [serverAdd, serverDiff, truncTo, Date.addMonths, hy, hm, hdd, hs]
    have a1 : (12 * 1900 + (1 - 1) + (12 * t.date.year + t.date.month - (12 * 1900 + 1))) / 12 = t.date.year := by omega
    have a2 : (12 * 1900 + (1 - 1) + (12 * t.date.year + t.date.month - (12 * 1900 + 1))) % 12 + 1 = t.date.month := by omega
    rw [a1, a2]
    have := dim_bounds t.date.year t.date.month
    congr 2; omega
  · simp only [serverAdd, serverDiff, truncTo, Date.addMonths, hy, hm, hdd, hs]
    have a1 : (12 * 1900 + (1 - 1) + 3 * ((12 * t.date.year + t.date.month - 1) / 3 - (12 * 1900 + 1 - 1) / 3)) / 12 = t.date.year := by omega
    have a2 : (12 * 1900 + (1 - 1) + 3 * ((12 * t.date.year + t.date.month - 1) / 3 - (12 * 1900 + 1 - 1) / 3)) % 12 + 1
        = (t.date.month - 1) / 3 * 3 + 1 := by omega
    rw [a1, a2]
    have := dim_bounds t.date.year ((t.date.month - 1) / 3 * 3 + 1)
    congr 2; omega
  · simp only [serverAdd, serverDiff, truncTo, Date.addMonths, hy, hm, hdd, hs]
    have a1 : (12 * 1900 + (1 - 1) + 12 * (t.date.year - 1900)) / 12 = t.date.year := by omega
    have a2 : (12 * 1900 + (1 - 1) + 12 * (t.date.year - 1900)) % 12 + 1 = 1 := by omega
    rw [a1, a2]
    have := dim_bounds t.date.year 1
    congr 2

theorem serverDiff_number {u : DiffUnit} (hu : cutUnit u) (t : DateTime) :
    serverDiff u serverZero t = unitNumber 1 u t - unitNumber 1 u ⟨⟨1900, 1, 1⟩, 0⟩ := by
  rcases hu with rfl | rfl | rfl | rfl | rfl | rfl | rfl <;>
    simp only [serverDiff, unitNumber, secondsOf, absSeconds, monthNumber, serverZero, Int.mul_comm]

theorem sinceZero_eval {u : DiffUnit} (hu : cutUnit u) (hday : u ≠ .day) {w : Warehouse} {zone : DateTime → DateTime} {t x : DateTime}
    {e : TExpr} (he : e.eval w zone t = some x) (hx : x.Valid) :
    (NearServerZero u x → (TExpr.sinceZero u e).eval w zone t = some (truncTo u x)) ∧
    (¬ NearServerZero u x → (TExpr.sinceZero u e).eval w zone t = none) := by
  simp only [TExpr.eval, he, server_eq hu hday hx]
  simp only [fitsInt, NearServerZero, serverDiff_number hu, Bool.and_eq_true, decide_eq_true_eq]
  exact ⟨fun h => by rw [if_pos h], fun h => by rw [if_neg h]⟩

theorem midnight_valid {t : DateTime} (h : t.Valid) : t.midnight.Valid :=
  ⟨h.date, by simp [DateTime.midnight], by simp [DateTime.midnight]⟩

theorem near_midnight {u : DiffUnit} (hu : u = .month ∨ u = .quarter ∨ u = .year) (t : DateTime) :
    NearServerZero u t.midnight ↔ NearServerZero u t := by
  rcases hu with rfl | rfl | rfl <;> rfl

theorem trunc_midnight {u : DiffUnit} (hu : u = .day ∨ u = .month ∨ u = .quarter ∨ u = .year) (t : DateTime) :
    truncTo u t.midnight = truncTo u t := by
  rcases hu with rfl | rfl | rfl | rfl <;> rfl

theorem cast_trunc {u : DiffUnit} (hu : cutUnit u) (d : Datatype) {t : DateTime} (h : d = .date → t.sec = 0) :
    castType d (truncTo u t) = truncTo u t := by
  cases d with
  | datetime => rfl
  | timestamp => rfl
  | date =>
    have h := h rfl
    rcases hu with rfl | rfl | rfl | rfl | rfl | rfl | rfl <;> simp [castType, DateTime.midnight, truncTo, h]
    cases t; simp_all

theorem shown_valid {w : Warehouse} {zone : DateTime → DateTime} {f : TimeField} {t : DateTime} (h : ColumnValue zone f t) :
    (shownMoment w zone f t).Valid := by
  unfold shownMoment
  split
  · split
    · exact midnight_valid h.zone
    · exact h.zone
  · exact h.valid

theorem shown_typed {w : Warehouse} {zone : DateTime → DateTime} {f : TimeField} {t : DateTime} (h : ColumnValue zone f t)
    (hd : f.datatype = .date) : (shownMoment w zone f t).sec = 0 := by
  unfold shownMoment
  rw [if_pos hd]
  split
  · rfl
  · exact h.typed hd

/-- The expression the timeframes are applied to has the value `shownMoment`. -/
theorem base_eval (w : Warehouse) (zone : DateTime → DateTime) (f : TimeField) (t : DateTime) :
    (if f.timezone && f.convert then applyTimezone w f.datatype .col else TExpr.col).eval w zone t =
      some (shownMoment w zone f t) := by
  unfold shownMoment
  by_cases h1 : f.timezone = true
  · by_cases h2 : f.convert = true
    · rw [if_pos (by rw [h1, h2]; rfl)]
      cases w <;> simp [applyTimezone, TExpr.eval, zonelessWarehouses, h1, h2] <;>
        (cases f.datatype <;> simp [castType, DateTime.midnight])
    · rw [if_neg (by simp [h2]), if_neg (by simp [h2])]; rfl
  · rw [if_neg (by simp [h1]), if_neg (by simp [h1])]; rfl

theorem fiscal_eval {w : Warehouse} {zone : DateTime → DateTime} {t x : DateTime} {e : TExpr} (he : e.eval w zone t = some x)
    (hx : x.Valid) (k : ℤ) : ∃ y, (fiscalOffset k e).eval w zone t = some y ∧ y.Valid ∧ monthNumber y = monthNumber x + k ∧
      y.sec = x.sec := by
  unfold fiscalOffset
  split
  · next h => exact ⟨x, he, hx, by omega, rfl⟩
  · have := addMonths_spec hx.date k
    refine ⟨⟨x.date.addMonths k, x.sec⟩, by simp [TExpr.eval, he], ⟨this.1, hx.s0, hx.s1⟩, ?_, rfl⟩
    simp only [monthNumber]; omega

theorem lookup_cut {p : String × DiffUnit} (h : p ∈ cuttingTimeframes) : cutUnit p.2 := by
  simp only [cuttingTimeframes, List.mem_cons, List.not_mem_nil, or_false] at h
  unfold cutUnit
  rcases h with rfl | rfl | rfl | rfl | rfl | rfl | rfl <;> simp

/-- The key of a cutting timeframe. -/
def cutGroup : DiffUnit → TGroup
  | .second => .second | .minute => .minute | .hour => .hour | .day => .date | .month => .month | .quarter => .quarter | _ => .year

theorem cut_lookup : ∀ p ∈ cuttingTimeframes, timeGroupNames.lookup p.1 = some (cutGroup p.2) := by decide +kernel

/-- The key of a fiscal timeframe. -/
def fiscalGroup : DiffUnit → TGroup
  | .month => .fiscalMonth | .quarter => .fiscalQuarter | _ => .fiscalYear

theorem fiscal_lookup : ∀ p ∈ fiscalTimeframes, timeGroupNames.lookup p.1 = some (fiscalGroup p.2) := by decide +kernel

theorem lookup_fiscal {p : String × DiffUnit} (h : p ∈ fiscalTimeframes) : p.2 = .month ∨ p.2 = .quarter ∨ p.2 = .year := by
  simp only [fiscalTimeframes, List.mem_cons, List.not_mem_nil, or_false] at h
  rcases h with rfl | rfl | rfl <;> simp

theorem year_bounds {d : Date} (h : d.Valid) : daysBeforeYear d.year < d.ordinal ∧ d.ordinal ≤ daysBeforeYear (d.year + 1) := by
  constructor
  · have := dbm_nonneg d.year d.month h.m1 h.m12
    have := h.d1
    simp only [Date.ordinal]; omega
  · have e : (⟨d.year + 1, 1, 1⟩ : Date).Valid := by
      refine ⟨by simp, by simp, by simp, ?_⟩
      have := dim_bounds (d.year + 1) 1
      simp only; omega
    have : d.ordinal < (⟨d.year + 1, 1, 1⟩ : Date).ordinal := ordinal_lt h e (by simp only [Date.lt]; omega)
    simp only [Date.ordinal, dbm_one] at this ⊢
    omega

/-- A date is in the year its day number lies in. -/
theorem year_of_ordinal {d : Date} (h : d.Valid) (y : ℤ) (h1 : daysBeforeYear y < d.ordinal) (h2 : d.ordinal ≤ daysBeforeYear (y + 1)) :
    d.year = y := by
  obtain ⟨lo, hi⟩ := year_bounds h
  rcases lt_trichotomy d.year y with h3 | h3 | h3
  · have := dby_mono h3; omega
  · exact h3
  · have := dby_mono h3; omega

theorem isoWeek_spec {d : Date} (h : d.Valid) : IsoWeek d (isoWeekNumber d) := by
  have ht := addDays_spec h (3 - d.weekday)
  have hb := year_bounds ht.1
  refine ⟨(d.addDays (3 - d.weekday)).year, ?_, ?_, ?_⟩
  · have e : (⟨(d.addDays (3 - d.weekday)).year, 1, 4⟩ : Date).ordinal = daysBeforeYear (d.addDays (3 - d.weekday)).year + 4 := by
      simp only [Date.ordinal, dbm_one]; omega
    simp only [isoWeekNumber]
    rw [ht.2] at hb ⊢
    simp only [mondayOf, e]
    simp only [Date.weekday] at hb ⊢
    generalize daysBeforeYear (d.addDays (3 - (d.ordinal + 6) % 7)).year = b at hb ⊢
    omega
  · simp only [mondayOf]
    rw [ht.2] at hb
    simp only [Date.weekday] at hb ⊢
    omega
  · simp only [mondayOf]
    rw [ht.2] at hb
    simp only [Date.weekday] at hb ⊢
    omega

theorem isoWeek_same {a b : Date} (ha : a.Valid) (hb : b.Valid) (h : a.ordinal - a.weekday = b.ordinal - b.weekday) :
    isoWeekNumber a = isoWeekNumber b := by
  have h1 := addDays_spec ha (3 - a.weekday)
  have h2 := addDays_spec hb (3 - b.weekday)
  have : a.addDays (3 - a.weekday) = b.addDays (3 - b.weekday) := ordinal_inj h1.1 h2.1 (by omega)
  simp only [isoWeekNumber, this]

theorem firstOfMonth_valid {d : Date} (h : d.Valid) : (firstOfMonth d).Valid := by
  refine ⟨h.m1, h.m12, by simp [firstOfMonth], ?_⟩
  have := dim_bounds d.year d.month
  simp only [firstOfMonth]; omega

/-- The difference of the ISO weeks of two days counts the weeks begun, when their Thursdays are in one year. -/
theorem isoWeek_diff {a b : Date} (ha : a.Valid) (hb : b.Valid)
    (h : (a.addDays (3 - a.weekday)).year = (b.addDays (3 - b.weekday)).year) :
    isoWeekNumber b - isoWeekNumber a = weeksBegun 1 a b := by
  have h1 := addDays_spec ha (3 - a.weekday)
  have h2 := addDays_spec hb (3 - b.weekday)
  simp only [isoWeekNumber, weeksBegun]
  rw [h, h1.2, h2.2]
  generalize daysBeforeYear _ = c
  simp only [Date.weekday]
  omega

theorem isoWeek_diff_less {a b : Date} (ha : a.Valid) (hb : b.Valid)
    (h : (a.addDays (3 - a.weekday)).year < (b.addDays (3 - b.weekday)).year) :
    isoWeekNumber b - isoWeekNumber a < weeksBegun 1 a b := by
  have h1 := addDays_spec ha (3 - a.weekday)
  have h2 := addDays_spec hb (3 - b.weekday)
  have h3 := dby_mono h
  have h4 := dby_succ (a.addDays (3 - a.weekday)).year
  simp only [isoWeekNumber, weeksBegun]
  rw [h1.2, h2.2]
  generalize (b.addDays (3 - b.weekday)).year = y2 at h3 ⊢
  generalize (a.addDays (3 - a.weekday)).year = y1 at h3 h4 ⊢
  have h5 : daysBeforeYear y1 + 365 ≤ daysBeforeYear y2 := by
    rw [h4] at h3; split at h3 <;> omega
  generalize daysBeforeYear y1 = c1 at h5 ⊢
  generalize daysBeforeYear y2 = c2 at h5 ⊢
  simp only [Date.weekday]
  omega

theorem sundayWeek_diff {a b : Date} (h : a.year = b.year) :
    sundayWeekNumber b - sundayWeekNumber a = weeksBegun 0 a b := by
  simp only [sundayWeekNumber, weeksBegun, h, Date.weekday]
  generalize daysBeforeYear b.year = c
  omega

end ML
