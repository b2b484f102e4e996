import Verif.Dates.Props
/-
C24: phrases with words instead of numbers, dates written out, " until ", and texts that are refused.
-/
set_option autoImplicit false
namespace ML
open Spec

/-! ### Words in place of a number -/

/-- "", "this " or "last " before a unit, and how many periods back it means. -/
def Spec.beforeUnit : List (List Char × ℤ) := [([], 0), ("this ".toList, 0), ("last ".toList, 1)]

set_option maxHeartbeats 1000000 in
theorem parse_word_toDate (ws : WeekState) (now : DateTime) (b : List Char × ℤ) (hb : b ∈ beforeUnit) (u : Interval)
    (pl ago : Bool) :
    parseDateCondition ws now (b.1 ++ (unitText u pl ++ (if ago then " ago to date".toList else " to date".toList))) =
      toDateWindow ws now (startDate ws now b.2 u) (startDate ws now 0 u) := by
  simp only [beforeUnit, List.mem_cons, List.not_mem_nil, or_false] at hb
  have key : ∀ (w : List Char) (lag : ℤ) (n0 : List Char),
      splitFirst " until ".toList (w ++ (unitText u pl ++ (if ago then " ago to date".toList else " to date".toList))) = none →
      w ++ (unitText u pl ++ (if ago then " ago to date".toList else " to date".toList)) ≠ "today".toList →
      w ++ (unitText u pl ++ (if ago then " ago to date".toList else " to date".toList)) ≠ "yesterday".toList →
      reSearch reAgoFor (w ++ (unitText u pl ++ (if ago then " ago to date".toList else " to date".toList))) = none →
      reSearch reNIntervalModifier (w ++ (unitText u pl ++ (if ago then " ago to date".toList else " to date".toList))) =
        some (n0, u, if ago then "ago to date".toList else "to date".toList) →
      (if strip n0 = "this".toList ∨ strip n0 = [] then 0 else if strip n0 = "last".toList then 1
        else if (if ago then "ago to date".toList else "to date".toList) = "to date".toList then digitsToInt (strip n0) - 1
        else digitsToInt (strip n0)) = lag →
      parseDateCondition ws now (w ++ (unitText u pl ++ (if ago then " ago to date".toList else " to date".toList))) =
        toDateWindow ws now (startDate ws now lag u) (startDate ws now 0 u) := by
    intro w lag n0 h1 h2 h3 h4 h5 h6
    unfold parseDateCondition
    rw [h1]
    simp only
    unfold parseSimple
    rw [if_neg h2, if_neg h3]
    unfold parseAgoFor parseNIntervalModifier toDateWindow
    rw [h4, h5]
    simp only [h6]
    cases startDate ws now lag u with
    | error e => rfl
    | ok a =>
      simp only
      rw [if_pos (by cases ago <;> decide)]
      cases startDate ws now 0 u with
      | error e => rfl
      | ok p =>
        simp only
        cases addToEndDate ws a (if daysBetween p now > 0 then daysBetween p now - 1 else 0) Interval.day <;> rfl
  rcases hb with rfl | rfl | rfl
  · exact key [] 0 [] (by cases u <;> cases pl <;> cases ago <;> decide) (by cases u <;> cases pl <;> cases ago <;> decide)
      (by cases u <;> cases pl <;> cases ago <;> decide) (by cases u <;> cases pl <;> cases ago <;> decide)
      (by cases u <;> cases pl <;> cases ago <;> decide) rfl
  · exact key "this ".toList 0 "this ".toList (by cases u <;> cases pl <;> cases ago <;> decide)
      (by cases u <;> cases pl <;> cases ago <;> decide)
      (by cases u <;> cases pl <;> cases ago <;> decide) (by cases u <;> cases pl <;> cases ago <;> decide)
      (by cases u <;> cases pl <;> cases ago <;> decide) (by cases ago <;> decide)
  · exact key "last ".toList 1 "last ".toList (by cases u <;> cases pl <;> cases ago <;> decide)
      (by cases u <;> cases pl <;> cases ago <;> decide)
      (by cases u <;> cases pl <;> cases ago <;> decide) (by cases u <;> cases pl <;> cases ago <;> decide)
      (by cases u <;> cases pl <;> cases ago <;> decide) (by cases ago <;> decide)

/-- C24 (h): "X to date" and "this X to date" begin with the current period, "last X to date" with the one before, and they last as many
whole days as the current period has been through before today, but at least one. -/
theorem C24_words_to_date (ws : WeekState) (hw : WeekOk ws) (now : DateTime) (hn : now.Valid) (u : Interval)
    (hu : u ≠ .unknown) (plural ago : Bool) (before : List Char × ℤ) (hb : before ∈ beforeUnit) (p : Date) (hp : p.Valid)
    (hfirst : ∀ d : Date, d.Valid → (p.ordinal ≤ d.ordinal ↔ period ws.starts u now.date ≤ period ws.starts u d)) :
    ∃ a b, parseDateCondition ws now
          (before.1 ++ (unitText u plural ++ (if ago then " ago to date".toList else " to date".toList))) =
        .ok (some [(.ge, a), (.le, b)]) ∧ a.Valid ∧
      (∀ d : Date, d.Valid → (a.date.ordinal ≤ d.ordinal ↔
        period ws.starts u now.date - before.2 ≤ period ws.starts u d)) ∧
      ∀ t : DateTime, t.Valid →
        (InWindow [(.ge, a), (.le, b)] t ↔ a.date.ordinal ≤ t.date.ordinal ∧
          t.date.ordinal < a.date.ordinal + max 1 (now.date.ordinal - p.ordinal)) := by
  obtain ⟨a, a1, a2, a3⟩ := startDate_spec hw hu hn before.2
  obtain ⟨q, q1, q2, q3⟩ := startDate_spec hw hu hn 0
  have hqp : q.ordinal = p.ordinal := by
    have h1 := (q3 p hp).mpr (by have := (hfirst p hp).mp (le_refl _); omega)
    have h2 := (hfirst q q2).mpr (by have := (q3 q q2).mp (le_refl _); omega)
    omega
  have hdays : daysBetween ⟨q, 0⟩ now = now.date.ordinal - p.ordinal := by
    have := hn.s0
    have := hn.s1
    unfold daysBetween
    simp only
    rw [hqp]
    omega
  obtain ⟨b, b1, b2, b3⟩ := addToEndDate_spec hw (u := .day) (by decide) (t := ⟨a, 0⟩) a2
    (if daysBetween ⟨q, 0⟩ now > 0 then daysBetween ⟨q, 0⟩ now - 1 else 0)
  refine ⟨⟨a, 0⟩, ⟨b, endSec .day⟩, ?_, ⟨a2, by simp, by simp⟩, a3, fun t ht => ?_⟩
  · rw [parse_word_toDate ws now before hb u plural ago, a1, q1]
    unfold toDateWindow
    simp only [b1]
  · rw [inWindow_pair]
    rw [notAfter_start a2 ht, show endSec .day = 86399 from rfl, notAfter_end b2 ht, b3 t.date ht.date]
    simp only [period, hdays]
    by_cases h : now.date.ordinal - p.ordinal > 0
    · rw [if_pos h]; omega
    · rw [if_neg h]; omega

/-! ### First day of the week -/

/-- The days of the week. -/
def Spec.writtenDays : List String := ["monday", "tuesday", "wednesday", "thursday", "friday", "saturday", "sunday"]

/-- C24 (i): the configured first day of the week is the one weeks begin on, and the day before it the one they end on; any other text, or
none, means Monday. -/
theorem C24_week_start (name : Option String) :
    (∀ (i : ℕ) s, writtenDays[i]? = some s → name = some s → weekStateFor name = ⟨i, (i + 6) % 7⟩) ∧
    ((∀ s, name = some s → s ∉ writtenDays) → weekStateFor name = ⟨0, 6⟩) := by
  constructor
  · intro i s hi hs
    subst hs
    unfold writtenDays at hi
    match i, hi with
    | 0, hi => simp at hi; subst hi; decide
    | 1, hi => simp at hi; subst hi; decide
    | 2, hi => simp at hi; subst hi; decide
    | 3, hi => simp at hi; subst hi; decide
    | 4, hi => simp at hi; subst hi; decide
    | 5, hi => simp at hi; subst hi; decide
    | 6, hi => simp at hi; subst hi; decide
    | n + 7, hi => simp at hi
  · intro h
    have : weekStartNumber name = 0 := by
      cases name with
      | none => rfl
      | some s =>
        have := h s rfl
        unfold weekStartNumber
        split <;> first | rfl | (rename_i heq; cases heq; exact absurd (by decide) this)
    unfold weekStateFor
    rw [this]
    rfl

/-! ### Dates written out -/

/-- One or two digits. -/
def Spec.ShortNumber (s : List Char) : Prop := (∃ a, s = [a] ∧ isDigitChar a = true) ∨
  ∃ a b, s = [a, b] ∧ isDigitChar a = true ∧ isDigitChar b = true

/-- A text that spells a date: four digits, a month, a day; the day may have a space in place of a zero. -/
structure Spec.Spells (s : List Char) (d : Date) : Prop where
  shape : ∃ y m k, s = y ++ '-' :: (m ++ '-' :: k) ∧ y.length = 4 ∧ (∀ c ∈ y, isDigitChar c = true) ∧ ShortNumber m ∧
    (ShortNumber k ∨ ∃ a, k = [' ', a] ∧ isDigitChar a = true) ∧
    d = ⟨digitsToInt y, digitsToInt m, digitsToInt (strip k)⟩
  exists_ : d.Valid ∧ 1 ≤ d.year

theorem mem_reThen {α β : Type} {a : List Char → Matches α} {f : α → List Char → Matches β} {s : List Char} {x : β × List Char} :
    x ∈ reThen a f s ↔ ∃ m ∈ a s, x ∈ f m.1 m.2 := by
  simp [reThen, List.mem_flatMap]

theorem mem_reDigit {lo hi : Char} {s : List Char} {x : List Char × List Char} :
    x ∈ reDigit lo hi s ↔ ∃ c r, s = c :: r ∧ lo ≤ c ∧ c ≤ hi ∧ x = ([c], r) := by
  unfold reDigit
  cases s with
  | nil => simp
  | cons c cs =>
    by_cases h : (lo ≤ c && c ≤ hi) = true
    · simp only [h, if_true, List.mem_singleton]
      simp only [Bool.and_eq_true, decide_eq_true_eq] at h
      constructor
      · rintro rfl; exact ⟨c, cs, rfl, h.1, h.2, rfl⟩
      · rintro ⟨c', r', e, -, -, rfl⟩; cases e; rfl
    · simp only [h]
      simp only [Bool.and_eq_true, decide_eq_true_eq] at h
      constructor
      · intro c; cases c
      · rintro ⟨c', r', e, h1, h2, -⟩; cases e; exact absurd ⟨h1, h2⟩ h

theorem mem_reGlue {a b : List Char → Matches (List Char)} {s : List Char} {x : List Char × List Char} :
    x ∈ reGlue a b s ↔ ∃ m ∈ a s, ∃ n ∈ b m.2, x = (m.1 ++ n.1, n.2) := by
  simp only [reGlue, mem_reThen, List.mem_singleton]

theorem mem_reLit {w s : List Char} {x : List Char × List Char} : x ∈ reLit w s ↔ s = w ++ x.2 ∧ x.1 = w := by
  unfold reLit
  by_cases h : w.isPrefixOf s = true
  · rw [if_pos h]
    obtain ⟨t, rfl⟩ := List.isPrefixOf_iff_prefix.mp h
    simp only [List.mem_singleton, List.drop_left, List.append_cancel_left_eq]
    constructor
    · rintro rfl; exact ⟨rfl, rfl⟩
    · rintro ⟨rfl, rfl⟩; rfl
  · rw [if_neg h]
    constructor
    · intro c; cases c
    · rintro ⟨e, -⟩
      exact absurd (List.isPrefixOf_iff_prefix.mpr ⟨x.2, e.symm⟩) h

theorem digit_range {c : Char} (h : isDigitChar c = true) :
    c = '0' ∨ c = '1' ∨ c = '2' ∨ c = '3' ∨ c = '4' ∨ c = '5' ∨ c = '6' ∨ c = '7' ∨ c = '8' ∨ c = '9' := by
  unfold isDigitChar at h
  simp only [Bool.and_eq_true, decide_eq_true_eq] at h
  have h1 : '0'.toNat ≤ c.toNat := h.1
  have h2 : c.toNat ≤ '9'.toNat := h.2
  have e1 : '0'.toNat = 48 := rfl
  have e2 : '9'.toNat = 57 := rfl
  rw [e1] at h1
  rw [e2] at h2
  have hc : c = Char.ofNat c.toNat := (Char.ofNat_toNat c).symm
  have : c.toNat = 48 ∨ c.toNat = 49 ∨ c.toNat = 50 ∨ c.toNat = 51 ∨ c.toNat = 52 ∨ c.toNat = 53 ∨ c.toNat = 54 ∨ c.toNat = 55 ∨
    c.toNat = 56 ∨ c.toNat = 57 := by omega
  rcases this with h | h | h | h | h | h | h | h | h | h <;> rw [h] at hc <;> rw [hc] <;> decide

theorem digit_of_range {lo hi c : Char} (h1 : lo ≤ c) (h2 : c ≤ hi) (hl : '0' ≤ lo) (hh : hi ≤ '9') : isDigitChar c = true := by
  unfold isDigitChar
  simp only [Bool.and_eq_true, decide_eq_true_eq]
  exact ⟨Char.le_trans hl h1, Char.le_trans h2 hh⟩

/-- The part of the expression that reads the month. filter.py 474. -/
def reMonth (s : List Char) : Matches (List Char) :=
  reGlue (reLit ['1']) (reDigit '0' '2') s ++ reGlue (reLit ['0']) (reDigit '1' '9') s ++ reDigit '1' '9' s

/-- The part of the expression that reads the day. filter.py 474. -/
def reDay (s : List Char) : Matches (List Char) :=
  reGlue (reLit ['3']) (reDigit '0' '1') s ++ reGlue (reDigit '1' '2') (reDigit '0' '9') s
    ++ reGlue (reLit ['0']) (reDigit '1' '9') s ++ reDigit '1' '9' s ++ reGlue (reLit [' ']) (reDigit '1' '9') s

/-- The part of the expression that reads the year. filter.py 474. -/
def reYear (s : List Char) : Matches (List Char) :=
  reGlue (reDigit '0' '9') (reGlue (reDigit '0' '9') (reGlue (reDigit '0' '9') (reDigit '0' '9'))) s

theorem reDate_eq (s : List Char) : reDate s = reThen reYear (fun y => reThen (reLit ['-']) (fun _ => reThen reMonth (fun m =>
    reThen (reLit ['-']) (fun _ => reThen reDay (fun d r => [((y, m, d), r)]))))) s := rfl

theorem mem_reYear {s : List Char} {x : List Char × List Char} :
    x ∈ reYear s ↔ s = x.1 ++ x.2 ∧ x.1.length = 4 ∧ ∀ c ∈ x.1, isDigitChar c = true := by
  have dg : ∀ c : Char, ('0' ≤ c ∧ c ≤ '9') ↔ isDigitChar c = true := by
    intro c; simp [isDigitChar]
  constructor
  · intro h
    simp only [reYear, mem_reGlue, mem_reDigit] at h
    obtain ⟨m, ⟨a, ra, rfl, a1, a2, rfl⟩, n, ⟨m', ⟨b, rb, e, b1, b2, rfl⟩, n', ⟨m'', ⟨c, rc, e', c1, c2, rfl⟩, n'', ⟨d, rd, e'', d1, d2, rfl⟩, rfl⟩,
      rfl⟩, rfl⟩ := h
    simp only at e e' e''
    subst e'' e' e
    refine ⟨rfl, rfl, ?_⟩
    simp only [List.cons_append, List.nil_append, List.mem_cons, List.not_mem_nil, or_false]
    rintro x (rfl | rfl | rfl | rfl)
    · exact (dg _).mp ⟨a1, a2⟩
    · exact (dg _).mp ⟨b1, b2⟩
    · exact (dg _).mp ⟨c1, c2⟩
    · exact (dg _).mp ⟨d1, d2⟩
  · obtain ⟨y, r⟩ := x
    rintro ⟨rfl, hl, hd⟩
    match y, hl with
    | [a, b, c, d], _ =>
      simp only [reYear, mem_reGlue, mem_reDigit]
      have ha := (dg a).mpr (hd a (by simp))
      have hb := (dg b).mpr (hd b (by simp))
      have hc := (dg c).mpr (hd c (by simp))
      have hd' := (dg d).mpr (hd d (by simp))
      exact ⟨_, ⟨a, _, rfl, ha.1, ha.2, rfl⟩, _, ⟨_, ⟨b, _, rfl, hb.1, hb.2, rfl⟩, _, ⟨_, ⟨c, _, rfl, hc.1, hc.2, rfl⟩, _,
        ⟨d, _, rfl, hd'.1, hd'.2, rfl⟩, rfl⟩, rfl⟩, rfl⟩

/-- At most one way to read a year. -/
theorem reYear_one (s : List Char) : (reYear s).length ≤ 1 := by
  have h : ∀ lo hi (s : List Char), (reDigit lo hi s).length ≤ 1 := by
    intro lo hi s
    unfold reDigit
    cases s with
    | nil => simp
    | cons c cs => simp only; split <;> simp
  have g : ∀ (a b : List Char → Matches (List Char)), (∀ s, (a s).length ≤ 1) → (∀ s, (b s).length ≤ 1) → ∀ s,
      (reGlue a b s).length ≤ 1 := by
    intro a b ha hb s
    unfold reGlue reThen
    have h1 := ha s
    match a s, h1 with
    | [], _ => simp
    | [m], _ =>
      have h2 := hb m.2
      simp only [List.flatMap_cons, List.flatMap_nil, List.append_nil]
      match b m.2, h2 with
      | [], _ => simp
      | [n], _ => simp
  unfold reYear
  exact g _ _ (h _ _) (g _ _ (h _ _) (g _ _ (h _ _) (h _ _))) s

theorem mem_reMonth {s : List Char} {x : List Char × List Char} (h : x ∈ reMonth s) :
    s = x.1 ++ x.2 ∧ ShortNumber x.1 ∧ 1 ≤ digitsToInt x.1 ∧ digitsToInt x.1 ≤ 12 := by
  simp only [reMonth, List.mem_append, mem_reGlue, mem_reDigit, mem_reLit] at h
  rcases h with (⟨m, ⟨rfl, hm⟩, n, ⟨c, r, e, c1, c2, rfl⟩, rfl⟩ | ⟨m, ⟨rfl, hm⟩, n, ⟨c, r, e, c1, c2, rfl⟩, rfl⟩) | ⟨c, r, rfl, c1, c2, rfl⟩
  · have hd := digit_of_range c1 c2 (by decide) (by decide)
    simp only [e, hm]
    refine ⟨rfl, .inr ⟨'1', c, rfl, rfl, hd⟩, ?_⟩
    rcases digit_range hd with rfl | rfl | rfl | rfl | rfl | rfl | rfl | rfl | rfl | rfl <;>
      first | exact absurd c2 (by decide) | exact (by decide)
  · have hd := digit_of_range c1 c2 (by decide) (by decide)
    simp only [e, hm]
    refine ⟨rfl, .inr ⟨'0', c, rfl, rfl, hd⟩, ?_⟩
    rcases digit_range hd with rfl | rfl | rfl | rfl | rfl | rfl | rfl | rfl | rfl | rfl <;>
      first | exact absurd c1 (by decide) | exact (by decide)
  · have hd := digit_of_range c1 c2 (by decide) (by decide)
    refine ⟨rfl, .inl ⟨c, rfl, hd⟩, ?_⟩
    simp only
    rcases digit_range hd with rfl | rfl | rfl | rfl | rfl | rfl | rfl | rfl | rfl | rfl <;>
      first | exact absurd c1 (by decide) | exact (by decide)

theorem mem_reDay {s : List Char} {x : List Char × List Char} (h : x ∈ reDay s) :
    s = x.1 ++ x.2 ∧ (ShortNumber x.1 ∨ ∃ a, x.1 = [' ', a] ∧ isDigitChar a = true) ∧ 1 ≤ digitsToInt (strip x.1) := by
  simp only [reDay, List.mem_append, mem_reGlue, mem_reDigit, mem_reLit] at h
  rcases h with (((⟨m, ⟨rfl, hm⟩, n, ⟨c, r, e, c1, c2, rfl⟩, rfl⟩ | ⟨m, ⟨a, r', rfl, a1, a2, rfl⟩, n, ⟨c, r, e, c1, c2, rfl⟩, rfl⟩) |
      ⟨m, ⟨rfl, hm⟩, n, ⟨c, r, e, c1, c2, rfl⟩, rfl⟩) | ⟨c, r, rfl, c1, c2, rfl⟩) | ⟨m, ⟨rfl, hm⟩, n, ⟨c, r, e, c1, c2, rfl⟩, rfl⟩
  · have hd := digit_of_range c1 c2 (by decide) (by decide)
    simp only [e, hm]
    refine ⟨rfl, .inl (.inr ⟨'3', c, rfl, rfl, hd⟩), ?_⟩
    rcases digit_range hd with rfl | rfl | rfl | rfl | rfl | rfl | rfl | rfl | rfl | rfl <;>
      first | exact absurd c2 (by decide) | exact (by decide)
  · have hd := digit_of_range c1 c2 (by decide) (by decide)
    have ha := digit_of_range a1 a2 (by decide) (by decide)
    simp only at e
    subst e
    refine ⟨rfl, .inl (.inr ⟨a, c, rfl, ha, hd⟩), ?_⟩
    simp only
    rcases digit_range ha with rfl | rfl | rfl | rfl | rfl | rfl | rfl | rfl | rfl | rfl <;>
    first
    | exact absurd a2 (by decide)
    | exact absurd a1 (by decide)
    | (rcases digit_range hd with rfl | rfl | rfl | rfl | rfl | rfl | rfl | rfl | rfl | rfl <;> exact (by decide))
  · have hd := digit_of_range c1 c2 (by decide) (by decide)
    simp only [e, hm]
    refine ⟨rfl, .inl (.inr ⟨'0', c, rfl, rfl, hd⟩), ?_⟩
    rcases digit_range hd with rfl | rfl | rfl | rfl | rfl | rfl | rfl | rfl | rfl | rfl <;>
      first | exact absurd c1 (by decide) | exact (by decide)
  · have hd := digit_of_range c1 c2 (by decide) (by decide)
    refine ⟨rfl, .inl (.inl ⟨c, rfl, hd⟩), ?_⟩
    simp only
    rcases digit_range hd with rfl | rfl | rfl | rfl | rfl | rfl | rfl | rfl | rfl | rfl <;>
      first | exact absurd c1 (by decide) | exact (by decide)
  · have hd := digit_of_range c1 c2 (by decide) (by decide)
    simp only [e, hm]
    refine ⟨rfl, .inr ⟨c, rfl, hd⟩, ?_⟩
    rcases digit_range hd with rfl | rfl | rfl | rfl | rfl | rfl | rfl | rfl | rfl | rfl <;>
      first | exact absurd c1 (by decide) | exact (by decide)

/-- What follows a month that is written out: one way to go on at a dash. -/
theorem reMonth_dash {m : List Char} (hm : ShortNumber m) (h1 : 1 ≤ digitsToInt m) (h2 : digitsToInt m ≤ 12) {β : Type} (r : List Char)
    (f : List Char → List Char → Matches β) :
    reThen reMonth (fun m => reThen (reLit ['-']) (fun _ => f m)) (m ++ '-' :: r) = f m r := by
  rcases hm with ⟨a, rfl, ha⟩ | ⟨a, b, rfl, ha, hb⟩
  · rcases digit_range ha with rfl | rfl | rfl | rfl | rfl | rfl | rfl | rfl | rfl | rfl <;>
      first
      | exact absurd h1 (by decide)
      | simp [reThen, reMonth, reGlue, reLit, reDigit, List.isPrefixOf]
  · rcases digit_range ha with rfl | rfl | rfl | rfl | rfl | rfl | rfl | rfl | rfl | rfl <;>
    rcases digit_range hb with rfl | rfl | rfl | rfl | rfl | rfl | rfl | rfl | rfl | rfl <;>
      first
      | exact absurd h1 (by decide)
      | exact absurd h2 (by decide)
      | simp [reThen, reMonth, reGlue, reLit, reDigit, List.isPrefixOf]

theorem reDay_end {k : List Char} (hk : ShortNumber k ∨ ∃ a, k = [' ', a] ∧ isDigitChar a = true) (h1 : 1 ≤ digitsToInt (strip k))
    (h2 : digitsToInt (strip k) ≤ 31) : ∃ ms, reDay k = (k, []) :: ms := by
  rcases hk with (⟨a, rfl, ha⟩ | ⟨a, b, rfl, ha, hb⟩) | ⟨a, rfl, ha⟩
  · rcases digit_range ha with rfl | rfl | rfl | rfl | rfl | rfl | rfl | rfl | rfl | rfl <;>
      first
      | exact absurd h1 (by decide)
      | exact ⟨_, rfl⟩
  · rcases digit_range ha with rfl | rfl | rfl | rfl | rfl | rfl | rfl | rfl | rfl | rfl <;>
    rcases digit_range hb with rfl | rfl | rfl | rfl | rfl | rfl | rfl | rfl | rfl | rfl <;>
      first
      | exact absurd h1 (by decide)
      | exact absurd h2 (by decide)
      | exact ⟨_, rfl⟩
  · rcases digit_range ha with rfl | rfl | rfl | rfl | rfl | rfl | rfl | rfl | rfl | rfl <;>
      first
      | exact absurd h1 (by decide)
      | exact ⟨_, rfl⟩

theorem days_le_31 (y m : ℤ) : daysInMonth y m ≤ 31 := by
  unfold daysInMonth
  split
  · split <;> decide
  · split <;> decide

/-- C24 (j): a text is read as a date exactly when it spells one that exists, and then as its midnight; any other text is a ValueError. -/
theorem C24_written_date (s : List Char) :
    (∀ t, parseDateString s = .ok t ↔ ∃ d, Spells s d ∧ t = ⟨d, 0⟩) ∧
    ((¬ ∃ d, Spells s d) → parseDateString s = .error .valueError) := by
  have hto : ∀ t, parseDateString s = .ok t → ∃ d, Spells s d ∧ t = ⟨d, 0⟩ := by
    intro t h
    unfold parseDateString at h
    cases hr : reDate s with
    | nil => rw [hr] at h; cases h
    | cons x xs =>
      obtain ⟨⟨y, m, k⟩, rest⟩ := x
      rw [hr] at h; simp only at h
      have hmem : ((y, m, k), rest) ∈ reDate s := by rw [hr]; exact List.mem_cons_self
      rw [reDate_eq] at hmem
      simp only [mem_reThen, mem_reLit] at hmem
      obtain ⟨⟨y', r1⟩, hy, ⟨z1, r2⟩, ⟨e1, -⟩, ⟨m', r3⟩, hm, ⟨z2, r4⟩, ⟨e2, -⟩, ⟨k', r5⟩, hk, hx⟩ := hmem
      simp only [List.mem_singleton, Prod.mk.injEq] at hx
      obtain ⟨⟨rfl, rfl, rfl⟩, rfl⟩ := hx
      obtain ⟨ey, y4, yd⟩ := mem_reYear.mp hy
      obtain ⟨em, sm, m1, m12⟩ := mem_reMonth hm
      obtain ⟨ek, sk, k1⟩ := mem_reDay hk
      simp only at ey y4 yd em sm m1 m12 ek sk k1 e1 e2
      by_cases hrest : rest ≠ []
      · rw [if_pos hrest] at h; cases h
      · rw [if_neg hrest] at h
        have hrest : rest = [] := not_not.mp hrest
        subst hrest
        split at h
        · rename_i hc
          injection h with h
          refine ⟨⟨digitsToInt y, digitsToInt m, digitsToInt (strip k)⟩, ⟨⟨y, m, k, ?_, y4, yd, sm, sk, rfl⟩, ⟨m1, m12, k1, hc.2⟩, hc.1⟩, h.symm⟩
          rw [ey, e1, em, e2, ek]
          simp
        · cases h
  have hfrom : ∀ d, Spells s d → parseDateString s = .ok ⟨d, 0⟩ := by
    rintro d ⟨⟨y, m, k, rfl, y4, yd, sm, sk, rfl⟩, ⟨⟨v1, v2, v3, v4⟩, y1⟩⟩
    simp only at v1 v2 v3 v4 y1
    have hyear : reYear (y ++ '-' :: (m ++ '-' :: k)) = [(y, '-' :: (m ++ '-' :: k))] := by
      have hmem : (y, '-' :: (m ++ '-' :: k)) ∈ reYear (y ++ '-' :: (m ++ '-' :: k)) := mem_reYear.mpr ⟨rfl, y4, yd⟩
      have hlen := reYear_one (y ++ '-' :: (m ++ '-' :: k))
      match h : reYear (y ++ '-' :: (m ++ '-' :: k)), hlen with
      | [], _ => rw [h] at hmem; cases hmem
      | [z], _ => rw [h, List.mem_singleton] at hmem; rw [hmem]
    obtain ⟨ms, hday⟩ := reDay_end sk v3 (le_trans v4 (days_le_31 _ _))
    have hdate : ∃ zs, reDate (y ++ '-' :: (m ++ '-' :: k)) = ((y, m, k), []) :: zs := by
      rw [reDate_eq]
      have : ∀ {β : Type} (f : List Char → List Char → Matches β), reThen reYear f (y ++ '-' :: (m ++ '-' :: k)) =
          f y ('-' :: (m ++ '-' :: k)) := by
        intro β f; unfold reThen; rw [hyear]; simp
      rw [this]
      have hl : ∀ {β : Type} (r : List Char) (f : List Char → List Char → Matches β), reThen (reLit ['-']) f ('-' :: r) = f ['-'] r := by
        intro β r f; simp [reThen, reLit, List.isPrefixOf]
      rw [hl, reMonth_dash sm v1 v2 k (fun m => reThen reDay (fun d r => [((y, m, d), r)]))]
      unfold reThen
      rw [hday]
      exact ⟨_, rfl⟩
    obtain ⟨zs, hz⟩ := hdate
    unfold parseDateString
    rw [hz]
    simp only
    rw [if_neg (by simp), if_pos ⟨y1, v4⟩]
  refine ⟨fun t => ⟨hto t, ?_⟩, fun hno => ?_⟩
  · rintro ⟨d, hd, rfl⟩; exact hfrom d hd
  · cases hp : parseDateString s with
    | ok t => obtain ⟨d, hd, -⟩ := hto t hp; exact absurd ⟨d, hd⟩ hno
    | error e =>
      unfold parseDateString at hp
      cases hr : reDate s with
      | nil => rw [hr] at hp; cases hp; rfl
      | cons x xs =>
        obtain ⟨⟨y, m, k⟩, rest⟩ := x
        rw [hr] at hp; simp only at hp
        split at hp
        · cases hp; rfl
        · split at hp
          · cases hp
          · cases hp; rfl

/-! ### " until " -/

theorem splitFirst_none_iff (sep : List Char) (hsep : sep ≠ []) : ∀ s : List Char, splitFirst sep s = none ↔ ¬ sep <:+: s
  | [] => by simp [splitFirst, hsep]
  | c :: cs => by
    unfold splitFirst
    by_cases h : sep.isPrefixOf (c :: cs) = true
    · rw [if_pos h]
      have := List.isPrefixOf_iff_prefix.mp h
      simp only [reduceCtorEq, false_iff, not_not]
      exact this.isInfix
    · rw [if_neg h]
      rw [Option.map_eq_none_iff, splitFirst_none_iff sep hsep cs, List.infix_cons_iff]
      have h' : ¬ sep <+: c :: cs := fun hp => h (List.isPrefixOf_iff_prefix.mpr hp)
      tauto

/-- The separator in two parts. -/
theorem splitFirst_at (sep : List Char) (x : Char) (xs : List Char) (hsep : sep = xs ++ [x]) (hxs : xs ≠ []) :
    ∀ f r : List Char, ¬ sep <:+: f ++ xs → splitFirst sep (f ++ sep ++ r) = some (f, r)
  | [], r, _ => by
    rw [List.nil_append]
    obtain ⟨c, cs, hc⟩ := List.exists_cons_of_ne_nil (show sep ≠ [] by rw [hsep]; simp)
    rw [hc, List.cons_append]
    unfold splitFirst
    rw [if_pos (List.isPrefixOf_iff_prefix.mpr ⟨r, by rw [List.cons_append]⟩)]
    simp
  | a :: f, r, h => by
    rw [List.cons_append, List.cons_append]
    unfold splitFirst
    have hpre : ¬ sep.isPrefixOf (a :: (f ++ sep ++ r)) = true := by
      intro hp
      obtain ⟨t, ht⟩ := List.isPrefixOf_iff_prefix.mp hp
      apply h
      -- the match lies within f and all but the last character of the separator
      refine (List.IsPrefix.isInfix (show sep <+: a :: f ++ xs from ?_))
      have hlen : sep.length ≤ (a :: f ++ xs).length := by rw [hsep]; simp
      have e : a :: (f ++ sep ++ r) = (a :: f ++ xs) ++ (x :: r) := by rw [hsep]; simp
      rw [e] at ht
      exact List.prefix_of_prefix_length_le ⟨t, ht⟩ (List.prefix_append _ _) hlen
    rw [if_neg hpre]
    have h' : ¬ sep <:+: f ++ xs := fun hi => h (by rw [List.cons_append]; exact List.infix_cons_iff.mpr (.inr hi))
    rw [splitFirst_at sep x xs hsep hxs f r h']
    rfl

/-- C24 (k): "A until B" begins where A begins and ends where B ends; a side that is not a phrase is read as a written date, at midnight.
The sides must not contain " until " themselves: a text with two of them is a ValueError. -/
theorem C24_until (ws : WeekState) (now : DateTime) (f s : List Char) (hf : ¬ " until ".toList <:+: f ++ " until".toList)
    (hs : ¬ " until ".toList <:+: s) :
    (∀ a b w w', parseDateCondition ws now f = .ok (some (a :: w)) → parseDateCondition ws now s = .ok (some (w' ++ [b])) →
      parseDateCondition ws now (f ++ " until ".toList ++ s) = .ok (some [a, b])) ∧
    (∀ d b w', parseDateCondition ws now f = .ok none → Spells f d → parseDateCondition ws now s = .ok (some (w' ++ [b])) →
      parseDateCondition ws now (f ++ " until ".toList ++ s) = .ok (some [(.ge, ⟨d, 0⟩), b])) ∧
    (∀ a e w, parseDateCondition ws now f = .ok (some (a :: w)) → parseDateCondition ws now s = .ok none → Spells s e →
      parseDateCondition ws now (f ++ " until ".toList ++ s) = .ok (some [a, (.le, ⟨e, 0⟩)])) ∧
    (∀ d e, parseDateCondition ws now f = .ok none → Spells f d → parseDateCondition ws now s = .ok none → Spells s e →
      parseDateCondition ws now (f ++ " until ".toList ++ s) = .ok (some [(.ge, ⟨d, 0⟩), (.le, ⟨e, 0⟩)])) ∧
    (parseDateCondition ws now f = .ok none → (¬ ∃ d, Spells f d) →
      parseDateCondition ws now (f ++ " until ".toList ++ s) = .error .valueError) ∧
    (∀ r, parseDateCondition ws now (f ++ " until ".toList ++ (s ++ " until ".toList ++ r)) = .error .valueError) := by
  have e0 : (" until ".toList : List Char) = " until".toList ++ [' '] := by decide
  have hsplit : ∀ r, splitFirst " until ".toList (f ++ " until ".toList ++ r) = some (f, r) :=
    fun r => splitFirst_at _ ' ' " until".toList e0 (by decide) f r hf
  have hs' := (splitFirst_none_iff " until ".toList (by decide) s).mpr hs
  have hf' : splitFirst " until ".toList f = none := by
    rw [splitFirst_none_iff " until ".toList (by decide)]
    intro hi
    exact hf (hi.trans (List.prefix_append _ _).isInfix)
  have pf : parseDateCondition ws now f = parseSimple ws now f := by unfold parseDateCondition; rw [hf']
  have ps : parseDateCondition ws now s = parseSimple ws now s := by unfold parseDateCondition; rw [hs']
  have hall : parseDateCondition ws now (f ++ " until ".toList ++ s) =
      (match untilSide ws now .ge List.head? f with
      | .error e => .error e
      | .ok a =>
        match untilSide ws now .le List.getLast? s with
        | .error e => .error e
        | .ok b => .ok (some [a, b])) := by
    conv => lhs; unfold parseDateCondition
    rw [hsplit s]
    simp only
    rw [hs']
    rfl
  have first_some : ∀ a w, parseDateCondition ws now f = .ok (some (a :: w)) → untilSide ws now .ge List.head? f = .ok a := by
    intro a w h; unfold untilSide; rw [← pf, h]; rfl
  have first_date : ∀ d, parseDateCondition ws now f = .ok none → Spells f d → untilSide ws now .ge List.head? f = .ok (.ge, ⟨d, 0⟩) := by
    intro d h hd; unfold untilSide; rw [← pf, h]; simp only
    rw [((C24_written_date f).1 ⟨d, 0⟩).mpr ⟨d, hd, rfl⟩]
  have last_some : ∀ w b, parseDateCondition ws now s = .ok (some (w ++ [b])) → untilSide ws now .le List.getLast? s = .ok b := by
    intro w b h; unfold untilSide; rw [← ps, h]; simp
  have last_date : ∀ d, parseDateCondition ws now s = .ok none → Spells s d → untilSide ws now .le List.getLast? s = .ok (.le, ⟨d, 0⟩) := by
    intro d h hd; unfold untilSide; rw [← ps, h]; simp only
    rw [((C24_written_date s).1 ⟨d, 0⟩).mpr ⟨d, hd, rfl⟩]
  refine ⟨?_, ?_, ?_, ?_, ?_, ?_⟩
  · intro a b w w' h1 h2
    rw [hall, first_some a w h1, last_some w' b h2]
  · intro d b w' h1 hd h2
    rw [hall, first_date d h1 hd, last_some w' b h2]
  · intro a e w h1 h2 he
    rw [hall, first_some a w h1, last_date e h2 he]
  · intro d e h1 hd h2 he
    rw [hall, first_date d h1 hd, last_date e h2 he]
  · intro h hno
    rw [hall]
    unfold untilSide
    rw [← pf, h]
    simp only
    rw [(C24_written_date f).2 hno]
  · intro r
    unfold parseDateCondition
    rw [hsplit]
    simp only
    have : ∃ z, splitFirst " until ".toList (s ++ " until ".toList ++ r) = some z := by
      rw [← Option.ne_none_iff_exists']
      rw [ne_eq, splitFirst_none_iff " until ".toList (by decide), not_not]
      exact ⟨s, r, by simp⟩
    obtain ⟨z, hz⟩ := this
    rw [hz]

/-! ### A written date is not a phrase -/

theorem rePlus_sub {p : Char → Bool} : ∀ {s : List Char} {x : List Char × List Char}, x ∈ rePlus p s → x.2 <:+ s
  | [], x, h => by cases h
  | c :: cs, x, h => by
    unfold rePlus at h
    split at h
    · rw [List.mem_append, List.mem_map] at h
      rcases h with ⟨m, hm, rfl⟩ | h
      · exact (rePlus_sub hm).trans (List.suffix_cons _ _)
      · rw [List.mem_singleton] at h; subst h; exact List.suffix_cons _ _
    · cases h

theorem reLit_sub {w s : List Char} {x : List Char × List Char} (h : x ∈ reLit w s) : x.2 <:+ s := by
  obtain ⟨e, -⟩ := mem_reLit.mp h
  exact ⟨w, e.symm⟩

theorem reInterval_sub {s : List Char} {x : Interval × List Char} (h : x ∈ reInterval s) : x.2 <:+ s := by
  simp only [reInterval, List.mem_flatMap, List.mem_map] at h
  obtain ⟨w, -, m, hm, rfl⟩ := h
  exact reLit_sub (x := m) hm

/-- No white space anywhere. -/
def Spec.NoSpaces (s : List Char) : Prop := ∀ c ∈ s, isSpace c = false

theorem reSpaces_nil {s : List Char} (h : NoSpaces s) : reSpaces s = [] := by
  unfold reSpaces
  cases s with
  | nil => rfl
  | cons c cs => unfold rePlus; rw [if_neg (by rw [h c (by simp)]; decide)]

theorem Spec.NoSpaces.sub {s t : List Char} (h : NoSpaces s) (ht : t <:+ s) : NoSpaces t := fun c hc => h c (ht.subset hc)

theorem then_spaces_nil {α β : Type} {a : List Char → Matches α} {f : α → List Char → List Char → Matches β} {s : List Char}
    (h : NoSpaces s) (ha : ∀ m ∈ a s, m.2 <:+ s) : reThen a (fun n => reThen reSpaces (f n)) s = [] := by
  rw [List.eq_nil_iff_forall_not_mem]
  intro x hx
  obtain ⟨m, hm, hx⟩ := mem_reThen.mp hx
  obtain ⟨k, hk, -⟩ := mem_reThen.mp hx
  rw [reSpaces_nil (h.sub (ha m hm))] at hk
  cases hk

theorem reSearch_none {α : Type} {p : List Char → Matches α} : ∀ {s : List Char}, (∀ t, t <:+ s → p t = []) → reSearch p s = none
  | [], h => by unfold reSearch; rw [h [] (List.suffix_refl _)]; rfl
  | c :: cs, h => by
    unfold reSearch
    rw [h _ (List.suffix_refl _)]
    exact reSearch_none (fun t ht => h t (ht.trans (List.suffix_cons _ _)))

theorem simple_noSpaces (ws : WeekState) (now : DateTime) (s : List Char) (h : NoSpaces s) (h1 : s ≠ "today".toList)
    (h2 : s ≠ "yesterday".toList) : parseDateCondition ws now s = .ok none := by
  have hu : splitFirst " until ".toList s = none := by
    rw [splitFirst_none_iff _ (by decide)]
    intro hi
    have := h ' ' (hi.subset (by decide))
    exact absurd this (by decide)
  have n1 : ∀ t, t <:+ s → reAgoFor t = [] := fun t ht =>
    then_spaces_nil (h.sub ht) (fun m hm => rePlus_sub hm)
  have n3 : ∀ t, t <:+ s → reNInterval t = [] := by
    intro t ht
    refine then_spaces_nil (h.sub ht) (fun m hm => ?_)
    rw [List.mem_append, List.mem_append] at hm
    rcases hm with (hm | hm) | hm
    · exact rePlus_sub hm
    · exact reLit_sub hm
    · exact reLit_sub hm
  have n2 : ∀ t, t <:+ s → reNIntervalModifier t = [] := by
    intro t ht
    have hc : reCount t = [([], t)] := by
      unfold reCount reWordSpaces
      rw [then_spaces_nil (a := reDigits) (h.sub ht) (fun m hm => rePlus_sub hm), then_spaces_nil (h.sub ht) (fun m hm => reLit_sub hm),
        then_spaces_nil (h.sub ht) (fun m hm => reLit_sub hm)]
      rfl
    have : reNIntervalModifier t = reThen reInterval (fun u => reThen reSpaces (fun _ => reThen reModifier (fun m r => [(([], u, m), r)]))) t := by
      unfold reNIntervalModifier
      have : ∀ {β : Type} (f : List Char → List Char → Matches β), reThen reCount f t = f [] t := by
        intro β f; unfold reThen; rw [hc]; simp
      rw [this]
    rw [this]
    exact then_spaces_nil (h.sub ht) (fun m hm => reInterval_sub hm)
  unfold parseDateCondition
  rw [hu]
  simp only
  unfold parseSimple
  rw [if_neg h1, if_neg h2]
  unfold parseAgoFor parseNIntervalModifier parseNInterval
  rw [reSearch_none n1, reSearch_none n2, reSearch_none n3]

/-- C24 (l): "D until E" for two dates written with digits only: from the midnight that begins D to the midnight that begins E, so the last
day itself is left out except for its first second. -/
theorem C24_two_dates (ws : WeekState) (now : DateTime) (f s : List Char) (d e : Date) (hd : Spells f d) (he : Spells s e)
    (hf : ' ' ∉ f) (hs : ' ' ∉ s) :
    ∃ w, parseDateCondition ws now (f ++ " until ".toList ++ s) = .ok (some w) ∧
      ∀ t : DateTime, t.Valid → (InWindow w t ↔ d.ordinal ≤ t.date.ordinal ∧
        (t.date.ordinal < e.ordinal ∨ (t.date = e ∧ t.sec = 0))) := by
  have plain : ∀ x k, Spells x k → ' ' ∉ x → NoSpaces x ∧ x ≠ "today".toList ∧ x ≠ "yesterday".toList := by
    rintro x k ⟨⟨y, m, j, rfl, y4, yd, sm, sk, -⟩, -⟩ hx
    have dig : ∀ n, ShortNumber n → ∀ c ∈ n, isDigitChar c = true := by
      rintro n (⟨a, rfl, ha⟩ | ⟨a, b, rfl, ha, hb⟩) c hc
      · simp only [List.mem_singleton] at hc; subst hc; exact ha
      · simp only [List.mem_cons, List.not_mem_nil, or_false] at hc
        rcases hc with rfl | rfl
        · exact ha
        · exact hb
    have hj : ShortNumber j := by
      rcases sk with h | ⟨a, rfl, -⟩
      · exact h
      · exact absurd (by simp) hx
    refine ⟨?_, ?_, ?_⟩
    · intro c hc
      simp only [List.mem_append, List.mem_cons] at hc
      rcases hc with hc | rfl | hc | rfl | hc
      · exact digit_not_space (yd c hc)
      · decide
      · exact digit_not_space (dig m sm c hc)
      · decide
      · exact digit_not_space (dig j hj c hc)
    · intro e
      match y, y4 with
      | a :: y, _ =>
        injection e with e1 _
        have := yd a (by simp)
        rw [e1] at this
        exact absurd this (by decide)
    · intro e
      match y, y4 with
      | a :: y, _ =>
        injection e with e1 _
        have := yd a (by simp)
        rw [e1] at this
        exact absurd this (by decide)
  obtain ⟨a1, a2, a3⟩ := plain f d hd hf
  obtain ⟨b1, b2, b3⟩ := plain s e he hs
  have u1 : ¬ " until ".toList <:+: f ++ " until".toList := by
    intro hi
    -- the separator has two spaces, the text only one
    have hc := hi.sublist.count_le ' '
    rw [List.count_append, List.count_eq_zero.mpr hf] at hc
    exact absurd hc (by decide)
  have u2 : ¬ " until ".toList <:+: s := fun hi => hs (hi.subset (by decide))
  refine ⟨_, (C24_until ws now f s u1 u2).2.2.2.1 d e (simple_noSpaces ws now f a1 a2 a3) hd (simple_noSpaces ws now s b1 b2 b3) he,
    fun t ht => ?_⟩
  rw [inWindow_pair]
  rw [notAfter_start hd.exists_.1 ht, notAfter_midnight he.exists_.1 ht]

/-- C24 (m): the word "unknown" counts as a unit and makes the phrase a TypeError, for every number. -/
theorem C24_unknown_unit (ws : WeekState) (now : DateTime) (n : ℕ) (plural : Bool) :
    parseDateCondition ws now ((Nat.repr n).toList ++ ' ' :: unitText .unknown plural) = .error .typeError ∧
    parseDateCondition ws now ((Nat.repr n).toList ++ ' ' :: (unitText .unknown plural ++ " ago".toList)) = .error .typeError := by
  constructor
  · rw [parse_n ws now _ (isNumber_repr n) .unknown plural]
    rfl
  · have := parse_ago ws now _ (isNumber_repr n) .unknown plural
    unfold agoText at this
    rw [this]
    rfl

/-! ### Concrete cases -/

example : Spells "2024-02-29".toList ⟨2024, 2, 29⟩ ∧ Spells "2024-3- 1".toList ⟨2024, 3, 1⟩ :=
  ⟨⟨⟨"2024".toList, "02".toList, "29".toList, by decide, by decide, by decide, .inr ⟨'0', '2', by decide, by decide, by decide⟩,
      .inl (.inr ⟨'2', '9', by decide, by decide, by decide⟩), by decide⟩, ⟨by decide, by decide, by decide, by decide⟩, by decide⟩,
   ⟨⟨"2024".toList, "3".toList, " 1".toList, by decide, by decide, by decide, .inl ⟨'3', by decide, by decide⟩,
      .inr ⟨'1', by decide, by decide⟩, by decide⟩, ⟨by decide, by decide, by decide, by decide⟩, by decide⟩⟩

example : parseDateString "2023-02-29".toList = .error .valueError ∧ parseDateString "0000-01-01".toList = .error .valueError ∧
    parseDateString "2023-02-2x".toList = .error .valueError ∧ parseDateString "2023-00-10".toList = .error .valueError ∧
    parseDateString "20a3-01-10".toList = .error .valueError ∧ parseDateString "2023-1-10".toList = .ok ⟨⟨2023, 1, 10⟩, 0⟩ ∧
    parseDateString "2023-10-31".toList = .ok ⟨⟨2023, 10, 31⟩, 0⟩ := by decide +kernel

example : ¬ " until ".toList <:+: "2 weeks ago".toList ++ " until".toList ∧ ¬ " until ".toList <:+: "today".toList := by decide +kernel

example : parseDateCondition (weekStateFor none) feb28 "2 weeks ago until today".toList =
    .ok (some [(.ge, ⟨⟨2024, 2, 12⟩, 0⟩), (.le, ⟨⟨2024, 2, 28⟩, 86399⟩)]) := by decide +kernel

example : parseDateCondition (weekStateFor none) feb28 "last month to date".toList =
    .ok (some [(.ge, ⟨⟨2024, 1, 1⟩, 0⟩), (.le, ⟨⟨2024, 1, 27⟩, 86399⟩)]) := by decide +kernel

end ML
