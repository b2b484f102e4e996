import Verif.Dates.Spec
/-
Helper lemmas for C24: starts and ends of calendar periods, and the regular expressions on phrases.
-/
set_option autoImplicit false
namespace ML
open Spec

/-! ### Weeks -/

theorem prevWeekday_spec (w : ℤ) (hw0 : 0 ≤ w) (hw6 : w ≤ 6) : ∀ (n : ℕ) (d : Date), d.Valid →
    (d.weekday - w) % 7 ≠ 0 → (d.weekday - w) % 7 ≤ n →
    (prevWeekday w n d).Valid ∧ (prevWeekday w n d).ordinal = d.ordinal - (d.weekday - w) % 7
  | 0, d, _, h1, h2 => by
    have h2 : (d.weekday - w) % 7 ≤ 0 := by simpa using h2
    omega
  | n + 1, d, hv, h1, h2 => by
    obtain ⟨pv, po⟩ := prev_spec hv
    unfold prevWeekday
    have ew : d.prev.weekday = (d.ordinal - 1 + 6) % 7 := by unfold Date.weekday; rw [po]
    have ew2 : d.weekday = (d.ordinal + 6) % 7 := rfl
    push_cast at h2
    split
    · rename_i h
      exact ⟨pv, by rw [po]; omega⟩
    · rename_i h
      have := prevWeekday_spec w hw0 hw6 n d.prev pv (by omega) (by omega)
      exact ⟨this.1, by rw [this.2, po]; omega⟩

theorem nextWeekday_spec (w : ℤ) (hw0 : 0 ≤ w) (hw6 : w ≤ 6) : ∀ (n : ℕ) (d : Date), d.Valid →
    (w - d.weekday) % 7 ≠ 0 → (w - d.weekday) % 7 ≤ n →
    (nextWeekday w n d).Valid ∧ (nextWeekday w n d).ordinal = d.ordinal + (w - d.weekday) % 7
  | 0, d, _, h1, h2 => by
    have h2 : (w - d.weekday) % 7 ≤ 0 := by simpa using h2
    omega
  | n + 1, d, hv, h1, h2 => by
    obtain ⟨pv, po⟩ := next_spec hv
    unfold nextWeekday
    have ew : d.next.weekday = (d.ordinal + 1 + 6) % 7 := by unfold Date.weekday; rw [po]
    have ew2 : d.weekday = (d.ordinal + 6) % 7 := rfl
    push_cast at h2
    split
    · rename_i h
      exact ⟨pv, by rw [po]; omega⟩
    · rename_i h
      have := nextWeekday_spec w hw0 hw6 n d.next pv (by omega) (by omega)
      exact ⟨this.1, by rw [this.2, po]; omega⟩

/-! ### Starts and ends of periods -/

theorem ordinal_le_iff {a b : Date} (ha : a.Valid) (hb : b.Valid) : a.ordinal ≤ b.ordinal ↔ ¬ b.lt a := by
  rw [← ordinal_lt_iff hb ha]; omega

theorem startOf_spec {ws : WeekState} (hw : WeekOk ws) {u : Interval} (hu : u ≠ .unknown) {d : Date}
    (hd : d.Valid) : ∃ a, startOf ws u d = .ok ⟨a, 0⟩ ∧ a.Valid ∧
      ∀ d' : Date, d'.Valid → (a.ordinal ≤ d'.ordinal ↔ period ws.starts u d ≤ period ws.starts u d') := by
  obtain ⟨s0, s6, se⟩ := hw
  have hd' := hd
  obtain ⟨h1, h2, h3, h4⟩ := hd
  cases u with
  | unknown => exact absurd rfl hu
  | day => exact ⟨d, rfl, hd', fun d' _ => Iff.rfl⟩
  | week =>
    have ew2 : d.weekday = (d.ordinal + 6) % 7 := rfl
    by_cases h : d.weekday = ws.starts
    · refine ⟨d, by simp [startOf, h], hd', fun d' _ => ?_⟩
      unfold period; simp only; omega
    · have := prevWeekday_spec ws.starts s0 s6 7 d hd' (by omega) (by push_cast; omega)
      refine ⟨prevWeekday ws.starts 7 d, by simp [startOf, h], this.1, fun d' _ => ?_⟩
      rw [this.2]
      unfold period; simp only; omega
  | month =>
    have hv : (⟨d.year, d.month, 1⟩ : Date).Valid :=
      ⟨h1, h2, by simp, by have := dim_bounds d.year d.month; simp only; omega⟩
    refine ⟨_, rfl, hv, fun d' hd' => ?_⟩
    rw [ordinal_le_iff hv hd']
    obtain ⟨k1, k2, k3, k4⟩ := hd'
    unfold Date.lt period; simp only; omega
  | quarter =>
    have hv : (⟨d.year, d.quarter * 3 - 2, 1⟩ : Date).Valid := by
      have := dim_bounds d.year (d.quarter * 3 - 2)
      unfold Date.quarter at *
      exact ⟨by simp only; omega, by simp only; omega, by simp, by simp only; omega⟩
    refine ⟨_, rfl, hv, fun d' hd' => ?_⟩
    rw [ordinal_le_iff hv hd']
    obtain ⟨k1, k2, k3, k4⟩ := hd'
    unfold Date.lt period Date.quarter; simp only; omega
  | year =>
    have hv : (⟨d.year, 1, 1⟩ : Date).Valid :=
      ⟨by simp, by simp, by simp, by have := dim_bounds d.year 1; simp only; omega⟩
    refine ⟨_, rfl, hv, fun d' hd' => ?_⟩
    rw [ordinal_le_iff hv hd']
    obtain ⟨k1, k2, k3, k4⟩ := hd'
    unfold Date.lt period; simp only; omega

/-- The time of day a window of this unit ends at. -/
def endSec (u : Interval) : ℤ := if u = .quarter then 0 else 86399

theorem endOf_spec {ws : WeekState} (hw : WeekOk ws) {u : Interval} (hu : u ≠ .unknown) {d : Date}
    (hd : d.Valid) : ∃ b, endOf ws u d = .ok ⟨b, endSec u⟩ ∧ b.Valid ∧
      ∀ d' : Date, d'.Valid → (d'.ordinal ≤ b.ordinal ↔ period ws.starts u d' ≤ period ws.starts u d) := by
  obtain ⟨s0, s6, se⟩ := hw
  have hd' := hd
  obtain ⟨h1, h2, h3, h4⟩ := hd
  cases u with
  | unknown => exact absurd rfl hu
  | day => exact ⟨d, rfl, hd', fun d' _ => Iff.rfl⟩
  | week =>
    have ew2 : d.weekday = (d.ordinal + 6) % 7 := rfl
    by_cases h : d.weekday = ws.ends
    · refine ⟨d, by simp [endOf, h, endSec], hd', fun d' _ => ?_⟩
      unfold period; simp only; omega
    · have := nextWeekday_spec ws.ends (by omega) (by omega) 7 d hd' (by omega) (by push_cast; omega)
      refine ⟨nextWeekday ws.ends 7 d, by simp [endOf, h, endSec], this.1, fun d' _ => ?_⟩
      rw [this.2]
      unfold period; simp only; omega
  | month =>
    have hv : (⟨d.year, d.month, daysInMonth d.year d.month⟩ : Date).Valid :=
      ⟨h1, h2, by have := dim_bounds d.year d.month; simp only; omega, by simp⟩
    refine ⟨_, rfl, hv, fun d' hd' => ?_⟩
    rw [ordinal_le_iff hd' hv]
    obtain ⟨k1, k2, k3, k4⟩ := hd'
    have e : d'.year = d.year ∧ d'.month = d.month → d'.day ≤ daysInMonth d.year d.month := by
      rintro ⟨a, b⟩; rw [a, b] at k4; exact k4
    unfold Date.lt period; simp only
    by_cases c : d'.year = d.year ∧ d'.month = d.month
    · have := e c; omega
    · omega
  | quarter =>
    have hv : (⟨d.year, d.quarter * 3, daysInMonth d.year (d.quarter * 3)⟩ : Date).Valid := by
      have := dim_bounds d.year (d.quarter * 3)
      unfold Date.quarter at *
      exact ⟨by simp only; omega, by simp only; omega, by simp only; omega, by simp⟩
    refine ⟨_, rfl, hv, fun d' hd' => ?_⟩
    rw [ordinal_le_iff hd' hv]
    obtain ⟨k1, k2, k3, k4⟩ := hd'
    have e : d'.year = d.year ∧ d'.month = d.quarter * 3 → d'.day ≤ daysInMonth d.year (d.quarter * 3) := by
      rintro ⟨a, b⟩; rw [a, b] at k4; exact k4
    have eq : d.quarter = (d.month - 1) / 3 + 1 := rfl
    unfold Date.lt period; simp only
    by_cases c : d'.year = d.year ∧ d'.month = d.quarter * 3
    · have := e c; omega
    · omega
  | year =>
    have e31 : daysInMonth d.year 12 = 31 := by simp [daysInMonth]
    have hv : (⟨d.year, 12, 31⟩ : Date).Valid := ⟨by simp, by simp, by simp, by simp [e31]⟩
    refine ⟨_, rfl, hv, fun d' hd' => ?_⟩
    rw [ordinal_le_iff hd' hv]
    obtain ⟨k1, k2, k3, k4⟩ := hd'
    have := dim_bounds d'.year d'.month
    unfold Date.lt period; simp only; omega

theorem shift_spec (first : ℤ) {u : Interval} (hu : u ≠ .unknown) {d : Date} (hd : d.Valid) (n : ℤ) :
    ∃ d', shift u n d = .ok d' ∧ d'.Valid ∧ period first u d' = period first u d + n := by
  cases u with
  | unknown => exact absurd rfl hu
  | day => exact ⟨_, rfl, (addDays_spec hd n).1, (addDays_spec hd n).2⟩
  | week =>
    refine ⟨_, rfl, (addDays_spec hd _).1, ?_⟩
    unfold period; simp only; rw [(addDays_spec hd _).2]; omega
  | month =>
    refine ⟨_, rfl, (addMonths_spec hd n).1, ?_⟩
    unfold period; simp only; exact (addMonths_spec hd n).2
  | quarter =>
    obtain ⟨v, e⟩ := addMonths_spec hd (3 * n)
    refine ⟨_, rfl, v, ?_⟩
    obtain ⟨a1, a2, _, _⟩ := v
    obtain ⟨b1, b2, _, _⟩ := hd
    unfold period; simp only; omega
  | year =>
    obtain ⟨v, e⟩ := addMonths_spec hd (12 * n)
    refine ⟨_, rfl, v, ?_⟩
    obtain ⟨a1, a2, _, _⟩ := v
    obtain ⟨b1, b2, _, _⟩ := hd
    unfold period; simp only; omega

theorem startDate_spec {ws : WeekState} (hw : WeekOk ws) {u : Interval} (hu : u ≠ .unknown) {now : DateTime}
    (hn : now.Valid) (lag : ℤ) : ∃ a, startDate ws now lag u = .ok ⟨a, 0⟩ ∧ a.Valid ∧
      ∀ d' : Date, d'.Valid →
        (a.ordinal ≤ d'.ordinal ↔ period ws.starts u now.date - lag ≤ period ws.starts u d') := by
  obtain ⟨d, h1, h2, h3⟩ := shift_spec ws.starts hu hn.date (-lag)
  obtain ⟨a, k1, k2, k3⟩ := startOf_spec hw hu h2
  refine ⟨a, by unfold startDate; rw [h1]; exact k1, k2, fun d' hd' => ?_⟩
  rw [k3 d' hd', h3, sub_eq_add_neg]

theorem endDate_spec {ws : WeekState} (hw : WeekOk ws) {u : Interval} (hu : u ≠ .unknown) {now : DateTime}
    (hn : now.Valid) (lag : ℤ) : ∃ b, endDate ws now lag u = .ok ⟨b, endSec u⟩ ∧ b.Valid ∧
      ∀ d' : Date, d'.Valid →
        (d'.ordinal ≤ b.ordinal ↔ period ws.starts u d' ≤ period ws.starts u now.date - lag) := by
  obtain ⟨d, h1, h2, h3⟩ := shift_spec ws.starts hu hn.date (-lag)
  obtain ⟨b, k1, k2, k3⟩ := endOf_spec hw hu h2
  refine ⟨b, by unfold endDate; rw [h1]; exact k1, k2, fun d' hd' => ?_⟩
  rw [k3 d' hd', h3, sub_eq_add_neg]

theorem addToEndDate_spec {ws : WeekState} (hw : WeekOk ws) {u : Interval} (hu : u ≠ .unknown) {t : DateTime}
    (hn : t.date.Valid) (lag : ℤ) : ∃ b, addToEndDate ws t lag u = .ok ⟨b, endSec u⟩ ∧ b.Valid ∧
      ∀ d' : Date, d'.Valid →
        (d'.ordinal ≤ b.ordinal ↔ period ws.starts u d' ≤ period ws.starts u t.date + lag) := by
  obtain ⟨d, h1, h2, h3⟩ := shift_spec ws.starts hu hn lag
  obtain ⟨b, k1, k2, k3⟩ := endOf_spec hw hu h2
  refine ⟨b, by unfold addToEndDate; rw [h1]; exact k1, k2, fun d' hd' => ?_⟩
  rw [k3 d' hd', h3]

/-! ### Order of date-times -/

theorem notAfter_start {a : Date} {t : DateTime} (ha : a.Valid) (ht : t.Valid) :
    NotAfter ⟨a, 0⟩ t ↔ a.ordinal ≤ t.date.ordinal := by
  unfold NotAfter
  have h0 := ht.s0
  rw [← ordinal_lt_iff ha ht.date]
  constructor
  · rintro (h | ⟨h, _⟩)
    · omega
    · simp only at h; rw [h]
  · intro h
    rcases (show a.ordinal < t.date.ordinal ∨ a.ordinal = t.date.ordinal by omega) with k | k
    · exact .inl k
    · exact .inr ⟨ordinal_inj ha ht.date k, h0⟩

theorem notAfter_end {b : Date} {t : DateTime} (hb : b.Valid) (ht : t.Valid) :
    NotAfter t ⟨b, 86399⟩ ↔ t.date.ordinal ≤ b.ordinal := by
  unfold NotAfter
  have h1 := ht.s1
  rw [← ordinal_lt_iff ht.date hb]
  constructor
  · rintro (h | ⟨h, _⟩)
    · omega
    · simp only at h; rw [h]
  · intro h
    rcases (show t.date.ordinal < b.ordinal ∨ t.date.ordinal = b.ordinal by omega) with k | k
    · exact .inl k
    · exact .inr ⟨ordinal_inj ht.date hb k, by simp only; omega⟩

theorem notAfter_midnight {b : Date} {t : DateTime} (hb : b.Valid) (ht : t.Valid) :
    NotAfter t ⟨b, 0⟩ ↔ t.date.ordinal < b.ordinal ∨ (t.date = b ∧ t.sec = 0) := by
  unfold NotAfter
  have h0 := ht.s0
  rw [← ordinal_lt_iff ht.date hb]
  constructor
  · rintro (h | ⟨h, k⟩)
    · exact .inl h
    · exact .inr ⟨h, by simp only at k; omega⟩
  · rintro (h | ⟨h, k⟩)
    · exact .inl h
    · exact .inr ⟨h, by simp only; omega⟩

/-! ### Regular expressions on phrases that begin with a number -/

theorem digit_not_space {c : Char} (h : isDigitChar c = true) : isSpace c = false := by
  cases hs : isSpace c with
  | false => rfl
  | true =>
    unfold isSpace at hs
    simp only [Bool.or_eq_true, decide_eq_true_eq] at hs
    rcases hs with ((rfl | rfl) | rfl) | rfl <;> exact absurd h (by decide)

/-- Only the whole number can be followed by a space. -/
theorem digits_then {β : Type} (f : List Char → List Char → Matches β)
    (hf : ∀ n c r, isDigitChar c = true → f n (c :: r) = []) (r : List Char)
    (hr : ∀ c r', r = c :: r' → isDigitChar c = false) :
    ∀ (ds : List Char), ds ≠ [] → (∀ c ∈ ds, isDigitChar c = true) →
      ∀ pre : List Char, ((reDigits (ds ++ r)).flatMap (fun m => f (pre ++ m.1) m.2)) = f (pre ++ ds) r
  | [], h, _, _ => absurd rfl h
  | [c], _, hd, pre => by
    have hc := hd c (by simp)
    unfold reDigits
    simp only [List.cons_append, List.nil_append, rePlus, hc, if_true]
    have : rePlus isDigitChar r = [] := by
      cases r with
      | nil => rfl
      | cons x xs => simp [rePlus, hr x xs rfl]
    simp [this]
  | c :: d :: ds, _, hd, pre => by
    have hc := hd c (by simp)
    have ih := digits_then f hf r hr (d :: ds) (by simp) (fun x hx => hd x (by simp [hx])) (pre ++ [c])
    unfold reDigits at ih ⊢
    rw [List.cons_append, rePlus, if_pos hc]
    rw [List.flatMap_append, List.flatMap_map]
    simp only [List.append_assoc, List.singleton_append] at ih
    simp only
    rw [ih]
    simp [hf _ d (ds ++ r) (hd d (by simp))]

theorem lit_digit (w : List Char) (c : Char) (hw : w.head?.any isDigitChar = false) (hne : w ≠ [])
    (hc : isDigitChar c = true) (r : List Char) : reLit w (c :: r) = [] := by
  cases w with
  | nil => exact absurd rfl hne
  | cons x xs =>
    have : isDigitChar x = false := by simpa using hw
    unfold reLit
    have hx : (x == c) = false := by
      cases h : x == c with
      | false => rfl
      | true => rw [beq_iff_eq] at h; subst h; rw [this] at hc; cases hc
    simp [List.isPrefixOf, hx]

theorem spaces_digit (c : Char) (hc : isDigitChar c = true) (r : List Char) : reSpaces (c :: r) = [] := by
  simp [reSpaces, rePlus, digit_not_space hc]

theorem interval_digit (c : Char) (hc : isDigitChar c = true) (r : List Char) : reInterval (c :: r) = [] := by
  unfold reInterval
  rw [List.flatMap_eq_nil_iff]
  intro w hw
  have h1 : ∀ w ∈ intervalWords, w.1.head?.any isDigitChar = false ∧ w.1 ≠ [] := by decide
  obtain ⟨h, h2⟩ := h1 w hw
  rw [lit_digit w.1 c h h2 hc, List.map_nil]

theorem then_nil {α β : Type} (a : List Char → Matches α) (f : α → List Char → Matches β) (s : List Char)
    (h : a s = []) : reThen a f s = [] := by simp [reThen, h]

/-- `\d+\s+ …` on a number followed by the text `r`. -/
theorem digits_spaces_then {β : Type} (g : List Char → List Char → List Char → Matches β) (ds r : List Char)
    (hd : IsNumber ds) (hr : ∀ c r', r = c :: r' → isDigitChar c = false) :
    reThen reDigits (fun n => reThen reSpaces (g n)) (ds ++ r) = reThen reSpaces (g ds) r := by
  have := digits_then (fun n s => reThen reSpaces (g n) s)
    (fun n c r hc => then_nil _ _ _ (spaces_digit c hc r)) r hr ds hd.1 hd.2 []
  simpa [reThen] using this

/-- No match begins inside the number, so the search goes on after it. -/
theorem search_digits {α : Type} (p : List Char → Matches α) (r : List Char) :
    ∀ ds : List Char, (∀ c ∈ ds, isDigitChar c = true) →
      (∀ ds' : List Char, IsNumber ds' → p (ds' ++ r) = []) → reSearch p (ds ++ r) = reSearch p r
  | [], _, _ => rfl
  | c :: ds, hd, hp => by
    have h := hp (c :: ds) ⟨by simp, hd⟩
    rw [List.cons_append] at h ⊢
    rw [reSearch, h]
    exact search_digits p r ds (fun x hx => hd x (by simp [hx])) hp

theorem search_cons {α : Type} (p : List Char → Matches α) (s : List Char) (hs : s ≠ []) (m : α × List Char)
    (ms : Matches α) (h : p s = m :: ms) : reSearch p s = some m.1 := by
  cases s with
  | nil => exact absurd rfl hs
  | cons c cs => rw [reSearch, h]

theorem splitFirst_digits (r : List Char) : ∀ ds : List Char, (∀ c ∈ ds, isDigitChar c = true) →
    splitFirst " until ".toList r = none → splitFirst " until ".toList (ds ++ r) = none
  | [], _, h => h
  | c :: ds, hd, h => by
    have ih := splitFirst_digits r ds (fun x hx => hd x (by simp [hx])) h
    rw [List.cons_append, splitFirst]
    have hc := hd c (by simp)
    have e : (" until ".toList).isPrefixOf (c :: (ds ++ r)) = false := by
      show (' ' :: _).isPrefixOf _ = false
      have : (' ' == c) = false := by
        cases h : ' ' == c with
        | false => rfl
        | true => rw [beq_iff_eq] at h; subst h; exact absurd hc (by decide)
      simp [List.isPrefixOf, this]
    rw [e, if_neg (by decide), ih]
    rfl

theorem digit_ne {ds : List Char} (hd : IsNumber ds) {w : List Char}
    (hw : w.head?.any isDigitChar = false) (r : List Char) : ds ++ r ≠ w := by
  obtain ⟨h1, h2⟩ := hd
  cases ds with
  | nil => exact absurd rfl h1
  | cons c cs =>
    intro e
    rw [← e] at hw
    simp [h2 c (by simp)] at hw

theorem number_ne {ds : List Char} (hd : IsNumber ds) {w : List Char}
    (hw : w.head?.any isDigitChar = false) : ds ≠ w := by
  have := digit_ne hd hw []
  simpa using this

end ML
