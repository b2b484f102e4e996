import Verif.FilterStr.Lemmas
import Mathlib.Data.List.Infix
import Verif.Dates.Props
/-
C23: filter strings are classified deterministically. C25: the process-wide week start. C26: filtered
measures. C51: string literals.
-/
set_option autoImplicit false
namespace ML
open Spec

/-! ### C23 -/

section
variable (num : ToNumeric) (now : DateTime) (week : Option String) (st : WeekState)

theorem filterDict_str (s : List Char) (hs : s ≠ []) (date : Option Window)
    (hd : parseDateCondition (weekStateFor week) now s = .ok date) :
    (filterDict num now week (.str s) st).1 = stringComparison num date s := by
  cases s with
  | nil => exact absurd rfl hs
  | cons c cs => simp only [filterDict, setWeek, hd]

theorem noDay_iff (s : List Char) :
    (firstWord s ∈ ["after".toList, "before".toList, "on".toList] ∨ firstTwoWords s = "not on".toList) ↔
      ∃ w ∈ ["after".toList, "before".toList, "on".toList, "not on".toList], BeginsWith w s := by
  have h1 := firstWord_iff "after".toList (by decide) s
  have h2 := firstWord_iff "before".toList (by decide) s
  have h3 := firstWord_iff "on".toList (by decide) s
  have h4 : firstTwoWords s = "not on".toList ↔ BeginsWith "not on".toList s :=
    firstTwoWords_iff "not".toList "on".toList (by decide) (by decide) s
  constructor
  · rintro (h | h)
    · rcases List.mem_cons.mp h with h | h
      · exact ⟨_, by simp, h1.mp h⟩
      rcases List.mem_cons.mp h with h | h
      · exact ⟨_, by simp, h2.mp h⟩
      rcases List.mem_cons.mp h with h | h
      · exact ⟨_, by simp, h3.mp h⟩
      · cases h
    · exact ⟨_, by simp, h4.mp h⟩
  · rintro ⟨w, hw, hb⟩
    rcases List.mem_cons.mp hw with rfl | hw
    · exact .inl (by rw [h1.mpr hb]; simp)
    rcases List.mem_cons.mp hw with rfl | hw
    · exact .inl (by rw [h2.mpr hb]; simp)
    rcases List.mem_cons.mp hw with rfl | hw
    · exact .inl (by rw [h3.mpr hb]; simp)
    rcases List.mem_cons.mp hw with rfl | hw
    · exact .inr (h4.mpr hb)
    · cases hw

/-- The branches that remain for an ordinary string. -/
theorem ordinary_comparison (s : List Char) : Ordinary (weekStateFor week) now s →
    (filterDict num now week (.str s) st).1 =
      match twoSymbols s with
      | some (e, r) => (numericComparison num e r).map ([·])
      | none =>
        match oneSymbol s with
        | some (e, r) => (numericComparison num e r).map ([·])
        | none =>
          match s with
          | '-' :: r => (negatedComparison r).map ([·])
          | _ => .ok [plainComparison s] := by
  rintro ⟨h1, h2, h3, h4, h5⟩
  rw [filterDict_str num now week st s h1 none h3]
  simp only [List.mem_cons, List.not_mem_nil, or_false, not_or] at h2
  unfold stringComparison
  rw [if_neg h2.1, if_neg h2.2.1, if_neg h2.2.2.1, if_neg h2.2.2.2]
  simp only
  rw [if_neg (fun c => by obtain ⟨w, hw, hb⟩ := (noDay_iff s).mp c; exact h4 w hw hb)]
  rw [if_neg (fun c => h5 ((splitComma_length s).mp c))]
  rfl

theorem unsigned_symbols (s : List Char) (h : Unsigned s) : twoSymbols s = none ∧ oneSymbol s = none ∧
    (∀ r, s ≠ '-' :: r) := by
  obtain ⟨h1, h2⟩ := h
  have n1 : ∀ r, s ≠ '=' :: r := fun r e => h1 '=' (by decide) (by rw [e]; rfl)
  have n2 : ∀ r, s ≠ '<' :: r := fun r e => h1 '<' (by decide) (by rw [e]; rfl)
  have n3 : ∀ r, s ≠ '>' :: r := fun r e => h1 '>' (by decide) (by rw [e]; rfl)
  have n4 : ∀ r, s ≠ '-' :: r := fun r e => h1 '-' (by decide) (by rw [e]; rfl)
  have n5 : ∀ r, s ≠ '!' :: '=' :: r := fun r e => h2 ⟨r, e.symm⟩
  refine ⟨?_, ?_, n4⟩
  · unfold twoSymbols
    split
    · exact absurd rfl (n2 _)
    · exact absurd rfl (n3 _)
    · exact absurd rfl (n2 _)
    · exact absurd rfl (n5 _)
    · rfl
  · unfold oneSymbol
    split
    · exact absurd rfl (n1 _)
    · exact absurd rfl (n3 _)
    · exact absurd rfl (n2 _)
    · rfl

theorem ordinary_unsigned (s : List Char) (h : Ordinary (weekStateFor week) now s) (hu : Unsigned s) :
    (filterDict num now week (.str s) st).1 = .ok [plainComparison s] := by
  rw [ordinary_comparison num now week st s h]
  obtain ⟨a, b, c⟩ := unsigned_symbols s hu
  rw [a, b]
  simp only

/-- A minus in front of an ordinary string leaves it ordinary. -/
theorem ordinary_minus (ws : WeekState) (s : List Char) (h : Ordinary ws now s) : Ordinary ws now ('-' :: s) := by
  obtain ⟨h1, h2, h3, h4, h5⟩ := h
  refine ⟨by simp, ?_, noDate_minus ws now s h3, ?_, ?_⟩
  · simp only [List.mem_cons, List.not_mem_nil, or_false, not_or] at h2 ⊢
    refine ⟨?_, ?_, ?_, ?_⟩
    · intro c; injection c with c _; exact absurd c (by decide)
    · intro c; injection c with _ c; exact h2.1 c
    · intro c; injection c with c _; exact absurd c (by decide)
    · intro c; injection c with c _; exact absurd c (by decide)
  · intro w hw hb
    have : ∃ c cs, w = c :: cs ∧ c ≠ '-' := by
      simp only [List.mem_cons, List.not_mem_nil, or_false] at hw
      rcases hw with rfl | rfl | rfl | rfl <;> exact ⟨_, _, rfl, by decide⟩
    obtain ⟨c, cs, rfl, hc⟩ := this
    rcases hb with e | e
    · injection e with e _; exact hc e.symm
    · rw [List.cons_append, List.cons_prefix_cons] at e; exact hc e.1
  · intro c
    rcases List.infix_cons_iff.mp c with c | c
    · rw [List.cons_prefix_cons] at c; exact absurd c.1 (by decide)
    · exact h5 c

/-- C23 (a): the words for null and the booleans, and the values themselves. -/
theorem C23_null_bool (hd : ∀ s, s ∈ ["NULL".toList, "-NULL".toList, "TRUE".toList, "FALSE".toList] →
      parseDateCondition (weekStateFor week) now s = .ok none) :
    (filterDict num now week (.str "NULL".toList) st).1 = .ok [⟨.isNull, .none⟩] ∧
    (filterDict num now week .null st).1 = .ok [⟨.isNull, .none⟩] ∧
    (filterDict num now week (.str "-NULL".toList) st).1 = .ok [⟨.isNotNull, .none⟩] ∧
    ∀ b, (filterDict num now week (.str (if b then "TRUE".toList else "FALSE".toList)) st).1 =
        .ok [⟨.equalTo, .bool b⟩] ∧
      (filterDict num now week (.bool b) st).1 = .ok [⟨.equalTo, .bool b⟩] := by
  refine ⟨?_, rfl, ?_, fun b => ⟨?_, rfl⟩⟩
  · rw [filterDict_str num now week st _ (by decide) _ (hd _ (by simp))]; rfl
  · rw [filterDict_str num now week st _ (by decide) _ (hd _ (by simp))]; rfl
  · cases b <;> rw [filterDict_str num now week st _ (by decide) _ (hd _ (by simp))] <;> rfl

/-- The hypothesis of (a) holds on every date. -/
theorem special_no_date (ws : WeekState) (s : List Char)
    (h : s ∈ ["NULL".toList, "-NULL".toList, "TRUE".toList, "FALSE".toList]) :
    parseDateCondition ws now s = .ok none := by
  simp only [List.mem_cons, List.not_mem_nil, or_false] at h
  have base : ∀ s : List Char, splitFirst " until ".toList s = none → s ≠ "today".toList → s ≠ "yesterday".toList →
      reSearch reAgoFor s = none → reSearch reNIntervalModifier s = none → reSearch reNInterval s = none →
      parseDateCondition ws now s = .ok none := by
    intro s e1 e2 e3 e4 e5 e6
    unfold parseDateCondition
    rw [e1]
    simp only
    unfold parseSimple
    rw [if_neg e2, if_neg e3]
    unfold parseAgoFor parseNIntervalModifier parseNInterval
    rw [e4, e5, e6]
  rcases h with rfl | rfl | rfl | rfl <;> apply base <;> decide

/-- C23 (b): an ordinary string without signs or `%` at the ends is compared for equality as it stands;
`%v%`, `v%` and `%v` ask whether the text contains, begins or ends with `v`. -/
theorem C23_plain (v : List Char) :
    (Ordinary (weekStateFor week) now v → Unsigned v → v.head? ≠ some '%' → v.getLast? ≠ some '%' →
      (filterDict num now week (.str v) st).1 = .ok [⟨.equalTo, .text v⟩]) ∧
    (Ordinary (weekStateFor week) now ('%' :: v ++ ['%']) →
      (filterDict num now week (.str ('%' :: v ++ ['%'])) st).1 = .ok [⟨.containsCI, .text v⟩]) ∧
    (Ordinary (weekStateFor week) now (v ++ ['%']) → Unsigned (v ++ ['%']) → v ≠ [] → v.head? ≠ some '%' →
      (filterDict num now week (.str (v ++ ['%'])) st).1 = .ok [⟨.startsWithCI, .text v⟩]) ∧
    (Ordinary (weekStateFor week) now ('%' :: v) → v ≠ [] → v.getLast? ≠ some '%' →
      (filterDict num now week (.str ('%' :: v)) st).1 = .ok [⟨.endsWithCI, .text v⟩]) := by
  have up : ∀ t, Unsigned ('%' :: t) := fun t => by
    refine ⟨?_, ?_⟩
    · intro c hc e
      simp only [List.head?_cons, Option.some.injEq] at e
      subst e
      revert hc; decide
    · intro c
      rw [List.cons_prefix_cons] at c
      exact absurd c.1 (by decide)
  refine ⟨fun h hu h1 h2 => ?_, fun h => ?_, fun h hu hne h1 => ?_, fun h hne h2 => ?_⟩
  · rw [ordinary_unsigned num now week st v h hu]
    simp [plainComparison, startsPercent, endsPercent, h1, h2]
  · rw [ordinary_unsigned num now week st _ h (by simpa using up (v ++ ['%']))]
    have e1 : endsPercent ('%' :: v ++ ['%']) = true := by
      unfold endsPercent
      rw [List.getLast?_append]
      rfl
    unfold plainComparison
    rw [e1]
    simp [startsPercent]
  · rw [ordinary_unsigned num now week st _ h hu]
    have e0 : startsPercent (v ++ ['%']) = false := by
      cases v with
      | nil => exact absurd rfl hne
      | cons a as => simpa [startsPercent] using h1
    have e1 : endsPercent (v ++ ['%']) = true := by simp [endsPercent]
    simp [plainComparison, e0, e1]
  · rw [ordinary_unsigned num now week st _ h (up v)]
    have e1 : endsPercent ('%' :: v) = false := by
      unfold endsPercent
      rw [List.getLast?_cons]
      cases hv : v.getLast? with
      | none => exact absurd (List.getLast?_eq_none_iff.mp hv) hne
      | some x => rw [hv] at h2; simpa using h2
    simp [plainComparison, startsPercent, e1]

theorem low_append (a b : List Char) : low (a ++ b) = low a ++ low b := by simp [low]

theorem toLower_wild {c w : Char} (hw : w = '%' ∨ w = '_') (h : c.toLower = w) : c = w := by
  unfold Char.toLower at h
  split at h
  · rename_i hc
    exfalso
    have : (c.val + ('a'.val - 'A'.val)).toNat = w.toNat := by rw [← h]; rfl
    rcases hw with rfl | rfl
    · have h1 : c.val.toNat ≤ 90 := by
        have := hc.2
        exact this
      have h2 : 65 ≤ c.val.toNat := hc.1
      have e : (c.val + ('a'.val - 'A'.val)).toNat = c.val.toNat + 32 := by
        rw [UInt32.toNat_add]
        have : ('a'.val - 'A'.val).toNat = 32 := by decide
        rw [this]
        omega
      rw [e] at this
      have : c.val.toNat + 32 = 37 := this
      omega
    · have h1 : c.val.toNat ≤ 90 := hc.2
      have h2 : 65 ≤ c.val.toNat := hc.1
      have e : (c.val + ('a'.val - 'A'.val)).toNat = c.val.toNat + 32 := by
        rw [UInt32.toNat_add]
        have : ('a'.val - 'A'.val).toNat = 32 := by decide
        rw [this]
        omega
      rw [e] at this
      have : c.val.toNat + 32 = 95 := this
      omega
  · exact h

theorem noWildcard_low {v : List Char} (h : NoWildcard v) : NoWildcard (low v) := by
  obtain ⟨h1, h2⟩ := h
  constructor
  · intro c
    obtain ⟨x, hx, e⟩ := List.mem_map.mp c
    have := toLower_wild (.inl rfl) e
    subst this; exact h1 hx
  · intro c
    obtain ⟨x, hx, e⟩ := List.mem_map.mp c
    have := toLower_wild (.inr rfl) e
    subst this; exact h2 hx

theorem like_literal (v : List Char) (hv : NoWildcard v) (p x : List Char) :
    like (v ++ p) x = true ↔ ∃ r, x = v ++ r ∧ like p r = true := by
  induction v generalizing x with
  | nil => simp
  | cons c cs ih =>
    have hc : c ≠ '%' := fun e => hv.1 (by simp [e])
    have hc' : c ≠ '_' := fun e => hv.2 (by simp [e])
    have ih := ih ⟨fun c => hv.1 (by simp [c]), fun c => hv.2 (by simp [c])⟩
    rw [List.cons_append, like.eq_def]
    simp only [if_neg hc]
    cases x with
    | nil => simp
    | cons y ys =>
      simp only [Bool.and_eq_true, Bool.or_eq_true, decide_eq_true_eq, ih]
      constructor
      · rintro ⟨h | rfl, r, rfl, hr⟩
        · exact absurd h hc'
        · exact ⟨r, rfl, hr⟩
      · rintro ⟨r, e, hr⟩
        injection e with e1 e2
        exact ⟨.inr e1.symm, r, e2, hr⟩

theorem like_any (x : List Char) : like ['%'] x = true := by
  rw [like.eq_def]
  simp only [if_true, List.any_eq_true]
  exact ⟨[], (List.mem_tails _ _).mpr (List.nil_suffix), by simp [like]⟩

theorem like_percent (p x : List Char) : like ('%' :: p) x = true ↔ ∃ t, t <:+ x ∧ like p t = true := by
  rw [like.eq_def]
  simp only [if_true, List.any_eq_true]
  simp only [List.mem_tails]

/-- C23 (c): what these comparisons say of a text, ignoring case. -/
theorem C23_meaning (v : List Char) (hv : NoWildcard v) (x : List Char) :
    (holds ⟨.containsCI, .text v⟩ x = some true ↔ low v <:+: low x) ∧
    (holds ⟨.startsWithCI, .text v⟩ x = some true ↔ low v <+: low x) ∧
    (holds ⟨.endsWithCI, .text v⟩ x = some true ↔ low v <:+ low x) ∧
    (holds ⟨.equalTo, .text v⟩ x = some true ↔ x = v) := by
  have hp : low ['%'] = ['%'] := by decide
  have hl := noWildcard_low hv
  refine ⟨?_, ?_, ?_, ?_⟩
  · simp only [holds, Option.some.injEq]
    rw [List.cons_append, show low ('%' :: (v ++ ['%'])) = '%' :: (low v ++ ['%']) by
      rw [← hp, ← low_append]; rfl]
    rw [like_percent]
    constructor
    · rintro ⟨t, ⟨a, ha⟩, h⟩
      obtain ⟨r, hr, _⟩ := (like_literal _ hl _ _).mp h
      exact ⟨a, r, by rw [← ha, hr, List.append_assoc]⟩
    · rintro ⟨a, r, h⟩
      exact ⟨low v ++ r, ⟨a, by rw [← h, List.append_assoc]⟩, (like_literal _ hl _ _).mpr ⟨r, rfl, like_any r⟩⟩
  · simp only [holds, Option.some.injEq]
    rw [low_append, hp, like_literal _ hl]
    constructor
    · rintro ⟨r, hr, _⟩; exact ⟨r, hr.symm⟩
    · rintro ⟨r, hr⟩; exact ⟨r, hr.symm, like_any r⟩
  · simp only [holds, Option.some.injEq]
    rw [show low ('%' :: v) = '%' :: low v from rfl, like_percent]
    constructor
    · rintro ⟨t, ht, h⟩
      have := (like_literal (low v) hl [] t).mp (by simpa using h)
      obtain ⟨r, hr, h0⟩ := this
      have : r = [] := by simpa [like] using h0
      subst this
      rw [List.append_nil] at hr
      rw [← hr]; exact ht
    · intro h
      refine ⟨low v, h, ?_⟩
      have := (like_literal (low v) hl [] (low v)).mpr ⟨[], by simp, by simp [like]⟩
      simpa using this
  · simp [holds]

/-- C23 (d): prefixing a plain or pattern value with "-" gives the complementary comparison on the same
operand, for every text it is compared with. -/
theorem C23_negated (s : List Char) (h : Ordinary (weekStateFor week) now s) (hu : Unsigned s) :
    ∃ c c', (filterDict num now week (.str s) st).1 = .ok [c] ∧
      (filterDict num now week (.str ('-' :: s)) st).1 = .ok [c'] ∧ c'.value = c.value ∧
      (∀ x, holds c x ≠ none) ∧ ∀ x, holds c' x = (holds c x).map (!·) := by
  have hm : (filterDict num now week (.str ('-' :: s)) st).1 = (negatedComparison s).map ([·]) := by
    rw [ordinary_comparison num now week st _ (ordinary_minus now _ s h)]
    rfl
  rw [hm, ordinary_unsigned num now week st s h hu]
  have hne := h.nonempty
  obtain ⟨a, as, rfl⟩ := List.exists_cons_of_ne_nil hne
  have he : endsPercent ('-' :: a :: as) = endsPercent (a :: as) := by
    simp [endsPercent, List.getLast?_cons]
  unfold negatedComparison plainComparison
  simp only [he]
  cases h1 : startsPercent (a :: as) <;> cases h2 : endsPercent (a :: as)
  · exact ⟨_, _, rfl, rfl, rfl, by intro x; simp [holds], by intro x; simp [holds]⟩
  · exact ⟨_, _, rfl, rfl, rfl, by intro x; simp [holds], by intro x; simp [holds]⟩
  · exact ⟨_, _, rfl, rfl, rfl, by intro x; simp [holds], by intro x; simp [holds]⟩
  · exact ⟨_, _, rfl, rfl, rfl, by intro x; simp [holds], by intro x; simp [holds]⟩

/-- A comma list that is no special word, date phrase or day. -/
def ListText (ws : WeekState) (s : List Char) : Prop :=
  s ∉ ["NULL".toList, "-NULL".toList, "TRUE".toList, "FALSE".toList] ∧
    parseDateCondition ws now s = .ok none ∧
    ∀ w ∈ ["after".toList, "before".toList, "on".toList, "not on".toList], ¬ BeginsWith w s

theorem list_comparison (p q : List Char) (ps : List (List Char))
    (hp : ∀ x ∈ p :: q :: ps, ¬ [',', ' '] <:+: x)
    (hl : ListText now (weekStateFor week) (List.intercalate [',', ' '] (p :: q :: ps))) :
    (filterDict num now week (.str (List.intercalate [',', ' '] (p :: q :: ps))) st).1 =
      (listComparison (p :: q :: ps)).map ([·]) := by
  obtain ⟨h2, h3, h4⟩ := hl
  have hsplit := splitComma_join p (q :: ps) (hp p (by simp)) (fun x hx => hp x (by simp [hx]))
  have hne : List.intercalate [',', ' '] (p :: q :: ps) ≠ [] := by
    intro c
    have := congrArg List.length c
    simp [List.intercalate] at this
  rw [filterDict_str num now week st _ hne none h3]
  simp only [List.mem_cons, List.not_mem_nil, or_false, not_or] at h2
  unfold stringComparison
  rw [if_neg h2.1, if_neg h2.2.1, if_neg h2.2.2.1, if_neg h2.2.2.2]
  simp only
  rw [if_neg (fun c => by obtain ⟨w, hw, hb⟩ := (noDay_iff _).mp c; exact h4 w hw hb), hsplit]
  rw [if_pos (by simp)]

theorem allNegative_true (l : List (List Char)) (h : ∀ x ∈ l, x.head? = some '-') : allNegative l = .ok true := by
  induction l with
  | nil => rfl
  | cons c cs ih =>
    have hc := h c (by simp)
    cases c with
    | nil => cases hc
    | cons a as =>
      have : a = '-' := by simpa using hc
      subst this
      simp only [allNegative, startsNegative, decide_true]
      exact ih (fun x hx => h x (by simp [hx]))

theorem anyNegative_false (l : List (List Char)) (h : ∀ x ∈ l, x ≠ [] ∧ x.head? ≠ some '-') :
    anyNegative l = .ok false := by
  induction l with
  | nil => rfl
  | cons c cs ih =>
    have hc := h c (by simp)
    cases c with
    | nil => exact absurd rfl hc.1
    | cons a as =>
      have : a ≠ '-' := by simpa using hc.2
      simp only [anyNegative, startsNegative, this, decide_false]
      exact ih (fun x hx => h x (by simp [hx]))

theorem allNegative_false (l : List (List Char)) (hne : ∀ x ∈ l, x ≠ []) (h : ∃ x ∈ l, x.head? ≠ some '-') :
    allNegative l = .ok false := by
  induction l with
  | nil => obtain ⟨x, hx, _⟩ := h; cases hx
  | cons c cs ih =>
    have hc := hne c (by simp)
    cases c with
    | nil => exact absurd rfl hc
    | cons a as =>
      by_cases ha : a = '-'
      · subst ha
        simp only [allNegative, startsNegative, decide_true]
        apply ih (fun x hx => hne x (by simp [hx]))
        obtain ⟨x, hx, h2⟩ := h
        rcases List.mem_cons.mp hx with rfl | hx
        · exact absurd rfl h2
        · exact ⟨x, hx, h2⟩
      · simp [allNegative, startsNegative, ha]

theorem anyNegative_true (l : List (List Char)) (hne : ∀ x ∈ l, x ≠ []) (h : ∃ x ∈ l, x.head? = some '-') :
    anyNegative l = .ok true := by
  induction l with
  | nil => obtain ⟨x, hx, _⟩ := h; cases hx
  | cons c cs ih =>
    have hc := hne c (by simp)
    cases c with
    | nil => exact absurd rfl hc
    | cons a as =>
      by_cases ha : a = '-'
      · subst ha
        simp [anyNegative, startsNegative]
      · simp only [anyNegative, startsNegative, ha, decide_false]
        apply ih (fun x hx => hne x (by simp [hx]))
        obtain ⟨x, hx, h2⟩ := h
        rcases List.mem_cons.mp hx with rfl | hx
        · exact absurd (by simpa using h2) ha
        · exact ⟨x, hx, h2⟩

/-- C23 (e): a list "a, b, c" asks for one of its elements; with a "-" before every element it asks for
none of the same elements; with a "-" before some but not all it is rejected. -/
theorem C23_list (p q : List Char) (ps : List (List Char)) (hne : ∀ x ∈ p :: q :: ps, x ≠ [])
    (hp : ∀ x ∈ p :: q :: ps, ¬ [',', ' '] <:+: x)
    (hl : ListText now (weekStateFor week) (List.intercalate [',', ' '] (p :: q :: ps))) :
    ((∀ x ∈ p :: q :: ps, x.head? ≠ some '-') →
      (filterDict num now week (.str (List.intercalate [',', ' '] (p :: q :: ps))) st).1 =
        .ok [⟨.isIn, .texts ((p :: q :: ps).map strip)⟩]) ∧
    ((∀ x ∈ p :: q :: ps, x.head? = some '-') →
      (filterDict num now week (.str (List.intercalate [',', ' '] (p :: q :: ps))) st).1 =
        .ok [⟨.isNotIn, .texts ((p :: q :: ps).map (fun x => strip x.tail))⟩]) ∧
    ((∃ x ∈ p :: q :: ps, x.head? = some '-') → (∃ x ∈ p :: q :: ps, x.head? ≠ some '-') →
      (filterDict num now week (.str (List.intercalate [',', ' '] (p :: q :: ps))) st).1 = .error .query) := by
  rw [list_comparison num now week st p q ps hp hl]
  refine ⟨fun h => ?_, fun h => ?_, fun h1 h2 => ?_⟩
  · have e1 := allNegative_false _ hne ⟨p, by simp, h p (by simp)⟩
    have e2 := anyNegative_false _ (fun x hx => ⟨hne x hx, h x hx⟩)
    unfold listComparison
    rw [e1, e2]
    rfl
  · have e1 := allNegative_true _ h
    unfold listComparison
    rw [e1]
    simp only [Except.map, List.drop_one]
  · have e1 := allNegative_false _ hne h2
    have e2 := anyNegative_true _ hne h1
    unfold listComparison
    rw [e1, e2]
    rfl

/-- C23 (f): the two lists are complementary for every text. -/
theorem C23_list_meaning (l : List (List Char)) (x : List Char) :
    (holds ⟨.isIn, .texts l⟩ x = some true ↔ x ∈ l) ∧
    holds ⟨.isNotIn, .texts l⟩ x = (holds ⟨.isIn, .texts l⟩ x).map (!·) := by
  simp [holds]

/-- The sign a numeric filter begins with, and the comparison it stands for. -/
def numericSigns : List (List Char × Expression) :=
  [(['<', '='], .lessOrEqual), (['>', '='], .greaterOrEqual), (['<', '>'], .notEqualTo), (['!', '='], .notEqualTo),
   (['='], .equalTo), (['>'], .greaterThan), (['<'], .lessThan)]

/-- C23 (g): a sign followed by a number compares with that number; of two signs that both fit, the longer
one counts; a text that is no number is an error. -/
theorem C23_numeric (sign : List Char × Expression) (hs : sign ∈ numericSigns) (r : List Char)
    (hlong : ∀ sign' ∈ numericSigns, sign'.1 <+: sign.1 ++ r → sign'.1.length ≤ sign.1.length)
    (h : Ordinary (weekStateFor week) now (sign.1 ++ r)) :
    (filterDict num now week (.str (sign.1 ++ r)) st).1 =
      match num r with
      | some q => .ok [⟨sign.2, .num q⟩]
      | none => .error .valueError := by
  rw [ordinary_comparison num now week st _ h]
  have one : ∀ c : Char, sign.1 = [c] → (∀ e, e ∈ numericSigns → e.1 <+: sign.1 ++ r → e.1.length ≤ 1) →
      (∀ t, r ≠ '=' :: t ∨ (c ≠ '<' ∧ c ≠ '>')) ∧ (∀ t, r ≠ '>' :: t ∨ c ≠ '<') := by
    intro c hc hl
    constructor
    · intro t
      by_contra hcon
      simp only [not_or, not_not, not_and_or] at hcon
      obtain ⟨rfl, h2⟩ := hcon
      rcases h2 with rfl | rfl
      · have := hl (['<', '='], .lessOrEqual) (by decide) (by rw [hc]; exact ⟨t, rfl⟩)
        simp at this
      · have := hl (['>', '='], .greaterOrEqual) (by decide) (by rw [hc]; exact ⟨t, rfl⟩)
        simp at this
    · intro t
      by_contra hcon
      simp only [not_or, not_not] at hcon
      obtain ⟨rfl, rfl⟩ := hcon
      have := hl (['<', '>'], .notEqualTo) (by decide) (by rw [hc]; exact ⟨t, rfl⟩)
      simp at this
  simp only [numericSigns, List.mem_cons, List.not_mem_nil, or_false] at hs
  rcases hs with rfl | rfl | rfl | rfl | rfl | rfl | rfl
  · simp only [List.cons_append, List.nil_append, twoSymbols, numericComparison]
    cases num r <;> rfl
  · simp only [List.cons_append, List.nil_append, twoSymbols, numericComparison]
    cases num r <;> rfl
  · simp only [List.cons_append, List.nil_append, twoSymbols, numericComparison]
    cases num r <;> rfl
  · simp only [List.cons_append, List.nil_append, twoSymbols, numericComparison]
    cases num r <;> rfl
  · have : twoSymbols ('=' :: r) = none := by
      unfold twoSymbols
      split <;> simp_all
    simp only [List.cons_append, List.nil_append, this, oneSymbol, numericComparison]
    cases num r <;> rfl
  · have hh := one '>' rfl (fun e he hpre => hlong e he hpre)
    have : twoSymbols ('>' :: r) = none := by
      unfold twoSymbols
      split
      · simp_all
      · rename_i t e; injection e with _ e; rcases hh.1 t with h | h
        · exact absurd e h
        · exact absurd rfl h.2
      · simp_all
      · simp_all
      · rfl
    simp only [List.cons_append, List.nil_append, this, oneSymbol, numericComparison]
    cases num r <;> rfl
  · have hh := one '<' rfl (fun e he hpre => hlong e he hpre)
    have : twoSymbols ('<' :: r) = none := by
      unfold twoSymbols
      split
      · rename_i t e; injection e with _ e; rcases hh.1 t with h | h
        · exact absurd e h
        · exact absurd rfl h.1
      · simp_all
      · rename_i t e; injection e with _ e; rcases hh.2 t with h | h
        · exact absurd e h
        · exact absurd rfl h
      · simp_all
      · rfl
    simp only [List.cons_append, List.nil_append, this, oneSymbol, numericComparison]
    cases num r <;> rfl

theorem day_branch (s : List Char) (hs : s ∉ ["NULL".toList, "-NULL".toList, "TRUE".toList, "FALSE".toList])
    (h : firstWord s ∈ ["after".toList, "before".toList, "on".toList] ∨ firstTwoWords s = "not on".toList) :
    stringComparison num none s =
      (parseDateString ((splitChars ' ' s).getLastD [])).map (fun t =>
        [⟨if firstWord s = "after".toList then .greaterOrEqual
          else if firstWord s = "before".toList then .lessOrEqual
          else if firstWord s = "on".toList then .equalTo else .notEqualTo, .time t⟩]) := by
  simp only [List.mem_cons, List.not_mem_nil, or_false, not_or] at hs
  unfold stringComparison
  rw [if_neg hs.1, if_neg hs.2.1, if_neg hs.2.2.1, if_neg hs.2.2.2]
  simp only
  rw [if_pos h]
  cases parseDateString ((splitChars ' ' s).getLastD []) <;> rfl

/-- C23 (h): "after", "before", "on" and "not on" with a day compare with the midnight that begins that
day; the first two include it. -/
theorem C23_day (word : List Char × Expression)
    (hw : word ∈ [("after".toList, Expression.greaterOrEqual), ("before".toList, .lessOrEqual),
      ("on".toList, .equalTo), ("not on".toList, .notEqualTo)])
    (day : List Char) (hs : ' ' ∉ day)
    (hnd : parseDateCondition (weekStateFor week) now (word.1 ++ ' ' :: day) = .ok none) :
    (filterDict num now week (.str (word.1 ++ ' ' :: day)) st).1 =
      (parseDateString day).map (fun t => [⟨word.2, .time t⟩]) := by
  have hne : word.1 ++ ' ' :: day ≠ [] := by simp
  rw [filterDict_str num now week st _ hne none hnd]
  have hlast : splitChars ' ' day = [day] := splitChars_noSep ' ' day hs
  have hspace : ∀ w ∈ ["NULL".toList, "-NULL".toList, "TRUE".toList, "FALSE".toList], ' ' ∉ w := by decide
  have hsp : word.1 ++ ' ' :: day ∉ ["NULL".toList, "-NULL".toList, "TRUE".toList, "FALSE".toList] :=
    fun c => hspace _ c (by simp)
  have one : ∀ w : List Char, ' ' ∉ w → splitChars ' ' (w ++ ' ' :: day) = [w, day] ∧
      firstWord (w ++ ' ' :: day) = w := by
    intro w h
    have e : splitChars ' ' (w ++ ' ' :: day) = [w, day] := by rw [splitChars_append ' ' w day h, hlast]
    exact ⟨e, by unfold firstWord; rw [e]; rfl⟩
  simp only [List.mem_cons, List.not_mem_nil, or_false] at hw
  rcases hw with rfl | rfl | rfl | rfl
  · obtain ⟨e, f⟩ := one "after".toList (by decide)
    rw [day_branch num _ hsp (.inl (by rw [f]; decide))]
    simp only [e, f]
    rfl
  · obtain ⟨e, f⟩ := one "before".toList (by decide)
    rw [day_branch num _ hsp (.inl (by rw [f]; decide))]
    simp only [e, f]
    rfl
  · obtain ⟨e, f⟩ := one "on".toList (by decide)
    rw [day_branch num _ hsp (.inl (by rw [f]; decide))]
    simp only [e, f]
    rfl
  · have e : splitChars ' ' ("not on".toList ++ ' ' :: day) = ["not".toList, "on".toList, day] := by
      rw [show "not on".toList ++ ' ' :: day = "not".toList ++ ' ' :: ("on".toList ++ ' ' :: day) from rfl,
        splitChars_append ' ' _ _ (by decide), splitChars_append ' ' _ _ (by decide), hlast]
    have f1 : firstWord ("not on".toList ++ ' ' :: day) = "not".toList := by unfold firstWord; rw [e]; rfl
    have f2 : firstTwoWords ("not on".toList ++ ' ' :: day) = "not on".toList := by
      unfold firstTwoWords; rw [e]; rfl
    rw [day_branch num _ hsp (.inr f2)]
    simp only [e, f1]
    rfl

/-- C23 (i): a date phrase gives the bounds of its window (the windows themselves are C24), whatever else
the string looks like. -/
theorem C23_date_phrase (s : List Char) (w : Window)
    (h : parseDateCondition (weekStateFor week) now s = .ok (some w)) :
    ∃ cs, (filterDict num now week (.str s) st).1 = .ok cs ∧
      cs = w.map (fun b => ⟨match b.1 with | .ge => .greaterOrEqual | .le => .lessOrEqual, .time b.2⟩) := by
  have hne : s ≠ [] := by rintro rfl; revert h; unfold parseDateCondition; intro h; cases h
  have hsp : s ∉ ["NULL".toList, "-NULL".toList, "TRUE".toList, "FALSE".toList] := by
    intro c; rw [special_no_date now _ s c] at h; cases h
  simp only [List.mem_cons, List.not_mem_nil, or_false, not_or] at hsp
  refine ⟨_, ?_, rfl⟩
  rw [filterDict_str num now week st s hne _ h]
  unfold stringComparison
  rw [if_neg hsp.1, if_neg hsp.2.1, if_neg hsp.2.2.1, if_neg hsp.2.2.2]
  rfl

/-- C23 (j): a string that is not empty and no date phrase never stands for more or less than one
comparison. -/
theorem C23_exactly_one (s : List Char) (hs : s ≠ [])
    (hd : parseDateCondition (weekStateFor week) now s = .ok none) (cs : List Comparison)
    (h : (filterDict num now week (.str s) st).1 = .ok cs) : ∃ c, cs = [c] := by
  rw [filterDict_str num now week st s hs none hd] at h
  have one : ∀ r : Res Comparison, r.map ([·]) = .ok cs → ∃ c, cs = [c] := by
    intro r hr
    cases r with
    | error e => cases hr
    | ok c => injection hr with hr; exact ⟨c, hr.symm⟩
  unfold stringComparison at h
  split at h
  · injection h with h; exact ⟨_, h.symm⟩
  split at h
  · injection h with h; exact ⟨_, h.symm⟩
  split at h
  · injection h with h; exact ⟨_, h.symm⟩
  split at h
  · injection h with h; exact ⟨_, h.symm⟩
  simp only at h
  split at h
  · split at h
    · cases h
    · injection h with h; exact ⟨_, h.symm⟩
  split at h
  · exact one _ h
  split at h
  · exact one _ h
  split at h
  · exact one _ h
  split at h
  · exact one _ h
  · injection h with h; exact ⟨_, h.symm⟩

end

/-! #### What a leading minus does not complement -/

/-- C23 (k), against the full statement: a minus before a date phrase of the form "5 days" changes
nothing, before "today", "TRUE" or ">5" it gives a comparison with that text, and alone it is an error. -/
theorem C23_exceptions (num : ToNumeric) (now : DateTime) (week : Option String) (st : WeekState) :
    (filterDict num now week (.str "-5 days".toList) st).1 = (filterDict num now week (.str "5 days".toList) st).1 ∧
    (∀ s ∈ ["today".toList, "TRUE".toList, ">5".toList],
      (filterDict num now week (.str ('-' :: s)) st).1 = .ok [⟨.notEqualTo, .text s⟩]) ∧
    (filterDict num now week (.str ['-']) st).1 = .error .indexError := by
  have none_of : ∀ ws : WeekState, ∀ s : List Char, splitFirst " until ".toList s = none → s ≠ "today".toList →
      s ≠ "yesterday".toList →
      reSearch reAgoFor s = none → reSearch reNIntervalModifier s = none → reSearch reNInterval s = none →
      parseDateCondition ws now s = .ok none := by
    intro ws s e1 e2 e3 e4 e5 e6
    unfold parseDateCondition
    rw [e1]
    simp only
    unfold parseSimple
    rw [if_neg e2, if_neg e3]
    unfold parseAgoFor parseNIntervalModifier parseNInterval
    rw [e4, e5, e6]
  refine ⟨?_, ?_, ?_⟩
  · have e : parseDateCondition (weekStateFor week) now "-5 days".toList =
        parseDateCondition (weekStateFor week) now "5 days".toList := by
      have a1 : splitFirst " until ".toList "-5 days".toList = none := by decide
      have a2 : splitFirst " until ".toList "5 days".toList = none := by decide
      have b1 : reSearch reAgoFor "-5 days".toList = none := by decide
      have b2 : reSearch reAgoFor "5 days".toList = none := by decide
      have c1 : reSearch reNIntervalModifier "-5 days".toList = none := by decide
      have c2 : reSearch reNIntervalModifier "5 days".toList = none := by decide
      have d1 : reSearch reNInterval "-5 days".toList = some ("5".toList, .day) := by decide
      have d2 : reSearch reNInterval "5 days".toList = some ("5".toList, .day) := by decide
      unfold parseDateCondition
      rw [a1, a2]
      simp only
      unfold parseSimple
      rw [if_neg (by decide), if_neg (by decide), if_neg (by decide), if_neg (by decide)]
      unfold parseAgoFor parseNIntervalModifier parseNInterval
      rw [b1, b2, c1, c2, d1, d2]
    have u : parseDateCondition (weekStateFor week) now "5 days".toList ≠ .ok none := by
      have a2 : splitFirst " until ".toList "5 days".toList = none := by decide
      have b2 : reSearch reAgoFor "5 days".toList = none := by decide
      have c2 : reSearch reNIntervalModifier "5 days".toList = none := by decide
      have d2 : reSearch reNInterval "5 days".toList = some ("5".toList, .day) := by decide
      unfold parseDateCondition
      rw [a2]
      simp only
      unfold parseSimple
      rw [if_neg (by decide), if_neg (by decide)]
      unfold parseAgoFor parseNIntervalModifier parseNInterval
      rw [b2, c2, d2]
      simp only
      intro c
      split at c
      · cases c
      · split at c <;> cases c
    cases hp : parseDateCondition (weekStateFor week) now "5 days".toList with
    | error e' =>
      rw [hp] at e
      show (match parseDateCondition (weekStateFor week) now "-5 days".toList with
        | .error e => ((.error e : Res (List Comparison)), weekStateFor week)
        | .ok date => (stringComparison num date "-5 days".toList, defaultWeek)).1 =
        (match parseDateCondition (weekStateFor week) now "5 days".toList with
        | .error e => ((.error e : Res (List Comparison)), weekStateFor week)
        | .ok date => (stringComparison num date "5 days".toList, defaultWeek)).1
      rw [hp, e]
    | ok w =>
      cases w with
      | none => exact absurd hp u
      | some w =>
        obtain ⟨c1, h1, g1⟩ := C23_date_phrase num now week st _ w hp
        obtain ⟨c2, h2, g2⟩ := C23_date_phrase num now week st _ w (e.trans hp)
        rw [h1, h2, g1, g2]
  · intro s hs
    simp only [List.mem_cons, List.not_mem_nil, or_false] at hs
    rcases hs with rfl | rfl | rfl <;>
      rw [filterDict_str num now week st _ (by decide) none (none_of _ _ (by decide) (by decide) (by decide)
        (by decide) (by decide) (by decide))] <;> rfl
  · rw [filterDict_str num now week st _ (by decide) none (none_of _ _ (by decide) (by decide) (by decide)
        (by decide) (by decide) (by decide))]
    rfl

/-! #### The hypotheses are met -/

/-- Many strings are ordinary; this one begins with a word that only looks like a day word. -/
theorem ordinary_example (s : List Char) (h : s ∈ ["online".toList, "%n_t%".toList, "%ab".toList, "cd%".toList, "<5".toList,
    "<=5".toList]) (ws : WeekState) (now : DateTime) : Ordinary ws now s := by
  have none_of : ∀ s : List Char, splitFirst " until ".toList s = none → s ≠ "today".toList →
      s ≠ "yesterday".toList →
      reSearch reAgoFor s = none → reSearch reNIntervalModifier s = none → reSearch reNInterval s = none →
      parseDateCondition ws now s = .ok none := by
    intro s e1 e2 e3 e4 e5 e6
    unfold parseDateCondition
    rw [e1]
    simp only
    unfold parseSimple
    rw [if_neg e2, if_neg e3]
    unfold parseAgoFor parseNIntervalModifier parseNInterval
    rw [e4, e5, e6]
  simp only [List.mem_cons, List.not_mem_nil, or_false] at h
  rcases h with rfl | rfl | rfl | rfl | rfl | rfl <;>
    exact ⟨by decide, by decide, none_of _ (by decide) (by decide) (by decide)
        (by decide) (by decide) (by decide), by unfold BeginsWith; decide, by decide⟩

example (num : ToNumeric) (now : DateTime) (st : WeekState) :
    (filterDict num now (some "sunday") (.str "online".toList) st).1 = .ok [⟨.equalTo, .text "online".toList⟩] :=
  (C23_plain num now (some "sunday") st "online".toList).1 (ordinary_example _ (by simp) _ _)
    (by unfold Unsigned; decide) (by decide) (by decide)

example (num : ToNumeric) (now : DateTime) (st : WeekState) :
    (filterDict num now none (.str "%n_t%".toList) st).1 = .ok [⟨.containsCI, .text "n_t".toList⟩] :=
  (C23_plain num now none st "n_t".toList).2.1 (ordinary_example _ (by simp) _ _)

example (num : ToNumeric) (now : DateTime) (st : WeekState) :
    ∃ c c', (filterDict num now none (.str "cd%".toList) st).1 = .ok [c] ∧
      (filterDict num now none (.str "-cd%".toList) st).1 = .ok [c'] ∧ c'.value = c.value ∧
      (∀ x, holds c x ≠ none) ∧ ∀ x, holds c' x = (holds c x).map (!·) :=
  C23_negated num now none st "cd%".toList (ordinary_example _ (by simp) _ _) (by unfold Unsigned; decide)

/-- "<=5" is read with the longer sign. -/
example (now : DateTime) (st : WeekState) :
    (filterDict (fun r => if r = ['5'] then some 5 else none) now none (.str "<=5".toList) st).1 =
      .ok [⟨.lessOrEqual, .num 5⟩] :=
  C23_numeric (fun r => if r = ['5'] then some 5 else none) now none st (['<', '='], .lessOrEqual) (by decide) ['5']
    (by decide) (ordinary_example _ (by simp) _ _)

example (num : ToNumeric) (st : WeekState) :
    (filterDict num feb28 none (.str "a, b c, d".toList) st).1 =
      .ok [⟨.isIn, .texts ["a".toList, "b c".toList, "d".toList]⟩] :=
  (C23_list num feb28 none st "a".toList "b c".toList ["d".toList] (by decide) (by decide)
    ⟨by decide, by decide +kernel, by unfold BeginsWith; decide⟩).1 (by decide)

example (num : ToNumeric) (st : WeekState) :
    (filterDict num feb28 none (.str "-a, b".toList) st).1 = .error .query :=
  (C23_list num feb28 none st "-a".toList "b".toList [] (by decide) (by decide)
    ⟨by decide, by decide +kernel, by unfold BeginsWith; decide⟩).2.2 (by decide) (by decide)

example (num : ToNumeric) (st : WeekState) :
    (filterDict num feb28 none (.str "not on 2024-1-5".toList) st).1 =
      .ok [⟨.notEqualTo, .time ⟨⟨2024, 1, 5⟩, 0⟩⟩] := by
  have h := C23_day num feb28 none st ("not on".toList, .notEqualTo) (by decide) "2024-1-5".toList (by decide)
    (by decide +kernel)
  rw [show parseDateString "2024-1-5".toList = .ok ⟨⟨2024, 1, 5⟩, 0⟩ by decide +kernel] at h
  exact h

example : holds ⟨.containsCI, .text "Cd".toList⟩ "abCDe".toList = some true :=
  (C23_meaning "Cd".toList (by unfold NoWildcard; decide) "abCDe".toList).1.mpr (by decide)

end ML
