import Verif.FilterStr.Spec
import Verif.Dates.Phrases
import Verif.Names.Lemmas
/-
Helper lemmas for C23, C25, C26 and C51.
-/
set_option autoImplicit false
namespace ML
open Spec

/-! ### Words and commas -/

theorem firstWord_cons_space (s : List Char) : firstWord (' ' :: s) = [] := by
  simp [firstWord, splitChars]

theorem firstWord_cons (c : Char) (s : List Char) (h : c ≠ ' ') : firstWord (c :: s) = c :: firstWord s := by
  unfold firstWord
  rw [splitChars, if_neg h]
  cases hs : splitChars ' ' s with
  | nil => exact absurd hs (splitChars_ne_nil _ _)
  | cons p ps => rfl

theorem firstWord_iff (w : List Char) (hw : ' ' ∉ w) (s : List Char) : firstWord s = w ↔ BeginsWith w s := by
  induction w generalizing s with
  | nil =>
    cases s with
    | nil => simp [firstWord, splitChars, BeginsWith]
    | cons c cs =>
      by_cases h : c = ' '
      · subst h
        rw [firstWord_cons_space]
        simp [BeginsWith, List.cons_prefix_cons]
      · rw [firstWord_cons c cs h]
        simp only [BeginsWith, List.nil_append, List.cons_prefix_cons, List.nil_prefix, and_true]
        constructor
        · intro e; cases e
        · rintro (e | e)
          · cases e
          · exact absurd e.symm h
  | cons x xs ih =>
    have hx : x ≠ ' ' := fun e => hw (by simp [e])
    have hxs : ' ' ∉ xs := fun e => hw (by simp [e])
    cases s with
    | nil => simp [firstWord, splitChars, BeginsWith]
    | cons c cs =>
      by_cases h : c = ' '
      · subst h
        rw [firstWord_cons_space]
        simp only [BeginsWith, List.cons_append, List.cons_prefix_cons]
        constructor
        · intro e; cases e
        · rintro (e | e)
          · injection e with e1 e2; exact absurd e1.symm hx
          · exact absurd e.1 hx
      · rw [firstWord_cons c cs h]
        have := ih hxs cs
        simp only [BeginsWith, List.cons_append, List.cons_prefix_cons, List.cons.injEq] at this ⊢
        constructor
        · rintro ⟨rfl, e⟩
          rcases this.mp e with e | e
          · exact .inl ⟨rfl, e⟩
          · exact .inr ⟨rfl, e⟩
        · rintro (⟨rfl, e⟩ | ⟨rfl, e⟩)
          · exact ⟨rfl, this.mpr (.inl e)⟩
          · exact ⟨rfl, this.mpr (.inr e)⟩

/-- The text after the first word. -/
theorem firstTwoWords_iff (a b : List Char) (ha : ' ' ∉ a) (hb : ' ' ∉ b) (s : List Char) :
    firstTwoWords s = a ++ ' ' :: b ↔ BeginsWith (a ++ ' ' :: b) s := by
  induction a generalizing s with
  | nil =>
    cases s with
    | nil => simp [firstTwoWords, splitChars, BeginsWith]
    | cons c cs =>
      by_cases h : c = ' '
      · subst h
        have e : firstTwoWords (' ' :: cs) = ' ' :: firstWord cs := by
          unfold firstTwoWords firstWord
          rw [splitChars, if_pos rfl]
          cases hs : splitChars ' ' cs with
          | nil => exact absurd hs (splitChars_ne_nil _ _)
          | cons p ps => rfl
        rw [e, List.nil_append]
        have := firstWord_iff b hb cs
        simp only [BeginsWith, List.cons_append, List.cons_prefix_cons, List.cons.injEq, true_and] at this ⊢
        exact this
      · have e : ∀ t, firstTwoWords (c :: cs) ≠ ' ' :: t := by
          intro t
          unfold firstTwoWords
          rw [splitChars, if_neg h]
          cases hs : splitChars ' ' cs with
          | nil => exact absurd hs (splitChars_ne_nil _ _)
          | cons p ps =>
            cases ps with
            | nil => simp [h]
            | cons q qs => simp [h]
        rw [List.nil_append]
        constructor
        · intro he; exact absurd he (e b)
        · rintro (he | he)
          · injection he with e1 _; exact absurd e1 h
          · rw [List.cons_append, List.cons_prefix_cons] at he; exact absurd he.1.symm h
  | cons x xs ih =>
    have hx : x ≠ ' ' := fun e => ha (by simp [e])
    have hxs : ' ' ∉ xs := fun e => ha (by simp [e])
    cases s with
    | nil => simp [firstTwoWords, splitChars, BeginsWith]
    | cons c cs =>
      by_cases h : c = ' '
      · subst h
        have e : ∀ t, firstTwoWords (' ' :: cs) ≠ x :: t := by
          intro t
          unfold firstTwoWords
          rw [splitChars, if_pos rfl]
          cases hs : splitChars ' ' cs with
          | nil => exact absurd hs (splitChars_ne_nil _ _)
          | cons p ps => simp [hx.symm]
        constructor
        · intro he; exact absurd he (e _)
        · rintro (he | he)
          · injection he with e1 _; exact absurd e1.symm hx
          · rw [List.cons_append, List.cons_append, List.cons_prefix_cons] at he; exact absurd he.1 hx
      · have e : firstTwoWords (c :: cs) = c :: firstTwoWords cs := by
          unfold firstTwoWords
          rw [splitChars, if_neg h]
          cases hs : splitChars ' ' cs with
          | nil => exact absurd hs (splitChars_ne_nil _ _)
          | cons p ps =>
            cases ps with
            | nil => simp
            | cons q qs => simp
        rw [e]
        clear e
        have := ih hxs cs
        simp only [BeginsWith, List.cons_append, List.cons_prefix_cons, List.cons.injEq] at this ⊢
        constructor
        · rintro ⟨rfl, e⟩
          rcases this.mp e with e | e
          · exact .inl ⟨rfl, e⟩
          · exact .inr ⟨rfl, e⟩
        · rintro (⟨rfl, e⟩ | ⟨rfl, e⟩)
          · exact ⟨rfl, this.mpr (.inl e)⟩
          · exact ⟨rfl, this.mpr (.inr e)⟩

theorem splitComma_ne_nil (s : List Char) : splitComma s ≠ [] := by
  unfold splitComma
  split
  · simp
  · simp
  · split <;> simp

theorem splitComma_cons (c : Char) (cs : List Char) (h : ¬ (c = ',' ∧ ∃ t, cs = ' ' :: t)) :
    ∃ p ps, splitComma cs = p :: ps ∧ splitComma (c :: cs) = (c :: p) :: ps := by
  cases hs : splitComma cs with
  | nil => exact absurd hs (splitComma_ne_nil _)
  | cons p ps =>
    refine ⟨p, ps, rfl, ?_⟩
    rw [splitComma.eq_3, hs]
    intro t h1 h2
    exact h ⟨h1, t, h2⟩

theorem infix_cons_iff' {α : Type} (w : List α) (c : α) (cs : List α) :
    w <:+: c :: cs ↔ w <+: c :: cs ∨ w <:+: cs := List.infix_cons_iff

/-- There is more than one part exactly when the separator occurs. -/
theorem splitComma_length (s : List Char) : (splitComma s).length > 1 ↔ [',', ' '] <:+: s := by
  induction s with
  | nil => simp [splitComma]
  | cons c cs ih =>
    by_cases h : c = ',' ∧ ∃ t, cs = ' ' :: t
    · obtain ⟨rfl, t, rfl⟩ := h
      have : splitComma t ≠ [] := splitComma_ne_nil t
      rw [splitComma, infix_cons_iff']
      simp only [List.length_cons, List.cons_prefix_cons, List.nil_prefix, and_true, true_or, iff_true]
      have := List.length_pos_iff.mpr this
      omega
    · obtain ⟨p, ps, h1, h2⟩ := splitComma_cons c cs h
      rw [h2, infix_cons_iff', ← ih, h1]
      simp only [List.length_cons]
      constructor
      · exact .inr
      · rintro (⟨t, ht⟩ | h)
        · exfalso
          apply h
          injection ht with e1 e2
          exact ⟨e1.symm, t, by rw [← e2]; rfl⟩
        · exact h

/-- Splitting what was joined, for parts without the separator. -/
theorem splitComma_join (p : List Char) (ps : List (List Char)) (hp : ¬ [',', ' '] <:+: p)
    (hps : ∀ q ∈ ps, ¬ [',', ' '] <:+: q) :
    splitComma (List.intercalate [',', ' '] (p :: ps)) = p :: ps := by
  have single : ∀ q : List Char, ¬ [',', ' '] <:+: q → splitComma q = [q] := by
    intro q
    induction q with
    | nil => intro _; rfl
    | cons c cs ih =>
      intro h
      have hc : ¬ (c = ',' ∧ ∃ t, cs = ' ' :: t) := by
        rintro ⟨rfl, t, rfl⟩
        exact h (List.IsPrefix.isInfix ⟨t, rfl⟩)
      obtain ⟨a, as, h1, h2⟩ := splitComma_cons c cs hc
      rw [ih (fun c' => h (infix_cons_iff' _ _ _ |>.mpr (.inr c')))] at h1
      injection h1 with e1 e2
      rw [h2, ← e1, ← e2]
  have step : ∀ (q r : List Char), ¬ [',', ' '] <:+: q →
      splitComma (q ++ ',' :: ' ' :: r) = q :: splitComma r := by
    intro q r
    induction q with
    | nil => intro _; simp [splitComma]
    | cons c cs ih =>
      intro h
      have hc : ¬ (c = ',' ∧ ∃ t, cs ++ ',' :: ' ' :: r = ' ' :: t) := by
        rintro ⟨rfl, t, ht⟩
        cases cs with
        | nil => injection ht with e1 _; exact absurd e1 (by decide)
        | cons d ds =>
          injection ht with e1 _
          subst e1
          exact h (List.IsPrefix.isInfix ⟨ds, rfl⟩)
      obtain ⟨a, as, h1, h2⟩ := splitComma_cons c _ hc
      rw [ih (fun c' => h (infix_cons_iff' _ _ _ |>.mpr (.inr c')))] at h1
      injection h1 with e1 e2
      rw [List.cons_append, h2, ← e1, ← e2]
  induction ps generalizing p with
  | nil => simpa [List.intercalate] using single p hp
  | cons q qs ih =>
    have e : List.intercalate [',', ' '] (p :: q :: qs) =
        p ++ ',' :: ' ' :: List.intercalate [',', ' '] (q :: qs) := by
      simp [List.intercalate]
    rw [e, step p _ hp, ih q (hps q (by simp)) (fun x hx => hps x (by simp [hx]))]

/-! ### A leading minus is invisible to the date phrases -/

theorem reInterval_minus (s : List Char) : reInterval ('-' :: s) = [] := by
  unfold reInterval
  rw [List.flatMap_eq_nil_iff]
  intro w hw
  have h1 : ∀ w ∈ intervalWords, ∃ c cs, w.1 = c :: cs ∧ (c == '-') = false := by
    intro w hw
    simp only [intervalWords, List.mem_cons, List.not_mem_nil, or_false] at hw
    rcases hw with rfl | rfl | rfl | rfl | rfl | rfl | rfl | rfl | rfl | rfl | rfl | rfl <;>
      exact ⟨_, _, rfl, rfl⟩
  obtain ⟨c, cs, e, h⟩ := h1 w hw
  unfold reLit
  rw [e]
  simp [List.isPrefixOf, h]

theorem reSearch_minus {α : Type} (p : List Char → Matches α) (s : List Char) (h : p ('-' :: s) = []) :
    reSearch p ('-' :: s) = reSearch p s := by
  rw [reSearch, h]

theorem reLit_minus (w s : List Char) (hw : ∃ c cs, w = c :: cs ∧ (c == '-') = false) :
    reLit w ('-' :: s) = [] := by
  obtain ⟨c, cs, e, h⟩ := hw
  unfold reLit
  rw [e]
  simp [List.isPrefixOf, h]

theorem reDigits_minus (s : List Char) : reDigits ('-' :: s) = [] := by
  unfold reDigits rePlus
  rw [if_neg (by decide)]

theorem noDate_minus (ws : WeekState) (now : DateTime) (s : List Char) (h : parseDateCondition ws now s = .ok none) :
    parseDateCondition ws now ('-' :: s) = .ok none := by
  have hsplit : splitFirst " until ".toList s = none := by
    cases hs : splitFirst " until ".toList s with
    | none => rfl
    | some p =>
      exfalso
      unfold parseDateCondition at h
      rw [hs] at h
      obtain ⟨a, b⟩ := p
      simp only at h
      cases h2 : splitFirst " until ".toList b with
      | some q => rw [h2] at h; simp at h
      | none =>
        rw [h2] at h
        simp only at h
        cases h3 : untilSide ws now .ge List.head? a with
        | error e => rw [h3] at h; simp at h
        | ok x =>
          rw [h3] at h
          simp only at h
          cases h4 : untilSide ws now .le List.getLast? b with
          | error e => rw [h4] at h; simp at h
          | ok y => rw [h4] at h; simp at h
  have h' : parseSimple ws now s = .ok none := by
    unfold parseDateCondition at h
    rw [hsplit] at h
    exact h
  unfold parseSimple at h'
  by_cases ht : s = "today".toList
  · rw [if_pos ht] at h'
    cases h1 : startDate ws now 0 .day with
    | error e => rw [h1] at h'; simp at h'
    | ok a =>
      rw [h1] at h'
      cases h2 : endDate ws now 0 .day with
      | error e => rw [h2] at h'; simp at h'
      | ok b => rw [h2] at h'; simp at h'
  rw [if_neg ht] at h'
  by_cases hy : s = "yesterday".toList
  · rw [if_pos hy] at h'
    cases h1 : startDate ws now 1 .day with
    | error e => rw [h1] at h'; simp at h'
    | ok a =>
      rw [h1] at h'
      cases h2 : endDate ws now 1 .day with
      | error e => rw [h2] at h'; simp at h'
      | ok b => rw [h2] at h'; simp at h'
  rw [if_neg hy] at h'
  have e1 : parseAgoFor ws now ('-' :: s) = parseAgoFor ws now s := by
    unfold parseAgoFor
    rw [reSearch_minus reAgoFor s (then_nil _ _ _ (reDigits_minus s))]
  have e2 : parseNIntervalModifier ws now ('-' :: s) = parseNIntervalModifier ws now s := by
    unfold parseNIntervalModifier
    rw [reSearch_minus reNIntervalModifier s]
    unfold reNIntervalModifier reThen
    have : reCount ('-' :: s) = [([], '-' :: s)] := by
      unfold reCount
      rw [then_nil _ _ _ (reDigits_minus s)]
      have t1 : reWordSpaces "this".toList ('-' :: s) = [] :=
        then_nil _ _ _ (reLit_minus _ s ⟨_, _, rfl, rfl⟩)
      have t2 : reWordSpaces "last".toList ('-' :: s) = [] :=
        then_nil _ _ _ (reLit_minus _ s ⟨_, _, rfl, rfl⟩)
      rw [t1, t2]
      rfl
    rw [this]
    simp [reInterval_minus]
  have e3 : parseNInterval ws now ('-' :: s) = parseNInterval ws now s := by
    unfold parseNInterval
    rw [reSearch_minus reNInterval s]
    unfold reNInterval reThen
    simp only
    rw [reDigits_minus, reLit_minus "this".toList s ⟨_, _, rfl, rfl⟩,
      reLit_minus "last".toList s ⟨_, _, rfl, rfl⟩]
    rfl
  have hs2 : splitFirst " until ".toList ('-' :: s) = none := by
    rw [splitFirst, hsplit]
    rfl
  unfold parseDateCondition
  rw [hs2]
  simp only
  unfold parseSimple
  have hh : ∀ w : List Char, w.head? ≠ some '-' → '-' :: s ≠ w := by
    rintro w hw rfl
    exact hw rfl
  rw [if_neg (hh _ (by decide)), if_neg (hh _ (by decide)), e1, e2, e3]
  exact h'

end ML
