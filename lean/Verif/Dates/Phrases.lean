import Verif.Dates.Lemmas
/-
Helper lemmas for C24: what the parsers make of each phrase.
-/
set_option autoImplicit false
namespace ML
open Spec

/-- The week settings are consistent for every configured week start. -/
theorem weekOk_for (name : Option String) : WeekOk (weekStateFor name) := by
  have h : 0 ≤ weekStartNumber name ∧ weekStartNumber name ≤ 6 := by
    unfold weekStartNumber
    split <;> decide
  refine ⟨h.1, h.2, ?_⟩
  unfold weekStateFor
  simp only
  split <;> omega

/-! ### Numbers as written -/

theorem ofDigitChars_eq (ds : List Char) (k : ℕ) :
    ds.foldl (fun (n : ℤ) c => 10 * n + (c.toNat - 48 : ℕ)) (k : ℤ) = (Nat.ofDigitChars 10 ds k : ℕ) := by
  induction ds generalizing k with
  | nil => rfl
  | cons c cs ih =>
    rw [List.foldl_cons, Nat.ofDigitChars_cons]
    have e : (10 * (k : ℤ) + ((c.toNat - 48 : ℕ) : ℤ)) = ((10 * k + (c.toNat - '0'.toNat) : ℕ) : ℤ) := by
      push_cast; rfl
    rw [e, ih]

theorem digitsToInt_repr (n : ℕ) : digitsToInt (Nat.repr n).toList = n := by
  have := ofDigitChars_eq (Nat.repr n).toList 0
  rw [Nat.toList_repr, Nat.ofDigitChars_ten_toDigits] at this
  rw [Nat.toList_repr]
  exact this

theorem isNumber_repr (n : ℕ) : IsNumber (Nat.repr n).toList := by
  rw [Nat.toList_repr]
  refine ⟨Nat.toDigits_ne_nil, fun c hc => ?_⟩
  have := Nat.isDigit_of_mem_toDigits (by decide) (by decide) hc
  unfold Char.isDigit at this
  unfold isDigitChar
  simp only [Bool.and_eq_true, decide_eq_true_eq] at this ⊢
  exact this

/-! ### What the regular expressions find in a phrase -/

theorem nInterval_digits (ds r : List Char) (hd : IsNumber ds)
    (hr : ∀ c r', r = c :: r' → isDigitChar c = false) :
    reNInterval (ds ++ r) = reThen reSpaces (fun _ => reThen reInterval (fun u r => [((ds, u), r)])) r := by
  obtain ⟨c, cs, rfl⟩ := List.exists_cons_of_ne_nil hd.1
  have hc := hd.2 c (by simp)
  rw [← digits_spaces_then (fun n _ => reThen reInterval (fun u r => [((n, u), r)])) (c :: cs) r hd hr]
  unfold reNInterval
  unfold reThen
  simp only [List.cons_append]
  rw [lit_digit "this".toList c (by decide) (by decide) hc, lit_digit "last".toList c (by decide) (by decide) hc]
  simp only [List.append_nil]

theorem modifier_digits (ds r : List Char) (hd : IsNumber ds)
    (hr : ∀ c r', r = c :: r' → isDigitChar c = false) :
    reNIntervalModifier (ds ++ r) = reThen reSpaces (fun b => reThen reInterval (fun u => reThen reSpaces (fun _ =>
      reThen reModifier (fun m r => [((ds ++ b, u, m), r)])))) r := by
  obtain ⟨c, cs, rfl⟩ := List.exists_cons_of_ne_nil hd.1
  have hc := hd.2 c (by simp)
  rw [← digits_spaces_then (fun n b => reThen reInterval (fun u => reThen reSpaces (fun _ =>
      reThen reModifier (fun m r => [((n ++ b, u, m), r)])))) (c :: cs) r hd hr]
  unfold reNIntervalModifier
  rw [show reThen reCount (fun n => reThen reInterval fun u => reThen reSpaces fun _ =>
      reThen reModifier fun m r => [((n, u, m), r)]) (c :: cs ++ r) =
      (reCount (c :: cs ++ r)).flatMap (fun m0 => reThen reInterval (fun u => reThen reSpaces fun _ =>
      reThen reModifier fun m r => [((m0.1, u, m), r)]) m0.2) from rfl]
  have e1 : reWordSpaces "this".toList (c :: cs ++ r) = [] :=
    then_nil _ _ _ (lit_digit "this".toList c (by decide) (by decide) hc _)
  have e2 : reWordSpaces "last".toList (c :: cs ++ r) = [] :=
    then_nil _ _ _ (lit_digit "last".toList c (by decide) (by decide) hc _)
  unfold reCount
  rw [e1, e2, List.append_nil, List.append_nil, List.flatMap_append]
  have e3 : ∀ f : Interval → List Char → Matches (List Char × Interval × List Char),
      reThen reInterval f (c :: cs ++ r) = [] := fun f => then_nil _ _ _ (interval_digit c hc _)
  simp only [List.flatMap_cons, List.flatMap_nil, e3, List.append_nil]
  unfold reThen
  simp only [List.flatMap_assoc, List.flatMap_cons, List.flatMap_nil, List.append_nil]

theorem agoFor_digits (ds r : List Char) (hd : IsNumber ds)
    (hr : ∀ c r', r = c :: r' → isDigitChar c = false) :
    reAgoFor (ds ++ r) = reThen reSpaces (fun _ => reThen reInterval (fun u => reThen reSpaces (fun _ =>
    reThen (reLit "ago".toList) (fun _ => reThen reSpaces (fun _ => reThen (reLit "for".toList) (fun _ =>
      reThen reSpaces (fun _ => reThen reDigits (fun k => reThen reSpaces (fun _ =>
        reThen reInterval (fun v r => [((ds, u, k, v), r)])))))))))) r :=
  digits_spaces_then (fun n _ => reThen reInterval (fun u => reThen reSpaces (fun _ =>
    reThen (reLit "ago".toList) (fun _ => reThen reSpaces (fun _ => reThen (reLit "for".toList) (fun _ =>
      reThen reSpaces (fun _ => reThen reDigits (fun k => reThen reSpaces (fun _ =>
        reThen reInterval (fun v r => [((n, u, k, v), r)])))))))))) ds r hd hr

theorem space_head (r : List Char) : ∀ c r', ' ' :: r = c :: r' → isDigitChar c = false := by
  intro c r' h
  injection h with h1 h2
  subst h1
  rfl

/-- The phrase "N units" is only an interval phrase. -/
theorem parse_n (ws : WeekState) (now : DateTime) (ds : List Char) (hd : IsNumber ds) (u : Interval) (pl : Bool) :
    parseDateCondition ws now (ds ++ ' ' :: unitText u pl) =
      match startDate ws now (digitsToInt ds - 1) u with
      | .error e => .error e
      | .ok a =>
        match endDate ws now 0 u with
        | .error e => .error e
        | .ok b => .ok (some [(.ge, a), (.le, b)]) := by
  have hr := space_head (unitText u pl)
  have h1 : splitFirst " until ".toList (ds ++ ' ' :: unitText u pl) = none :=
    splitFirst_digits _ ds hd.2 (by cases u <;> cases pl <;> decide)
  have h2 : reSearch reAgoFor (ds ++ ' ' :: unitText u pl) = none := by
    rw [search_digits reAgoFor _ ds hd.2]
    · cases u <;> cases pl <;> decide
    · intro ds' hd'
      rw [agoFor_digits ds' _ hd' hr]
      cases u <;> cases pl <;> rfl
  have h3 : reSearch reNIntervalModifier (ds ++ ' ' :: unitText u pl) = none := by
    rw [search_digits reNIntervalModifier _ ds hd.2]
    · cases u <;> cases pl <;> decide
    · intro ds' hd'
      rw [modifier_digits ds' _ hd' hr]
      cases u <;> cases pl <;> rfl
  have h4 : reSearch reNInterval (ds ++ ' ' :: unitText u pl) = some (ds, u) := by
    have : ∃ m ms, reNInterval (ds ++ ' ' :: unitText u pl) = ((ds, u), m) :: ms := by
      rw [nInterval_digits ds _ hd hr]
      cases u <;> cases pl <;> exact ⟨_, _, rfl⟩
    obtain ⟨m, ms, e⟩ := this
    exact search_cons _ _ (by simp) _ _ e
  unfold parseDateCondition
  rw [h1]
  simp only
  unfold parseSimple
  rw [if_neg (digit_ne hd (by decide) _), if_neg (digit_ne hd (by decide) _)]
  unfold parseAgoFor parseNIntervalModifier parseNInterval
  rw [h2, h3, h4]
  simp only
  rw [if_neg (number_ne hd (by decide)), if_neg (number_ne hd (by decide)), if_neg (number_ne hd (by decide))]
  rfl

theorem strip_number (ds : List Char) (hd : IsNumber ds) : strip (ds ++ [' ']) = ds := by
  have h2 : ∀ c ∈ ds.reverse, isDigitChar c = true := fun c hc => hd.2 c (List.mem_reverse.mp hc)
  have h1 : ds.reverse ≠ [] := by simpa using hd.1
  obtain ⟨a, as, rfl⟩ := List.exists_cons_of_ne_nil hd.1
  have ha := digit_not_space (hd.2 a (by simp))
  unfold strip
  rw [List.cons_append, List.dropWhile_cons_of_neg (by simp [ha])]
  rw [← List.cons_append, List.reverse_append]
  obtain ⟨b, bs, e⟩ := List.exists_cons_of_ne_nil h1
  have hb := digit_not_space (h2 b (by rw [e]; simp))
  show ((List.dropWhile isSpace (' ' :: (a :: as).reverse))).reverse = _
  rw [e, List.dropWhile_cons_of_pos (by decide), List.dropWhile_cons_of_neg (by simp [hb]), ← e,
    List.reverse_reverse]

/-- What is after the number in "N units ago" and its longer forms. -/
def agoText (u : Interval) (pl : Bool) : List Char := ' ' :: (unitText u pl ++ " ago".toList)

/-- The phrase "N units ago". -/
theorem parse_ago (ws : WeekState) (now : DateTime) (ds : List Char) (hd : IsNumber ds) (u : Interval) (pl : Bool) :
    parseDateCondition ws now (ds ++ agoText u pl) =
      match startDate ws now (digitsToInt ds) u with
      | .error e => .error e
      | .ok a =>
        match endDate ws now (digitsToInt ds) u with
        | .error e => .error e
        | .ok b => .ok (some [(.ge, a), (.le, b)]) := by
  have hr := space_head (unitText u pl ++ " ago".toList)
  unfold agoText
  have h1 : splitFirst " until ".toList (ds ++ ' ' :: (unitText u pl ++ " ago".toList)) = none :=
    splitFirst_digits _ ds hd.2 (by cases u <;> cases pl <;> decide)
  have h2 : reSearch reAgoFor (ds ++ ' ' :: (unitText u pl ++ " ago".toList)) = none := by
    rw [search_digits reAgoFor _ ds hd.2]
    · cases u <;> cases pl <;> decide
    · intro ds' hd'
      rw [agoFor_digits ds' _ hd' hr]
      cases u <;> cases pl <;> rfl
  have h3 : reSearch reNIntervalModifier (ds ++ ' ' :: (unitText u pl ++ " ago".toList)) =
      some (ds ++ [' '], u, "ago".toList) := by
    have : ∃ m ms, reNIntervalModifier (ds ++ ' ' :: (unitText u pl ++ " ago".toList)) =
        ((ds ++ [' '], u, "ago".toList), m) :: ms := by
      rw [modifier_digits ds _ hd hr]
      cases u <;> cases pl <;> exact ⟨_, _, rfl⟩
    obtain ⟨m, ms, e⟩ := this
    exact search_cons _ _ (by simp) _ _ e
  unfold parseDateCondition
  rw [h1]
  simp only
  unfold parseSimple
  rw [if_neg (digit_ne hd (by decide) _), if_neg (digit_ne hd (by decide) _)]
  unfold parseAgoFor parseNIntervalModifier
  rw [h2, h3]
  simp only [strip_number ds hd]
  have hn : ¬ (ds = "this".toList ∨ ds = []) := by
    rintro (h | h)
    · exact number_ne hd (by decide) h
    · exact hd.1 h
  rw [if_neg hn, if_neg (number_ne hd (by decide)), if_neg (show ¬ "ago".toList = "to date".toList by decide)]
  cases startDate ws now (digitsToInt ds) u with
  | error e => rfl
  | ok a =>
    simp only
    rw [if_neg (by decide), if_pos (by decide)]
    cases endDate ws now (digitsToInt ds) u <;> rfl

/-- The phrase "N units ago for K units". -/
theorem parse_agoFor (ws : WeekState) (now : DateTime) (ds ks : List Char) (hd : IsNumber ds) (hk : IsNumber ks)
    (u v : Interval) (pl pl' : Bool) :
    parseDateCondition ws now (ds ++ (agoText u pl ++ (" for ".toList ++ (ks ++ ' ' :: unitText v pl')))) =
      match startDate ws now (digitsToInt ds) u with
      | .error e => .error e
      | .ok a =>
        match addToEndDate ws a (digitsToInt ks - 1) v with
        | .error e => .error e
        | .ok b => .ok (some [(.ge, a), (.le, b)]) := by
  have hr : ∀ c r', agoText u pl ++ (" for ".toList ++ (ks ++ ' ' :: unitText v pl')) = c :: r' →
      isDigitChar c = false := by
    intro c r' h
    unfold agoText at h
    injection h with h1 h2
    subst h1
    rfl
  have h0 : splitFirst " until ".toList (ks ++ ' ' :: unitText v pl') = none :=
    splitFirst_digits _ ks hk.2 (by cases v <;> cases pl' <;> decide)
  have hkne : ∀ s : List Char, splitFirst " until ".toList s = none →
      (∀ x xs, s = x :: xs → isDigitChar x = true) → s ≠ [] →
      splitFirst " until ".toList (agoText u pl ++ (" for ".toList ++ s)) = none := by
    intro s hs hx hne
    obtain ⟨x, xs, rfl⟩ := List.exists_cons_of_ne_nil hne
    have hxd := hx x xs rfl
    have hu : ¬ 'u' = x := by rintro rfl; exact absurd hxd (by decide)
    have hsp : ¬ ' ' = x := by rintro rfl; exact absurd hxd (by decide)
    simp [splitFirst, List.isPrefixOf, hsp] at hs
    cases u <;> cases pl <;>
      simp [agoText, unitText, unitWord, splitFirst, List.isPrefixOf, hu, hsp, hs]
  have h1 : splitFirst " until ".toList
      (ds ++ (agoText u pl ++ (" for ".toList ++ (ks ++ ' ' :: unitText v pl')))) = none := by
    apply splitFirst_digits _ ds hd.2
    apply hkne _ h0
    · intro x xs e
      obtain ⟨a, as, rfl⟩ := List.exists_cons_of_ne_nil hk.1
      injection e with e1 e2
      subst e1
      exact hk.2 a (by simp)
    · intro e
      have := congrArg List.length e
      simp at this
  have hin : ∀ n : List Char, reThen reDigits (fun k => reThen reSpaces (fun _ =>
      reThen reInterval (fun w r => [((n, u, k, w), r)]))) (ks ++ ' ' :: unitText v pl') =
      reThen reSpaces (fun _ => reThen reInterval (fun w r => [((n, u, ks, w), r)])) (' ' :: unitText v pl') :=
    fun n => digits_spaces_then (fun k _ => reThen reInterval (fun w r => [((n, u, k, w), r)])) ks _ hk
      (space_head _)
  have h2 : reSearch reAgoFor (ds ++ (agoText u pl ++ (" for ".toList ++ (ks ++ ' ' :: unitText v pl')))) =
      some (ds, u, ks, v) := by
    have : ∃ m ms, reAgoFor (ds ++ (agoText u pl ++ (" for ".toList ++ (ks ++ ' ' :: unitText v pl')))) =
        ((ds, u, ks, v), m) :: ms := by
      rw [agoFor_digits ds _ hd hr]
      have : ∃ m ms, reThen reDigits (fun k => reThen reSpaces (fun _ =>
          reThen reInterval (fun w r => [((ds, u, k, w), r)]))) (ks ++ ' ' :: unitText v pl') =
          ((ds, u, ks, v), m) :: ms := by
        rw [hin ds]
        cases v <;> cases pl' <;> exact ⟨_, _, rfl⟩
      obtain ⟨m, ms, e⟩ := this
      refine ⟨m, ms, ?_⟩
      have hspace : reSpaces (' ' :: (ks ++ ' ' :: unitText v pl')) =
          [([' '], ks ++ ' ' :: unitText v pl')] := by
        obtain ⟨a, as, rfl⟩ := List.exists_cons_of_ne_nil hk.1
        have ha := digit_not_space (hk.2 a (by simp))
        simp only [reSpaces, rePlus, List.cons_append, ha]
        rfl
      generalize ks ++ ' ' :: unitText v pl' = K at e hspace ⊢
      have hfor : ∀ f : List Char → List Char → Matches (List Char × Interval × List Char × Interval),
          reThen reSpaces f (' ' :: K) = f [' '] K := by
        intro f; unfold reThen; rw [hspace]; simp
      have : reThen reSpaces (fun _ => reThen reDigits (fun k => reThen reSpaces (fun _ =>
          reThen reInterval (fun w r => [((ds, u, k, w), r)])))) (' ' :: K) = ((ds, u, ks, v), m) :: ms := by
        rw [hfor]; exact e
      cases u <;> cases pl <;>
      · simp only [reThen, reSpaces, rePlus, reInterval, intervalWords, reLit, agoText, unitText, unitWord]
          at this ⊢
        simpa [reThen, reSpaces, rePlus, reLit, List.isPrefixOf, isSpace] using this
    obtain ⟨m, ms, e⟩ := this
    refine search_cons _ _ ?_ _ _ e
    intro e'
    have := congrArg List.length e'
    simp [agoText] at this
  unfold parseDateCondition
  rw [h1]
  simp only
  unfold parseSimple
  rw [if_neg (digit_ne hd (by decide) _), if_neg (digit_ne hd (by decide) _)]
  unfold parseAgoFor
  rw [h2]
  simp only
  cases startDate ws now (digitsToInt ds) u with
  | error e => rfl
  | ok a =>
    simp only
    cases addToEndDate ws a (digitsToInt ks - 1) v <;> rfl

/-- The end of a window "to date" that begins on `a`, for a current period that begins on `p`. -/
def toDateWindow (ws : WeekState) (now : DateTime) (a p : Res DateTime) : Res (Option Window) :=
  match a with
  | .error e => .error e
  | .ok a =>
    match p with
    | .error e => .error e
    | .ok p =>
      match addToEndDate ws a (if daysBetween p now > 0 then daysBetween p now - 1 else 0) .day with
      | .error e => .error e
      | .ok b => .ok (some [(.ge, a), (.le, b)])

set_option maxHeartbeats 1000000 in
/-- The phrases "N units to date" and "N units ago to date". -/
theorem parse_toDate (ws : WeekState) (now : DateTime) (ds : List Char) (hd : IsNumber ds) (u : Interval)
    (pl ago : Bool) :
    parseDateCondition ws now
        (ds ++ ' ' :: (unitText u pl ++ (if ago then " ago to date".toList else " to date".toList))) =
      toDateWindow ws now (startDate ws now (if ago then digitsToInt ds else digitsToInt ds - 1) u)
        (startDate ws now 0 u) := by
  have hr := space_head (unitText u pl ++ (if ago then " ago to date".toList else " to date".toList))
  generalize hrest : ' ' :: (unitText u pl ++ (if ago then " ago to date".toList else " to date".toList)) = rest at hr ⊢
  have h1 : splitFirst " until ".toList (ds ++ rest) = none :=
    splitFirst_digits _ ds hd.2 (by subst hrest; cases u <;> cases pl <;> cases ago <;> decide)
  have h2 : reSearch reAgoFor (ds ++ rest) = none := by
    rw [search_digits reAgoFor _ ds hd.2]
    · subst hrest; cases u <;> cases pl <;> cases ago <;> decide
    · intro ds' hd'
      rw [agoFor_digits ds' _ hd' hr]
      subst hrest
      cases u <;> cases pl <;> cases ago <;> rfl
  have h3 : reSearch reNIntervalModifier (ds ++ rest) =
      some (ds ++ [' '], u, if ago then "ago to date".toList else "to date".toList) := by
    have : ∃ m ms, reNIntervalModifier (ds ++ rest) =
        ((ds ++ [' '], u, if ago then "ago to date".toList else "to date".toList), m) :: ms := by
      rw [modifier_digits ds _ hd hr]
      subst hrest
      cases u <;> cases pl <;> cases ago <;> exact ⟨_, _, rfl⟩
    obtain ⟨m, ms, e⟩ := this
    exact search_cons _ _ (fun c => hd.1 (List.append_eq_nil_iff.mp c).1) _ _ e
  unfold parseDateCondition
  rw [h1]
  simp only
  unfold parseSimple
  rw [if_neg (digit_ne hd (by decide) _), if_neg (digit_ne hd (by decide) _)]
  unfold parseAgoFor parseNIntervalModifier toDateWindow
  rw [h2, h3]
  simp only [strip_number ds hd]
  have hn : ¬ (ds = "this".toList ∨ ds = []) := by
    rintro (h | h)
    · exact number_ne hd (by decide) h
    · exact hd.1 h
  rw [if_neg hn, if_neg (number_ne hd (by decide))]
  have e : (if (if ago = true then "ago to date".toList else "to date".toList) = "to date".toList then
      digitsToInt ds - 1 else digitsToInt ds) = (if ago = true then digitsToInt ds else digitsToInt ds - 1) := by
    cases ago
    · rfl
    · rw [if_neg (by decide)]; rfl
  rw [e]
  cases startDate ws now (if ago = true then digitsToInt ds else digitsToInt ds - 1) u with
  | error e => rfl
  | ok a =>
    simp only
    rw [if_pos (by cases ago <;> decide)]
    cases startDate ws now 0 u with
    | error e => rfl
    | ok p =>
      simp only
      cases addToEndDate ws a (if daysBetween p now > 0 then daysBetween p now - 1 else 0) Interval.day <;> rfl

end ML
