import Verif.Cond.Examples
/-
C74, continued: how constants are written, lists on `yesno` fields, which values stand for themselves, which lists are refused.
-/
set_option autoImplicit false
namespace ML
open Spec

section
variable (sh : Shows) (num : ToNumeric) {sc : Scene} {k col : List Char} {f : AskedField}

/-! ### The text of constants -/

/-- C74. Compared with `=`, true and false are written `true` and `false`, and in a list after IN too. -/
theorem C74_boolean_text (hf : HasSql sc k f col) (ht : f.type ≠ "yesno") (hn : f.type ≠ "number") (b : Bool) :
    (∃ a c', (onField k "equal_to" (some (.bool b))).sql sh num sc = .ok (.all [a], c') ∧
      (b = true → a.text sh = col ++ "=true".toList) ∧ (b = false → a.text sh = col ++ "=false".toList)) ∧
    (∃ a c', (onField k "isin" (some (.list [.bool true, .bool false]))).sql sh num sc = .ok (.all [a], c') ∧
      a.text sh = col ++ " IN (true,false)".toList) ∧
    (∃ a c', (onField k "equal_to" (some (.list [.bool true, .bool false]))).sql sh num sc = .ok (.all [a], c') ∧
      a.text sh = col ++ "=[true,false]".toList) := by
  refine ⟨⟨⟨col, .equalTo, .bool b⟩, onField k "equal_to" (some (.bool b)), ?_, ?_, ?_⟩,
    ⟨⟨col, .isIn, .list [.bool true, .bool false]⟩, onField k "isin" (some (.list [.bool true, .bool false])), ?_, ?_⟩,
    ⟨⟨col, .equalTo, .list [.bool true, .bool false]⟩, onField k "equal_to" (some (.list [.bool true, .bool false])), ?_, ?_⟩⟩
  · rw [sql_onField sh num hf (by decide) (by simp) (v' := some (.bool b)) (name' := "equal_to") rfl (yesNo_other ht _ _),
      criterion_plain _ _ _ _ _ _ _ (by decide)]
    rfl
  · rintro rfl
    rfl
  · rintro rfl
    rfl
  · have hb : (f.type == "number") = false := by simpa using hn
    rw [sql_onField sh num hf (by decide) (by simp) (v' := some (.list [.bool true, .bool false])) (name' := "isin") rfl (yesNo_other ht _ _),
      criterion_plain _ _ _ _ _ _ _ (by decide)]
    simp only [parseExpression, mkAtom, hb, listValue, Option.getD_some]
    rfl
  · simp [Atom.text, CVal.tuple, CItem.sql]
  · rw [sql_onField sh num hf (by decide) (by simp) (v' := some (.list [.bool true, .bool false])) (name' := "equal_to") rfl
      (yesNo_other ht _ _), criterion_plain _ _ _ _ _ _ _ (by decide)]
    rfl
  · simp [Atom.text, CVal.sql', CItem.sql]

/-- C74. The search for a text with the value true or false looks for `True` or `False`. -/
theorem C74_boolean_search (hf : HasSql sc k f col) (ht : f.type ≠ "yesno") (b : Bool) :
    ∃ a c', (onField k "contains" (some (.bool b))).sql sh num sc = .ok (.all [a], c') ∧
      (b = true → a.text sh = col ++ " LIKE '%True%'".toList) ∧ (b = false → a.text sh = col ++ " LIKE '%False%'".toList) := by
  refine ⟨⟨col, .contains, .bool b⟩, onField k "contains" (some (.bool b)), ?_, ?_, ?_⟩
  · rw [sql_onField sh num hf (by decide) (by simp) (v' := some (.bool b)) (name' := "contains") rfl (yesNo_other ht _ _),
      criterion_plain _ _ _ _ _ _ _ (by decide)]
    rfl
  · rintro rfl
    have : quote ('%' :: "True".toList ++ ['%']) = "'%True%'".toList := by decide +kernel
    simp only [Atom.text, CVal.shown, if_true]
    rw [this]
    simp
  · rintro rfl
    have : quote ('%' :: "False".toList ++ ['%']) = "'%False%'".toList := by decide +kernel
    simp only [Atom.text, CVal.shown, Bool.false_eq_true, if_false]
    rw [this]
    simp

/-- C74. The datetime in a cast is written `year-month-day hours:minutes:seconds`, each of two digits but the year. -/
theorem C74_time_text (d : Date) (h m s : ℕ) (hm : m < 60) (hs : s < 60) :
    timeShown ⟨d, h * 3600 + m * 60 + s⟩ = (toString d.year).toList ++ '-' :: twoDigits d.month ++ '-' :: twoDigits d.day ++
      ' ' :: twoDigits h ++ ':' :: twoDigits m ++ ':' :: twoDigits s := by
  have e1 : (((h * 3600 + m * 60 + s : ℤ)) / 3600) = h := by omega
  have e2 : (((h * 3600 + m * 60 + s : ℤ)) / 60 % 60) = m := by omega
  have e3 : (((h * 3600 + m * 60 + s : ℤ)) % 60) = s := by omega
  unfold timeShown
  simp only [e1, e2, e3]

/-! ### Lists on `yesno` fields -/

/-- C74. A list with one truth value on a `yesno` field keeps the rows with that value; a list of numbers is looked up as a list. -/
theorem C74_yesno_list (w : RowSql) (hf : HasSql sc k f col) (ht : f.type = "yesno") (b : Bool) (l : List ℚ) :
    (∃ a c', (onField k "isin" (some (.list [.bool b]))).sql sh num sc = .ok (.all [a], c') ∧ (truth sh w a = .t ↔ w.ev col = .bool b)) ∧
    (∃ c', (onField k "isin" (some (.list (l.map .num)))).sql sh num sc = .ok (.all [⟨col, .isIn, .list (l.map .num)⟩], c')) := by
  constructor
  · have hy : yesNo f "isin" (some (.list [.bool b])) = .ok (if b then "boolean_true" else "boolean_false") := by
      cases b <;> simp [yesNo, ht, CVal.mentions, CItem.mentions]
    have := sql_onField sh num hf (name := "isin") (by decide) (v := some (.list [.bool b])) (by simp) (v' := some (.list [.bool b])) rfl hy
    rw [criterion_plain _ _ _ _ _ _ _ (by cases b <;> simp)] at this
    cases b
    · refine ⟨⟨col, .booleanFalse, .list [.bool false]⟩, _, this, ?_⟩
      cases h : w.ev col with
      | bool b => cases b <;> simp [truth, asCondition, TV.ofBool, TV.not, h]
      | _ => simp [truth, asCondition, TV.not, h]
    · refine ⟨⟨col, .booleanTrue, .list [.bool true]⟩, _, this, ?_⟩
      cases h : w.ev col with
      | bool b => cases b <;> simp [truth, asCondition, TV.ofBool, h]
      | _ => simp [truth, asCondition, h]
  · have hy : yesNo f "isin" (some (.list (l.map .num))) = .ok "isin" := by
      simp [yesNo, ht, CVal.mentions, CItem.mentions]
    have hb : (f.type == "number") = false := by rw [ht]; decide
    refine ⟨onField k "isin" (some (.list (l.map .num))), ?_⟩
    rw [sql_onField sh num hf (by decide) (by simp) (v' := some (.list (l.map .num))) rfl hy, criterion_plain _ _ _ _ _ _ _ (by decide)]
    simp only [parseExpression, mkAtom, hb, listValue, Option.getD_some]
    rfl

/-! ### Numbers where a string is expected -/

/-- C74. A number where a string is to be read: 1 and 0 are the test for true and for false, any other is an AttributeError. -/
theorem C74_matches_number (hf : HasSql sc k f col) (ht : f.type ≠ "yesno") (hc : sc.queryType ∉ castTypes) (q : ℚ) :
    (q = 1 → ∃ c', (onField k "matches" (some (.num q))).sql sh num sc = .ok (.all [⟨col, .equalTo, .bool true⟩], c')) ∧
    (q = 0 → ∃ c', (onField k "matches" (some (.num q))).sql sh num sc = .ok (.all [⟨col, .equalTo, .bool false⟩], c')) ∧
    (q ≠ 0 → q ≠ 1 → (onField k "matches" (some (.num q))).sql sh num sc = .error .attributeError) := by
  have key := sql_onField sh num hf (name := "matches") (by decide) (v := some (.num q)) (by simp) (v' := some (.num q)) rfl
    (yesNo_other ht _ _)
  refine ⟨?_, ?_, ?_⟩
  · rintro rfl
    refine ⟨onField k "matches" (some (.num 1)), key.trans ?_⟩
    simp [Cond.criterion, CVal.toFVal, filterDict, otherComparison, matchAtoms, matchAtom, hc, mkAtom, Operand.toCVal]
  · rintro rfl
    refine ⟨onField k "matches" (some (.num 0)), key.trans ?_⟩
    simp [Cond.criterion, CVal.toFVal, filterDict, otherComparison, matchAtoms, matchAtom, hc, mkAtom, Operand.toCVal]
  · intro h0 h1
    rw [key]
    simp [Cond.criterion, CVal.toFVal, filterDict, otherComparison, h0, h1]

/-- C74. A number compared with a `yesno` field is compared as a number. -/
theorem C74_yesno_number (hf : HasSql sc k f col) (ht : f.type = "yesno") (q : ℚ) :
    ∃ c', (onField k "equal_to" (some (.num q))).sql sh num sc = .ok (.all [⟨col, .equalTo, .num q⟩], c') := by
  have hy : yesNo f "equal_to" (some (.num q)) = .ok "equal_to" := by simp [yesNo, ht, CVal.mentions]
  refine ⟨onField k "equal_to" (some (.num q)), ?_⟩
  rw [sql_onField sh num hf (by decide) (by simp) (v' := some (.num q)) rfl hy, criterion_plain _ _ _ _ _ _ _ (by decide)]
  rfl

/-! ### What is refused -/

/-- C74. Without a field and a literal, exactly the values that read `true` in some case are accepted; the others are a ParseError. -/
theorem C74_true_values (sc : Option Scene) (v : CVal) :
    ((∃ r, (⟨none, none, some "boolean_true", some v⟩ : Cond).validate sc = .ok r) ↔
      v = .bool true ∨ (∃ s, s.map Char.toLower = "true".toList ∧ (v = .text s ∨ v = .sql s))) ∧
    (∀ e, (⟨none, none, some "boolean_true", some v⟩ : Cond).validate sc = .error e → e = .parse) := by
  have key : (⟨none, none, some "boolean_true", some v⟩ : Cond).validate sc =
      if v.isTrue then .ok (none, ⟨none, none, some "boolean_true", some (.bool true)⟩) else .error .parse := by
    cases h : v.isTrue <;> cases sc <;> simp [Cond.validate, Cond.isBoolean, h, Cond.noneGiven]
  have ht : v.isTrue = true ↔ v = .bool true ∨ (∃ s, s.map Char.toLower = "true".toList ∧ (v = .text s ∨ v = .sql s)) := by
    cases v with
    | bool b => cases b <;> simp [CVal.isTrue]
    | text s =>
      simp only [CVal.isTrue, decide_eq_true_eq]
      constructor
      · intro h
        exact Or.inr ⟨s, h, Or.inl rfl⟩
      · rintro (h | ⟨s', h, h' | h'⟩)
        · cases h
        · cases h'
          exact h
        · cases h'
    | sql s =>
      simp only [CVal.isTrue, decide_eq_true_eq]
      constructor
      · intro h
        exact Or.inr ⟨s, h, Or.inr rfl⟩
      · rintro (h | ⟨s', h, h' | h'⟩)
        · cases h
        · cases h'
        · cases h'
          exact h
    | _ => simp [CVal.isTrue]
  rw [← ht, key]
  cases v.isTrue <;> simp

/-- C74. On a number field a value for `isin` that is neither a list nor a text is a TypeError, on other fields one that is no list and no SQL is an
AttributeError. -/
theorem C74_list_refused (hf : HasSql sc k f col) (ht : f.type ≠ "yesno") (q : ℚ) :
    (onField k "isin" (some (.num q))).sql sh num sc = .error (if f.type = "number" then .typeError else .attributeError) := by
  rw [sql_onField sh num hf (by decide) (by simp) (v' := some (.num q)) (name' := "isin") rfl (yesNo_other ht _ _),
    criterion_plain _ _ _ _ _ _ _ (by decide)]
  by_cases hn : f.type = "number"
  · simp only [parseExpression, mkAtom, listValue, Option.getD_some, if_true, hn]
    rfl
  · have hb : (f.type == "number") = false := by simpa using hn
    simp only [parseExpression, mkAtom, hb, listValue, Option.getD_some, hn]
    rfl

/-- C74. On a result, a literal is an AttributeError and a truth value without a field a TypeError. -/
theorem C74_result_refused (num : ToNumeric) (col : List Char → Res (List Char)) (s : List Char) (hs : s ≠ []) :
    (⟨none, some s, none, none⟩ : Cond).aliasSql num col = .error .attributeError ∧
    (⟨none, none, some "boolean_true", some (.bool true)⟩ : Cond).aliasSql num col = .error .typeError := by
  constructor
  · simp [Cond.aliasSql, Cond.validate, Cond.isBoolean, hs]
  · simp [Cond.aliasSql, Cond.validate, Cond.isBoolean, CVal.isTrue, Cond.noneGiven]

end

open CondShop in
/-- The hypotheses above are met by the fields of the example shop. -/
example (q : String) : HasSql (CondShop.shop q) "orders.status".toList ⟨"string", none, fun _ => .ok "orders.status".toList⟩ "orders.status".toList ∧
    HasSql (CondShop.shop q) "orders.paid".toList ⟨"yesno", none, fun _ => .ok "orders.paid".toList⟩ "orders.paid".toList ∧
    HasSql (CondShop.shop q) "orders.amount".toList ⟨"number", none, fun _ => .ok "orders.amount".toList⟩ "orders.amount".toList :=
  ⟨status q, paid q, amount q⟩

end ML
