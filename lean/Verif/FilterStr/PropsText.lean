import Verif.FilterStr.PropsRows
import Mathlib.Tactic.IntervalCases
/-
More of C23, C26 and C51: values that are not strings, the text of constants and times, and the text of a
filtered measure's CASE expression.
-/
set_option autoImplicit false
namespace ML
open Spec

namespace Spec

/-- A number below one hundred, written with two digits. -/
def pair (n : ℕ) : List Char := [Char.ofNat (48 + n / 10), Char.ofNat (48 + n % 10)]

/-- The signs of the six comparisons. -/
def sixSigns : List (Expression × List Char) :=
  [(.lessThan, "<".toList), (.lessOrEqual, "<=".toList), (.equalTo, "=".toList), (.notEqualTo, "<>".toList),
   (.greaterOrEqual, ">=".toList), (.greaterThan, ">".toList)]

end Spec

theorem twoDigits_pair (n : ℕ) (h : n < 100) : twoDigits (n : ℤ) = pair n := by
  interval_cases n <;> decide +kernel

/-- C23 (k): values that are not strings. One and zero are taken for the booleans; any other number, and any
list, is rejected; a reference to another field is compared as it stands unless its text holds " until ". -/
theorem C23_values (num : ToNumeric) (now : DateTime) (week : Option String) (st : WeekState) :
    (filterDict num now week (.int 1) st).1 = .ok [⟨.equalTo, .bool true⟩] ∧
    (filterDict num now week (.int 0) st).1 = .ok [⟨.equalTo, .bool false⟩] ∧
    (∀ n : ℤ, n ≠ 0 → n ≠ 1 → (filterDict num now week (.int n) st).1 = .error .attributeError) ∧
    (∀ l, (filterDict num now week (.list l) st).1 = .error .typeError) ∧
    (∀ s, containsSub " until ".toList s = false →
      (filterDict num now week (.literal s) st).1 = .ok [⟨.equalTo, .literal s⟩]) ∧
    ∀ s, containsSub " until ".toList s = true → (filterDict num now week (.literal s) st).1 = .error .attributeError := by
  refine ⟨rfl, rfl, fun n h0 h1 => ?_, fun l => rfl, fun s h => ?_, fun s h => ?_⟩
  · simp [filterDict, otherComparison, h0, h1]
  · simp only [filterDict, otherComparison, h, Bool.false_eq_true, if_false]
  · simp only [filterDict, h, if_true]

example : containsSub " until ".toList "orders.status".toList = false := by decide

/-- C23 (l): a comma list whose first element is empty is an IndexError, whatever else is in it. -/
theorem C23_list_empty (num : ToNumeric) (now : DateTime) (week : Option String) (st : WeekState) (q : List Char)
    (h : parseDateCondition (weekStateFor week) now (',' :: ' ' :: q) = .ok none) :
    (filterDict num now week (.str (',' :: ' ' :: q)) st).1 = .error .indexError := by
  have hne : (',' :: ' ' :: q) ≠ [] := by simp
  rw [filterDict_str num now week st _ hne none h]
  have e1 : ∀ w ∈ ["NULL".toList, "-NULL".toList, "TRUE".toList, "FALSE".toList], (',' :: ' ' :: q) ≠ w := by
    intro w hw c
    simp only [List.mem_cons, List.not_mem_nil, or_false] at hw
    rcases hw with rfl | rfl | rfl | rfl <;> (injection c with c _; exact absurd c (by decide))
  have hs : splitComma (',' :: ' ' :: q) = [] :: splitComma q := rfl
  have hq : splitComma q ≠ [] := by
    unfold splitComma
    split <;> try (intro c; cases c)
    split <;> (intro c; cases c)
  have hf : firstWord (',' :: ' ' :: q) = [','] := by
    unfold firstWord splitChars
    simp [splitChars]
  have hf2 : ∃ r, firstTwoWords (',' :: ' ' :: q) = ',' :: r := by
    unfold firstTwoWords splitChars
    simp only [splitChars]
    cases hsp : splitChars ' ' q <;> simp
  obtain ⟨r, hf2⟩ := hf2
  have hl : (splitComma (',' :: ' ' :: q)).length > 1 := by
    rw [hs, List.length_cons]
    have := List.length_pos_iff.mpr hq
    omega
  unfold stringComparison
  rw [if_neg (e1 _ (by simp)), if_neg (e1 _ (by simp)), if_neg (e1 _ (by simp)), if_neg (e1 _ (by simp))]
  simp only
  rw [if_neg, if_pos hl, hs]
  · rfl
  · rw [hf, hf2]
    rintro (c | c)
    · simp at c
    · injection c with c _; exact absurd c (by decide)

example (week : Option String) (now : DateTime) :
    parseDateCondition (weekStateFor week) now ", a".toList = .ok none := by
  have e1 : splitFirst " until ".toList ", a".toList = none := by decide
  have e4 : reSearch reAgoFor ", a".toList = none := by decide
  have e5 : reSearch reNIntervalModifier ", a".toList = none := by decide
  have e6 : reSearch reNInterval ", a".toList = none := by decide
  unfold parseDateCondition
  rw [e1]
  simp only
  unfold parseSimple
  rw [if_neg (by decide), if_neg (by decide)]
  unfold parseAgoFor parseNIntervalModifier parseNInterval
  rw [e4, e5, e6]

/-- C51 (e): comparisons with a constant. The SQL text is the field, the sign and the constant. -/
theorem C51_constants (numText : ℚ → List Char) (f : List Char) (e : Expression × List Char) (he : e ∈ sixSigns) :
    (∀ b, sqlQuery numText f ⟨e.1, .bool b⟩ = .ok (f ++ e.2 ++ (if b = true then "true".toList else "false".toList))) ∧
    sqlQuery numText f ⟨e.1, .none⟩ = .ok (f ++ e.2 ++ "null".toList) ∧
    (∀ q, sqlQuery numText f ⟨e.1, .num q⟩ = .ok (f ++ e.2 ++ numText q)) ∧
    (∀ s, sqlQuery numText f ⟨e.1, .literal s⟩ = .ok (f ++ e.2 ++ s)) ∧
    (∀ s, sqlQuery numText f ⟨e.1, .text s⟩ = .ok (f ++ e.2 ++ quote s)) ∧
    sqlQuery numText f ⟨.isNull, .none⟩ = .ok (f ++ " IS NULL".toList) ∧
    sqlQuery numText f ⟨.isNotNull, .none⟩ = .ok ("NOT ".toList ++ f ++ " IS NULL".toList) := by
  simp only [sixSigns, List.mem_cons, List.not_mem_nil, or_false] at he
  rcases he with rfl | rfl | rfl | rfl | rfl | rfl <;>
    refine ⟨fun b => ?_, ?_, fun q => ?_, fun s => ?_, fun s => ?_, rfl, rfl⟩ <;>
    (try cases b) <;> simp [sqlQuery, Operand.sql]

theorem digitChar_ofNat (n : ℕ) (h : n < 10) : Nat.digitChar n = Char.ofNat (48 + n) := by
  interval_cases n <;> decide

theorem year_pairs (y : ℕ) (h1 : 1000 ≤ y) (h2 : y < 10000) :
    (toString (y : ℤ)).toList = pair (y / 100) ++ pair (y % 100) := by
  have : (toString (y : ℤ)) = Nat.repr y := rfl
  rw [this, Nat.toList_repr]
  rw [Nat.toDigits_of_base_le (by omega) (by omega), Nat.toDigits_of_base_le (by omega) (by omega),
    Nat.toDigits_of_base_le (by omega) (by omega), Nat.toDigits_of_lt_base (by omega)]
  rw [digitChar_ofNat _ (by omega), digitChar_ofNat _ (by omega), digitChar_ofNat _ (by omega),
    digitChar_ofNat _ (by omega)]
  simp only [pair, List.cons_append, List.nil_append]
  have a : y / 10 / 10 / 10 = y / 100 / 10 := by omega
  have b : y / 10 / 10 % 10 = y / 100 % 10 := by omega
  have c : y / 10 % 10 = y % 100 / 10 := by omega
  have d : y % 10 = y % 100 % 10 := by omega
  rw [a, b, c, d]

theorem pair_no_quote (n : ℕ) (h : n < 100) : '\'' ∉ pair n := by
  interval_cases n <;> decide

theorem quote_plain (s : List Char) (h : '\'' ∉ s) : quote s = '\'' :: s ++ ['\''] := by
  have : s.flatMap (fun c => if c = '\'' then ['\'', '\''] else [c]) = s := by
    induction s with
    | nil => rfl
    | cons c cs ih =>
      simp only [List.mem_cons, not_or] at h
      simp only [List.flatMap_cons]
      rw [if_neg (Ne.symm h.1), ih h.2]; rfl
  unfold quote
  rw [this]

/-- C51 (f): a time in a year of four digits is written as year, month, day, hour, minute and second, the
last five with two digits each, in one string literal. -/
theorem C51_time (numText : ℚ → List Char) (f : List Char) (e : Expression × List Char) (he : e ∈ sixSigns)
    (y mo d h mi s : ℕ) (hy1 : 1000 ≤ y) (hy2 : y < 10000) (hmo : mo ≤ 12) (hd : d ≤ 31) (hh : h < 24) (hmi : mi < 60)
    (hs : s < 60) :
    sqlQuery numText f ⟨e.1, .time ⟨⟨y, mo, d⟩, ((3600 * h + 60 * mi + s : ℕ) : ℤ)⟩⟩ =
      .ok (f ++ e.2 ++ ('\'' :: (pair (y / 100) ++ pair (y % 100) ++ '-' :: pair mo ++ '-' :: pair d ++
        'T' :: pair h ++ ':' :: pair mi ++ ':' :: pair s) ++ ['\''])) := by
  have e1 : ((3600 * h + 60 * mi + s : ℕ) : ℤ) / 3600 = (h : ℤ) := by omega
  have e2 : ((3600 * h + 60 * mi + s : ℕ) : ℤ) / 60 % 60 = (mi : ℤ) := by omega
  have e3 : ((3600 * h + 60 * mi + s : ℕ) : ℤ) % 60 = (s : ℤ) := by omega
  have q : quote (dateText ⟨⟨y, mo, d⟩, ((3600 * h + 60 * mi + s : ℕ) : ℤ)⟩) =
      '\'' :: (pair (y / 100) ++ pair (y % 100) ++ '-' :: pair mo ++ '-' :: pair d ++ 'T' :: pair h ++ ':' :: pair mi ++
        ':' :: pair s) ++ ['\''] := by
    unfold dateText
    simp only [e1, e2, e3]
    rw [twoDigits_pair _ (by omega), twoDigits_pair _ (by omega), twoDigits_pair _ (by omega),
      twoDigits_pair _ (by omega), twoDigits_pair _ (by omega), year_pairs y hy1 hy2]
    apply quote_plain
    have n : ∀ n < 100, '\'' ∉ pair n := pair_no_quote
    simp only [List.mem_append, List.mem_cons, not_or]
    refine ⟨⟨⟨⟨⟨⟨n _ (by omega), n _ (by omega)⟩, by decide, n _ (by omega)⟩, by decide, n _ (by omega)⟩,
      by decide, n _ (by omega)⟩, by decide, n _ (by omega)⟩, by decide, n _ (by omega)⟩
  simp only [sixSigns, List.mem_cons, List.not_mem_nil, or_false] at he
  rcases he with rfl | rfl | rfl | rfl | rfl | rfl <;> simp only [sqlQuery, Operand.sql] <;> rw [q] <;> simp

/-- C26 (g): the text of a filtered measure: one condition for each comparison, on the field it names, joined
by "and", then the measure's SQL; 0 for other rows where asked for, nothing (NULL) otherwise. -/
theorem C26_text (numText : ℚ → List Char) (c : CaseSql) (t : List Char) (h : c.text numText = .ok t) :
    ∃ ts : List (List Char),
      List.Forall₂ (fun x u => sqlQuery numText ('$' :: '{' :: x.1.toList ++ ['}']) x.2 = .ok u) c.conditions ts ∧
      t = "case when ".toList ++ List.intercalate " and ".toList ts ++ " then ".toList ++ c.sql.toList ++
        (if c.elseZero = true then " else 0 end".toList else " end".toList) := by
  have key : ∀ cs ts, conditionTexts numText cs = .ok ts →
      List.Forall₂ (fun x u => sqlQuery numText ('$' :: '{' :: x.1.toList ++ ['}']) x.2 = .ok u) cs ts := by
    intro cs
    induction cs with
    | nil => intro ts h; injection h with h; subst h; exact .nil
    | cons x xs ih =>
      obtain ⟨n, c⟩ := x
      intro ts h
      unfold conditionTexts at h
      cases h1 : sqlQuery numText ("${".toList ++ n.toList ++ ['}']) c with
      | error e => rw [h1] at h; cases h
      | ok u =>
        rw [h1] at h; simp only at h
        cases h2 : conditionTexts numText xs with
        | error e => rw [h2] at h; cases h
        | ok us =>
          rw [h2] at h; simp only at h; injection h with h; subst h
          exact .cons h1 (ih us h2)
  unfold CaseSql.text at h
  cases h1 : conditionTexts numText c.conditions with
  | error e => rw [h1] at h; cases h
  | ok ts =>
    rw [h1] at h; simp only at h; injection h with h
    exact ⟨ts, key _ _ h1, h.symm⟩

end ML
