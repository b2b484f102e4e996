import Verif.Cond.PropsUse

/-!
Concrete cases for the theorems of C74: a shop with a number, a text, a `yesno` and two time fields, on a warehouse that casts datetimes
and on one that does not.
-/

set_option autoImplicit false

namespace ML

open Spec

namespace CondShop

/-- The shop's fields, on a warehouse of this type (an example; it models no file in /repo). -/
def shop (q : String) : Scene :=
  { queryType := q
    find := fun s =>
      if s = "orders.amount".toList then .ok ⟨"number", none, fun _ => .ok "orders.amount".toList⟩
      else if s = "orders.status".toList then .ok ⟨"string", none, fun _ => .ok "orders.status".toList⟩
      else if s = "orders.paid".toList then .ok ⟨"yesno", none, fun _ => .ok "orders.paid".toList⟩
      else if s = "orders.day".toList then .ok ⟨"time", some "date".toList, fun _ => .ok "orders.day".toList⟩
      else if s = "orders.due".toList then .ok ⟨"time", some "timestamp".toList, fun _ => .ok "orders.due".toList⟩
      else .error .accessDenied
    pk := .ok none, week := none, now := ⟨⟨2024, 5, 17⟩, 3600⟩
    literalSql := fun s => if s = "${orders.paid}".toList then .ok "orders.paid".toList else .error .parse }

/-- A printer of numbers (an example; it models no file in /repo). -/
def sh : Shows := ⟨fun q => if q = 1 then ['1'] else if q = 2 then ['2'] else ['9'], fun _ => []⟩

/-- Reads "1" and "2" (an example; it models no file in /repo). -/
def num : ToNumeric := fun s => if s = ['1'] then some 1 else if s = ['2'] then some 2 else none

theorem amount (q : String) : HasSql (shop q) "orders.amount".toList ⟨"number", none, fun _ => .ok "orders.amount".toList⟩ "orders.amount".toList :=
  ⟨rfl, none, rfl, rfl⟩
theorem status (q : String) : HasSql (shop q) "orders.status".toList ⟨"string", none, fun _ => .ok "orders.status".toList⟩ "orders.status".toList :=
  ⟨rfl, none, rfl, rfl⟩
theorem paid (q : String) : HasSql (shop q) "orders.paid".toList ⟨"yesno", none, fun _ => .ok "orders.paid".toList⟩ "orders.paid".toList :=
  ⟨rfl, none, rfl, rfl⟩
theorem day (q : String) : HasSql (shop q) "orders.day".toList ⟨"time", some "date".toList, fun _ => .ok "orders.day".toList⟩ "orders.day".toList :=
  ⟨rfl, none, rfl, rfl⟩

theorem noPoint (sc : Scene) {s : List Char} (h : '.' ∉ s) : ¬ ∃ t, NamesField sc s t := fun ⟨_, h', _⟩ => h h'

theorem asIs (sc : Scene) {s : List Char} (h : '.' ∉ s) : TakenAsIs sc (.text s) :=
  ⟨by intro s' e; cases e; exact noPoint sc h, by intro t e; cases e⟩

variable (w : RowSql)

/-- `C74_compares`: the amounts that are at least two. -/
example := C74_compares sh num w (amount "SNOWFLAKE") (by decide) (name := "greater_or_equal_than") (by decide) (v := .num 2)
  (Or.inr (Or.inl ⟨2, rfl⟩)) ⟨(by intro s h; cases h), (by intro t h; cases h)⟩

/-- `C74_field_value`: the orders of a day before the one they are due. -/
example := C74_field_value sh num w (day "SNOWFLAKE") (by decide) (name := "less_than") (by decide) (s := "orders.due".toList)
  (t := "orders.due".toList) ⟨by decide, _, none, rfl, rfl, rfl⟩

/-- `C74_texts_partial`: the states that start with "done". -/
example := C74_texts_partial sh num w (status "BIGQUERY") (by decide) (name := "starts_with") (by decide) (v := .text "done".toList)
  (Or.inr (Or.inr (Or.inl ⟨_, rfl⟩))) (asIs _ (by decide)) (show NoWildcard "done".toList by unfold NoWildcard; decide)

/-- `C74_like`. -/
example := C74_like sh num w (status "BIGQUERY") (by decide) (s := "d_n%".toList) (asIs _ (by decide))

/-- `C74_lists`. -/
example := C74_lists sh num w (status "SNOWFLAKE") (by decide) (by decide) (l := [.text "done".toList, .text "new".toList]) (by simp)

/-- `C74_refused`: a field that is not there; and a value that is missing. -/
example : (onField "orders.tax".toList "equal_to" (some (.num 1))).validate (some (shop "SNOWFLAKE")) = .error .accessDenied :=
  (C74_refused _ _ _ _ _).2 (Or.inr (Or.inr (Or.inl
    ⟨⟨by decide, Or.inr (by simp)⟩, Or.inl ⟨.accessDenied, rfl, by simp, rfl⟩⟩)))
example : (onField "orders.amount".toList "equal_to" none).validate (some (shop "SNOWFLAKE")) = .error .parse :=
  (C74_refused _ _ _ _ _).2 (Or.inr (Or.inl ⟨by decide, by simp [Complete], rfl⟩))

/-- `C74_unknown`: the names are in lower case. -/
example := C74_unknown sh num (status "SNOWFLAKE") (by decide) (name := "EQUAL_TO") (by decide) (by decide) (v := .text "done".toList)
  (by simp) (asIs _ (by decide))

/-- `C74_no_value`. -/
example := C74_no_value sh num w (status "SNOWFLAKE") (v := none)
  (Or.inr ⟨rfl, by intro h; rcases h with h | h <;> revert h <;> decide, by decide⟩)
example := C74_no_value sh num w (paid "BIGQUERY") (v := some .none) (Or.inl rfl)

/-- `C74_yesno`, `C74_yesno_not`, `C74_yesno_both`. -/
example := C74_yesno sh num w (paid "SNOWFLAKE") rfl (name := "equal_to") (by decide) true
example := C74_yesno_not sh num w (paid "SNOWFLAKE") rfl
example := C74_yesno_both sh num w (paid "SNOWFLAKE") rfl

/-- `C74_numbers`: the texts "1" and "2" on a number field; and a text that is no number. -/
example := (C74_numbers sh num w (amount "SNOWFLAKE") rfl (l := [.text ['1'], .num 2])).1 [.num 1, .num 2]
  (.cons (.text ['1'] 1 rfl) (.cons (.num 2) .nil)) (by simp)
example := (C74_numbers sh num w (amount "SNOWFLAKE") rfl (l := [.text ['x'], .num 2])).2 ['x'] (by simp) rfl

/-- `C74_digits`: "12" is the list of one and two. -/
example := (C74_digits sh num (amount "SNOWFLAKE") (by decide) (s := ['1', '2']) (by decide)).1 rfl [1, 2] rfl

/-- `C74_matches_cast`: a text looked for in a text dimension on BigQuery. -/
example := C74_matches_cast sh num (status "BIGQUERY") (by decide) (Or.inl rfl) rfl (s := "done".toList) (noPoint _ (by decide))
  (cs := [⟨.equalTo, .text "done".toList⟩]) (by rfl)

/-- `C74_matches`: the same text on Snowflake. -/
example : ∃ as c', (onField "orders.status".toList "matches" (some (.text "done".toList))).sql sh num (shop "SNOWFLAKE") = .ok (.all as, c') ∧
    (truths sh w as = .t ↔ ∀ c ∈ [(⟨.equalTo, .text "done".toList⟩ : Comparison)], truth sh w ⟨"orders.status".toList, c.expr, c.value.toCVal⟩ = .t) := by
  refine ⟨[⟨"orders.status".toList, .equalTo, .text "done".toList⟩], onField "orders.status".toList "matches" (some (.text "done".toList)), by rfl, ?_⟩
  exact (C74_matches sh num w (status "SNOWFLAKE") (by decide) (by decide) (by intro h; rcases h with h | h <;> revert h <;> decide)
    (s := "done".toList) (noPoint _ (by decide)) (cs := [⟨.equalTo, .text "done".toList⟩]) (by rfl) (c' := onField "orders.status".toList "matches" (some (.text "done".toList))) (by rfl)).1

/-- `C74_matches_window`. -/
example : ∃ win, win ≠ [] ∧ parseDateCondition (weekStateFor (shop "SNOWFLAKE").week) (shop "SNOWFLAKE").now "yesterday".toList = .ok (some win) :=
  ⟨[(.ge, ⟨⟨2024, 5, 16⟩, 0⟩), (.le, ⟨⟨2024, 5, 16⟩, 86399⟩)], by simp, by rfl⟩

/-- `C74_datetime`: a day of a date field on Trino. -/
example := C74_datetime sh num w (day "TRINO") (by decide) (Or.inr rfl) (d := "date".toList) rfl (name := "equal_to") (by decide)
  ⟨⟨2024, 5, 1⟩, 0⟩

/-- `C74_literal`, `C74_both`. -/
example := C74_literal sh num (shop "SNOWFLAKE") "${orders.paid}".toList (by decide) none
example : ∃ out c', (⟨some "orders.amount".toList, some "${orders.paid}".toList, some "equal_to", some (.num 1)⟩ : Cond).sql sh num
    (shop "SNOWFLAKE") = .ok (out, c') := ⟨_, _, rfl⟩

/-- `C74_boolean`. -/
example := C74_boolean sh num (shop "SNOWFLAKE") ⟨none, rfl⟩

/-- `C74_again`: with a value that is changed. -/
example : ∃ f c', (onField "orders.day".toList "less_than" (some (.text "orders.due".toList))).validate (some (shop "SNOWFLAKE")) = .ok (f, c') ∧
    c' ≠ onField "orders.day".toList "less_than" (some (.text "orders.due".toList)) := ⟨_, _, rfl, by decide⟩

/-- `C74_result`, `C74_result_matches`. -/
example := C74_result sh num w (fun _ => .ok "orders_amount".toList) (k := "orders.amount".toList) rfl (name := "less_than") (by decide)
  (v := .num 2) (Or.inr (Or.inl ⟨2, rfl⟩))
example := C74_result_matches num (fun _ => .ok "orders_status".toList) (k := "orders.status".toList) rfl (v := .text "done".toList) (by simp)

/-- `C74_text`. -/
example := (C74_text sh num "string" (by decide) "orders.status".toList .equalTo ⟨"orders.status".toList, .equalTo, .text "it's".toList⟩).1
  "it's".toList rfl

end CondShop

end ML
