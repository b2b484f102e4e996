import Verif.Cases.Props
/-
C77: yesno dimensions, what is refused or taken apart, and a warehouse that meets the conditions.
-/
set_option autoImplicit false
namespace ML
open Spec

/-- C77: the text of a yesno dimension is in parentheses, so it is one operand wherever the dimension is used, and it is the condition its author wrote. -/
theorem C77_yesno (num : ℚ → String) (d : DimDef) (sql : List Char) (hs : d.sql = some sql) (ht : d.type = "yesno") (hc : ClosedText sql) :
    ∃ t, dimSql num d = .ok (some t) ∧ aloneText t = some (readClosed sql) := by
  refine ⟨'(' :: sql ++ [')'], ?_, alone_paren hc⟩
  unfold dimSql
  cases d.tiers <;> simp [hs, ht]

/-- C77: a dimension with its own `sql` keeps it as it is, whatever its `case` says. -/
theorem C77_sql_first (num : ℚ → String) (d : DimDef) (sql : List Char) (hs : d.sql = some sql) (ht : d.type ≠ "tier") (hy : d.type ≠ "yesno") :
    dimSql num d = .ok (some sql) := by
  unfold dimSql
  cases d.tiers <;> simp [hs, ht, hy]

/-- C77: without `sql` and `case` there is no text, whatever the tiers; a `tier` with an empty list of tiers fails. -/
theorem C77_no_sql (num : ℚ → String) (d : DimDef) : (d.sql = none → d.cases = none → dimSql num d = .ok none) ∧
    ((∃ s, d.sql = some s) → d.type = "tier" → d.tiers = some [] → dimSql num d = .error .indexError) := by
  constructor
  · intro h1 h2
    unfold dimSql
    simp [h1, h2]
  · rintro ⟨s, h1⟩ h2 h3
    unfold dimSql
    simp [h1, h2, h3, tierCase, Except.map]

/-- C77: double quotes in a condition become single quotes, also around a name: a comparison of a column becomes one of two strings. -/
theorem C77_identifier :
    condText "\"name\" = 'a'".toList ≠ condText (asStrings "\"name\" = 'a'".toList) ∧
    condText (asStrings "\"name\" = 'a'".toList) = some (.bin "=".toList (.str "name".toList) (.str "a".toList)) ∧
    ∃ t e, caseSql ⟨some [⟨some "\"name\" = 'a'".toList, some "yes".toList⟩], none⟩ = .ok t ∧ readText t = some e ∧
      e = .call (caseName 1 false) (SExp.ofList [.bin "=".toList (.str "name".toList) (.str "a".toList), .str "yes".toList]) := by
  refine ⟨by decide +kernel, by decide +kernel, "case when 'name' = 'a' then 'yes' end".toList, _, by decide +kernel, by decide +kernel, rfl⟩

/-- C77: a label with a single quote in it makes a text no warehouse can read; and so does a condition with a single quote in a string in double quotes. -/
theorem C77_quote :
    (∃ t, caseSql ⟨some [⟨some "a > 1".toList, some "it's".toList⟩], none⟩ = .ok t ∧ readText t = none) ∧
    (∃ t, caseSql ⟨some [⟨some "a = \"it's\"".toList, some "yes".toList⟩], none⟩ = .ok t ∧ readText t = none) :=
  ⟨⟨"case when a > 1 then 'it's' end".toList, by decide +kernel, by decide +kernel⟩,
    "case when a = 'it's' then 'yes' end".toList, by decide +kernel, by decide +kernel⟩

/-- C77: a `case` without cases makes a text with none either: CASE and END, which is no expression. -/
theorem C77_no_cases : ∃ t, caseSql ⟨some [], none⟩ = .ok t ∧ t = "case end".toList := ⟨_, rfl, by decide +kernel⟩

/-- C77: the `sql` of a tier that is several operands is taken apart: `a or b` is compared in its last part only. -/
theorem C77_tier_taken_apart :
    aloneText "a or b".toList = none ∧
    condText (tierCond (fun q => toString q.num) "a or b".toList (.below 5)) =
      some (.bin "or".toList (.atom "a".toList) (.bin "<".toList (.atom "b".toList) (.atom "5".toList))) := by
  refine ⟨by decide +kernel, ?_⟩
  show condText ("a or b".toList ++ " < ".toList ++ (toString (5 : ℤ)).toList) = _
  decide +kernel

/-! ### A warehouse that meets the conditions -/

/-- Values of an example warehouse (an example; it models no file in /repo). -/
inductive CV where
  | null
  | bool (b : Bool)
  | num (q : ℚ)
  | str (s : List Char)
  | cons (a b : CV)
  deriving DecidableEq

/-- The list of arguments (an example; it models no file in /repo). -/
def CV.args : CV → List CV
  | .cons a b => a :: b.args
  | _ => []

/-- CASE (an example; it models no file in /repo). -/
def CV.case : List CV → CV
  | c :: v :: r => if c = .bool true then v else CV.case r
  | [e] => e
  | [] => .null

/-- A number, if it is one (an example; it models no file in /repo). -/
def CV.number : CV → Option ℚ
  | .num q => some q
  | _ => none

/-- Numbers in digits (an example; it models no file in /repo). -/
def digitsValue (t : List Char) : ℕ := t.foldl (fun n c => 10 * n + (c.toNat - 48)) 0

/-- An example warehouse: one row, its columns given (an example; it models no file in /repo). -/
def caseHouse (row : List Char → Option CV) : Interp CV where
  atom t := match row t with
    | some v => v
    | none => if t.all Char.isDigit then .num (digitsValue t) else .null
  str s := .str s
  other _ := .null
  call n a := if n = caseName (a.args.length / 2) (a.args.length % 2 = 1) then CV.case a.args else .null
  tuple a := a
  bin o a b :=
    if o = "<".toList then .bool (match a.number, b.number with | some x, some y => decide (x < y) | _, _ => false)
    else if o = ">=".toList then .bool (match a.number, b.number with | some x, some y => decide (y ≤ x) | _, _ => false)
    else if o = "and".toList then .bool (decide (a = .bool true) && decide (b = .bool true))
    else if o = "=".toList then .bool (decide (a = b))
    else .null
  un o a := if o = "neg".toList then (match a with | .num q => .num (-q) | _ => .null) else .null
  nil := .null
  cons a b := .cons a b

theorem caseHouse_args (row : List Char → Option CV) (l : List CV) : (argValues (caseHouse row) l).args = l := by
  induction l with
  | nil => rfl
  | cons a l ih => simp only [argValues, caseHouse, CV.args] at ih ⊢; rw [ih]

theorem caseHouse_case (row : List Char → Option CV) : KnowsCase (caseHouse row) (fun v => decide (v = .bool true)) .null := by
  intro bs els
  have h1 : (bs.flatMap (fun b => [b.1, b.2]) ++ els.toList).length = 2 * bs.length + (if els.isSome then 1 else 0) := by
    rw [List.length_append, List.length_flatMap]
    cases els <;> simp <;> omega
  show (if caseName bs.length els.isSome = _ then _ else _) = _
  rw [caseHouse_args, h1, if_pos]
  · clear h1
    induction bs with
    | nil => cases els <;> rfl
    | cons b bs ih =>
      simp only [List.flatMap_cons, List.cons_append, List.nil_append, CV.case, List.find?_cons]
      by_cases hb : b.1 = .bool true
      · simp [hb]
      · simp only [hb, if_false, decide_false]
        exact ih
  · cases els
    · have a1 : (2 * bs.length + 0) / 2 = bs.length := by omega
      have a2 : ¬ (2 * bs.length + 0) % 2 = 1 := by omega
      simp [a1]
    · have a1 : (2 * bs.length + 1) / 2 = bs.length := by omega
      have a2 : (2 * bs.length + 1) % 2 = 1 := by omega
      simp only [Option.isSome_some, if_true, a1, a2, decide_true]

theorem caseHouse_numbers (row : List Char → Option CV) : KnowsNumbers (caseHouse row) (fun v => decide (v = .bool true)) CV.number where
  less a b := by
    simp only [caseHouse, if_true]
    cases a.number <;> cases b.number <;> simp
  atLeast a b := by
    have h : ">=".toList ≠ "<".toList := by decide +kernel
    simp only [caseHouse, if_true, if_neg h]
    cases a.number <;> cases b.number <;> simp
  both a b := by
    have h1 : "and".toList ≠ "<".toList := by decide +kernel
    have h2 : "and".toList ≠ ">=".toList := by decide +kernel
    simp only [caseHouse, if_true, if_neg h1, if_neg h2]
    simp

/-- A row with an age of 7 (an example; it models no file in /repo). -/
def ageRow (t : List Char) : Option CV := if t = "age".toList then some (.num 7) else none

/-- A case on the age (an example; it models no file in /repo). -/
def ageCase : CaseDef :=
  ⟨some [⟨some "age < 5".toList, some "small".toList⟩, ⟨some "age >= 5 and \"x\" = \"x\"".toList, some "big".toList⟩], some "none".toList⟩

example : ∃ t e, caseSql ageCase = .ok t ∧ readText t = some e ∧ aloneText t = some e ∧
    e.value (caseHouse ageRow) (fun _ => .null) = .str "big".toList := by
  obtain ⟨t, e, h1, h2, h3, h4⟩ := C77_case (caseHouse ageRow) _ .null (caseHouse_case ageRow) (fun _ => .null) ageCase _ rfl
    [(.bin "<".toList (.atom "age".toList) (.atom "5".toList), "small".toList),
      (.bin "and".toList (.bin ">=".toList (.atom "age".toList) (.atom "5".toList)) (.bin "=".toList (.str "x".toList) (.str "x".toList)), "big".toList)]
    (.cons ⟨_, rfl, by decide +kernel, rfl, by decide +kernel⟩ (.cons ⟨_, rfl, by decide +kernel, rfl, by decide +kernel⟩ .nil))
    (some "none".toList) rfl (by intro l hl; injection hl with hl; rw [← hl]; decide +kernel)
  refine ⟨t, e, h1, h2, h3, ?_⟩
  rw [h4]
  decide +kernel

/-- Tiers on the age (an example; it models no file in /repo). -/
def ageTiers : DimDef := ⟨some "age".toList, none, "tier", some [5, 10]⟩

/-- Boundaries as Python prints them (an example; it models no file in /repo). -/
def ageNum (q : ℚ) : String := if q = 5 then "5" else "10"

example : ∃ t e, dimSql ageNum ageTiers = .ok (some t) ∧ readText t = some e ∧ aloneText t = some e ∧
    (∀ q, (SExp.atom "age".toList).value (caseHouse ageRow) (fun _ => .null) = .num q →
      ∃ w, InTier w q ∧ (∀ b ∈ boundsOf w, b ∈ ([5, 10] : List ℚ)) ∧ e.value (caseHouse ageRow) (fun _ => .null) = .str (tierLabel ageNum w).toList) := by
  obtain ⟨t, e, h1, h2, h3, h4, _⟩ := C77_tier_partial (caseHouse ageRow) _ .null (caseHouse_case ageRow) CV.number (caseHouse_numbers ageRow)
    (fun _ => .null) ageNum ageTiers _ (.atom "age".toList) [5, 10] rfl (by decide +kernel) rfl rfl (by simp) (by
      intro q hq
      simp only [List.mem_cons, List.not_mem_nil, or_false] at hq
      rcases hq with rfl | rfl
      · exact ⟨.inl ⟨.atom "5".toList, by decide +kernel, by decide +kernel⟩, by decide +kernel⟩
      · exact ⟨.inl ⟨.atom "10".toList, by decide +kernel, by decide +kernel⟩, by decide +kernel⟩)
  refine ⟨t, e, h1, h2, h3, ?_⟩
  intro q hq
  exact h4 q (by rw [hq]; rfl)

example : ∃ t, dimSql ageNum ⟨some "age < 5 or age > 9".toList, none, "yesno", none⟩ = .ok (some t) ∧
    aloneText t = some (readClosed "age < 5 or age > 9".toList) :=
  C77_yesno _ _ _ rfl rfl (by unfold ClosedText; decide +kernel)

end ML
