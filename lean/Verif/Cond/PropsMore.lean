import Verif.Cond.Props
import Verif.FilterStr.PropsRows
/-
C74, continued: which conditions are refused, conditions without a value, `yesno` fields, number fields, `matches`, datetimes, literal
filters, conditions used twice, and conditions on results.
-/
set_option autoImplicit false
namespace ML
open Spec

namespace Spec

/-- The expression is not the forbidden one, and there is a value unless the expression needs none. -/
def Complete (name : String) (v : Option CVal) : Prop :=
  name ≠ "UNKNOWN" ∧
    (name ∈ ["is_null", "is_not_null", "boolean_true", "boolean_false", "converted", "dropped_off"] ∨ ∃ u, v = some u ∧ u ≠ .none)

/-- The warehouses whose datetimes are cast. -/
def Casts (sc : Scene) : Prop := sc.queryType = "BIGQUERY" ∨ sc.queryType = "TRINO"

/-- The element of a list on a number field stands for this one. -/
inductive WritesNumber (num : ToNumeric) : CItem → CItem → Prop
  | text (s : List Char) (q : ℚ) : num s = some q → WritesNumber num (.text s) (.num q)
  | num (q : ℚ) : WritesNumber num (.num q) (.num q)
  | bool (b : Bool) : WritesNumber num (.bool b) (.bool b)

end Spec

theorem complete_iff (name : String) (v : Option CVal) :
    Complete name v ↔ name ≠ "UNKNOWN" ∧ ¬ ((v = none ∨ v = some .none) ∧ name ∉ noValue) := by
  unfold Complete
  refine and_congr_right fun _ => ?_
  have hn : name ∈ ["is_null", "is_not_null", "boolean_true", "boolean_false", "converted", "dropped_off"] ↔ name ∈ noValue := Iff.rfl
  rw [hn]
  by_cases h : name ∈ noValue
  · simp [h]
  · cases v with
    | none => simp [h]
    | some u => simp [h]

/-- C74. A condition on a field is refused exactly in these cases: the forbidden expression; no value for an expression that needs one;
a field that is not found; no "value" key at all, on a `yesno` field or a warehouse that casts datetimes; a datetime for a field without
a data type, on such a warehouse. -/
theorem C74_refused (sc : Scene) (k : List Char) (name : String) (v : Option CVal) (e : Err) :
    (onField k name v).validate (some sc) = .error e ↔
      (name = "UNKNOWN" ∧ e = .notImplemented) ∨
      (name ≠ "UNKNOWN" ∧ ¬ Complete name v ∧ e = .parse) ∨
      (Complete name v ∧ ((∃ e', sc.find k = .error e' ∧ e' ≠ .parse ∧ e = e') ∨ (sc.find k = .error .parse ∧ e = .recursion))) ∨
      (Complete name v ∧ ∃ f, sc.find k = .ok f ∧ v = none ∧ (Casts sc ∨ f.type = "yesno") ∧ e = .keyError) ∨
      (Complete name v ∧ ∃ f t, sc.find k = .ok f ∧ v = some (.time t) ∧ Casts sc ∧ f.datatype = none ∧ e = .attributeError) := by
  rw [validate_onField, complete_iff]
  by_cases hu : name = "UNKNOWN"
  · simp only [hu, if_true]
    simp only [Except.error.injEq, true_and, ne_eq, not_true_eq_false, false_and, or_false]
    exact eq_comm
  rw [if_neg hu]
  by_cases hv : (v = none ∨ v = some .none) ∧ name ∉ noValue
  · rw [if_pos hv]
    simp only [hu, hv, false_and, not_false_eq_true, not_true_eq_false, and_false, true_and, or_false, false_or, ne_eq, Except.error.injEq]
    exact eq_comm
  rw [if_neg hv]
  have hcast : sc.queryType ∈ castTypes ↔ Casts sc := castTypes_iff _
  simp only [hu, hv, ne_eq, not_false_eq_true, and_true, true_and, false_and, false_or, not_true_eq_false]
  cases hf : sc.find k with
  | error err =>
    simp only [Except.error.injEq, reduceCtorEq, false_and, exists_false, or_false]
    by_cases hp : err = .parse
    · subst hp
      have hr : (onField k name v).resolve sc k name = .error .recursion := by simp only [Cond.resolve, hf]
      simp only [hr, Except.error.injEq]
      constructor
      · rintro rfl; exact .inr ⟨trivial, rfl⟩
      · rintro (⟨e', h, hn, -⟩ | ⟨-, rfl⟩)
        · exact absurd h.symm hn
        · rfl
    · have hr : (onField k name v).resolve sc k name = .error err := by
        unfold Cond.resolve
        rw [hf]
        cases err <;> first | rfl | exact absurd rfl hp
      simp only [hr, Except.error.injEq]
      constructor
      · rintro rfl; exact .inl ⟨_, rfl, hp, rfl⟩
      · rintro (⟨e', rfl, -, rfl⟩ | ⟨h, -⟩)
        · rfl
        · exact absurd h hp
  | ok f =>
    simp only [Cond.resolve, hf]
    simp only [reduceCtorEq, false_and, exists_false, or_false, false_or, Except.ok.injEq, exists_eq_left', onField]
    cases v with
    | none =>
      simp only [Option.map_none, castValue]
      by_cases hm : sc.queryType ∈ castTypes
      · have hc := hcast.1 hm
        rw [if_pos hm]
        simp only [hc, true_or, true_and, reduceCtorEq, false_and, and_false, exists_false, or_false, Except.error.injEq]
        exact eq_comm
      · have hc : ¬ Casts sc := fun h => hm (hcast.2 h)
        rw [if_neg hm]
        simp only [hc, false_or, yesNo]
        by_cases hy : f.type = "yesno"
        · rw [if_pos hy]
          simp only [hy, true_and, reduceCtorEq, false_and, and_false, exists_false, or_false, Except.error.injEq]
          exact eq_comm
        · rw [if_neg hy]
          simp [hy]
    | some u =>
      have hnot : ∀ u' : CVal, ∃ e', yesNo f name (some u') = .ok e' := by
        intro u'
        unfold yesNo
        split
        · split
          · exact absurd ‹_› (by simp)
          · split
            · exact ⟨_, rfl⟩
            · split <;> exact ⟨_, rfl⟩
        · exact ⟨_, rfl⟩
      simp only [Option.map_some, reduceCtorEq, false_and, false_or, Option.some.injEq]
      have hother : ∀ u' : CVal, (∀ t, u' ≠ .time t) → castValue sc f (some u') = .ok (some u') := by
        intro u' h
        cases u' with
        | time t => exact absurd rfl (h t)
        | _ => rfl
      cases u with
      | time t =>
        simp only [refValue, castValue]
        by_cases hm : sc.queryType ∈ castTypes
        · have hc := hcast.1 hm
          rw [if_pos hm]
          cases hd : f.datatype with
          | none =>
            simp only [datatypeCast, hd, hc, true_and, CVal.time.injEq, Except.error.injEq]
            constructor
            · rintro rfl; exact ⟨f, t, rfl, rfl, hd, rfl⟩
            · rintro ⟨_, _, -, -, -, rfl⟩; rfl
          | some d =>
            obtain ⟨s', hs⟩ : ∃ s', datatypeCast f (timeShown t) = .ok s' := by
              unfold datatypeCast
              rw [hd]
              simp only
              split <;> exact ⟨_, rfl⟩
            obtain ⟨e', he⟩ := hnot (.sql s')
            simp only [hs, he]
            constructor
            · intro h; cases h
            · rintro ⟨_, _, rfl, -, -, h, -⟩; rw [hd] at h; cases h
        · obtain ⟨e', he⟩ := hnot (.time t)
          have hc : ¬ Casts sc := fun h => hm (hcast.2 h)
          rw [if_neg hm]
          simp only [he]
          simp [hc]
      | text s =>
        have h : ∀ t, refValue sc (.text s) ≠ .time t := by
          intro t
          simp only [refValue]
          split
          · split
            · simp
            · split
              · simp
              · split <;> simp
          · simp
        rw [hother _ h]
        obtain ⟨e', he⟩ := hnot (refValue sc (.text s))
        simp only [he]; simp
      | none => obtain ⟨e', he⟩ := hnot .none; simp [refValue, castValue, he]
      | bool b => obtain ⟨e', he⟩ := hnot (.bool b); simp [refValue, castValue, he]
      | num q => obtain ⟨e', he⟩ := hnot (.num q); simp [refValue, castValue, he]
      | list l => obtain ⟨e', he⟩ := hnot (.list l); simp [refValue, castValue, he]
      | sql q => obtain ⟨e', he⟩ := hnot (.sql q); simp [refValue, castValue, he]

section
variable (sh : Shows) (num : ToNumeric) (w : RowSql) {sc : Scene} {k col : List Char} {f : AskedField}

/-- C74. An expression that is not one of those known is a QueryError. -/
theorem C74_unknown (hf : HasSql sc k f col) (ht : f.type ≠ "yesno") {name : String} (hn : name ∉ knownNames) (hu : name ≠ "UNKNOWN")
    {v : CVal} (hv : v ≠ .none) (has : TakenAsIs sc v) : (onField k name (some v)).sql sh num sc = .error .query := by
  have hm : name ≠ "matches" := by rintro rfl; revert hn; decide
  have hp : parseExpression name = .unknown := by
    simp only [knownNames, orderNames, textNames, List.mem_append, List.mem_cons, List.not_mem_nil, or_false, not_or] at hn
    unfold parseExpression
    split <;> first | rfl | (exfalso; simp_all)
  rw [sql_onField sh num hf hu (by simp [hv]) (v' := some v) (name' := name)
    (by rw [Option.map_some, refValue_asIs has.1, castValue_asIs has.2]) (yesNo_other ht _ _)]
  rw [criterion_plain _ _ _ _ _ _ _ hm, hp]
  rfl

/-- C74. `is_null`, `is_not_null`, `boolean_true` and `boolean_false` with the value null, or without one where that is not refused. -/
theorem C74_no_value (hf : HasSql sc k f col) {v : Option CVal} (hv : v = some .none ∨ (v = none ∧ ¬ Casts sc ∧ f.type ≠ "yesno")) :
    (∃ a, (onField k "is_null" v).sql sh num sc = .ok (.all [a], onField k "is_null" v) ∧
      truth sh w a = if w.ev col = .null then .t else .f) ∧
    (∃ a, (onField k "is_not_null" v).sql sh num sc = .ok (.all [a], onField k "is_not_null" v) ∧
      truth sh w a = if w.ev col = .null then .f else .t) ∧
    (∃ a, (onField k "boolean_true" v).sql sh num sc = .ok (.all [a], onField k "boolean_true" v) ∧
      (truth sh w a = .t ↔ w.ev col = .bool true) ∧ (truth sh w a = .f ↔ w.ev col = .bool false)) ∧
    (∃ a, (onField k "boolean_false" v).sql sh num sc = .ok (.all [a], onField k "boolean_false" v) ∧
      (truth sh w a = .t ↔ w.ev col = .bool false) ∧ (truth sh w a = .f ↔ w.ev col = .bool true)) := by
  have hc : castValue sc f (v.map (refValue sc)) = .ok v := by
    rcases hv with rfl | ⟨rfl, h, -⟩
    · rfl
    · simp only [Option.map_none, castValue]
      rw [if_neg (by rw [castTypes_iff]; exact h)]
  have hy : ∀ n, yesNo f n v = .ok n := by
    intro n
    rcases hv with rfl | ⟨rfl, -, h⟩
    · unfold yesNo
      split <;> rfl
    · exact yesNo_other h _ _
  have key : ∀ n e, n ∈ noValue → n ≠ "matches" → n ≠ "UNKNOWN" → parseExpression n = e →
      mkAtom num f.type col e (v.getD .none) = .ok ⟨col, e, v.getD .none⟩ →
      (onField k n v).sql sh num sc = .ok (.all [⟨col, e, v.getD .none⟩], onField k n v) := by
    intro n e h1 h2 h3 h4 h5
    rw [sql_onField sh num hf h3 (by simp [h1]) hc (hy n), criterion_plain _ _ _ _ _ _ _ h2, h4, h5]
    rfl
  refine ⟨⟨_, key "is_null" .isNull (by decide) (by decide) (by decide) rfl rfl, ?_⟩,
    ⟨_, key "is_not_null" .isNotNull (by decide) (by decide) (by decide) rfl rfl, ?_⟩,
    ⟨_, key "boolean_true" .booleanTrue (by decide) (by decide) (by decide) rfl rfl, ?_⟩,
    ⟨_, key "boolean_false" .booleanFalse (by decide) (by decide) (by decide) rfl rfl, ?_⟩⟩
  · by_cases h : w.ev col = .null <;> simp [truth, TV.ofBool, h]
  · by_cases h : w.ev col = .null <;> simp [truth, TV.ofBool, h]
  · cases h : w.ev col with
    | bool b => cases b <;> simp [truth, asCondition, TV.ofBool, h]
    | _ => simp [truth, asCondition, h]
  · cases h : w.ev col with
    | bool b => cases b <;> simp [truth, asCondition, TV.ofBool, TV.not, h]
    | _ => simp [truth, asCondition, TV.not, h]

/-! ### `yesno` fields -/

/-- C74. On a `yesno` field, a condition with the value true or false keeps the rows with that value: whatever the expression is. -/
theorem C74_yesno (hf : HasSql sc k f col) (ht : f.type = "yesno") {name : String} (hu : name ≠ "UNKNOWN") (b : Bool) :
    ∃ a c', (onField k name (some (.bool b))).sql sh num sc = .ok (.all [a], c') ∧
      (truth sh w a = .t ↔ w.ev col = .bool b) ∧ (truth sh w a = .f ↔ w.ev col = .bool (!b)) := by
  have hy : yesNo f name (some (.bool b)) = .ok (if b then "boolean_true" else "boolean_false") := by
    cases b <;> simp [yesNo, ht, CVal.mentions]
  have := sql_onField sh num hf hu (v := some (.bool b)) (by simp) (v' := some (.bool b)) rfl hy
  rw [criterion_plain _ _ _ _ _ _ _ (by cases b <;> simp)] at this
  cases b
  · refine ⟨⟨col, .booleanFalse, .bool false⟩, _, this, ?_, ?_⟩
    · cases h : w.ev col with
      | bool b => cases b <;> simp [truth, asCondition, TV.ofBool, TV.not, h]
      | _ => simp [truth, asCondition, TV.not, h]
    · cases h : w.ev col with
      | bool b => cases b <;> simp [truth, asCondition, TV.ofBool, TV.not, h]
      | _ => simp [truth, asCondition, TV.not, h]
  · refine ⟨⟨col, .booleanTrue, .bool true⟩, _, this, ?_, ?_⟩
    · cases h : w.ev col with
      | bool b => cases b <;> simp [truth, asCondition, TV.ofBool, h]
      | _ => simp [truth, asCondition, h]
    · cases h : w.ev col with
      | bool b => cases b <;> simp [truth, asCondition, TV.ofBool, h]
      | _ => simp [truth, asCondition, h]

/-- C74, against the full statement: so `not_equal_to` false keeps the rows that are false, and drops the rows that are true. -/
theorem C74_yesno_not (hf : HasSql sc k f col) (ht : f.type = "yesno") :
    ∃ a c', (onField k "not_equal_to" (some (.bool false))).sql sh num sc = .ok (.all [a], c') ∧
      (w.ev col = .bool false → truth sh w a = .t) ∧ (w.ev col = .bool true → truth sh w a = .f) := by
  obtain ⟨a, c', h, h1, h2⟩ := C74_yesno sh num w hf ht (name := "not_equal_to") (by decide) false
  exact ⟨a, c', h, h1.2, h2.2⟩

/-- C74, against the full statement: a list with both values on a `yesno` field keeps only the rows that are true. -/
theorem C74_yesno_both (hf : HasSql sc k f col) (ht : f.type = "yesno") :
    ∃ a c', (onField k "isin" (some (.list [.bool true, .bool false]))).sql sh num sc = .ok (.all [a], c') ∧
      (w.ev col = .bool false → truth sh w a = .f) := by
  have hy : yesNo f "isin" (some (.list [.bool true, .bool false])) = .ok "boolean_true" := by
    simp [yesNo, ht, CVal.mentions, CItem.mentions]
  have := sql_onField sh num hf (name := "isin") (by decide) (v := some (.list [.bool true, .bool false])) (by simp) rfl hy
  rw [criterion_plain _ _ _ _ _ _ _ (by decide)] at this
  refine ⟨⟨col, .booleanTrue, .list [.bool true, .bool false]⟩, _, this, ?_⟩
  intro h
  simp [truth, asCondition, TV.ofBool, h]

/-! ### Lists on number fields -/

theorem toNumbers_ok {l l' : List CItem} (h : List.Forall₂ (WritesNumber num) l l') : toNumbers num l = .ok l' := by
  induction h with
  | nil => rfl
  | cons h _ ih =>
    unfold toNumbers
    cases h with
    | text s q hq => simp only [CItem.toNumber, hq, ih]
    | num q => simp only [CItem.toNumber, ih]
    | bool b => simp only [CItem.toNumber, ih]

theorem toNumbers_fails {l : List CItem} {s : List Char} (hs : .text s ∈ l) (hn : num s = none) : toNumbers num l = .error .valueError := by
  induction l with
  | nil => cases hs
  | cons i l ih =>
    unfold toNumbers
    cases hi : i.toNumber num with
    | error e =>
      cases i with
      | text u =>
        simp only [CItem.toNumber] at hi
        cases hu : num u with
        | none => rw [hu] at hi; cases hi; rfl
        | some q => rw [hu] at hi; cases hi
      | num q => cases hi
      | bool b => cases hi
    | ok j =>
      simp only
      rcases List.mem_cons.1 hs with rfl | h
      · simp only [CItem.toNumber, hn] at hi; cases hi
      · rw [ih h]

/-- C74. On a number field the texts of a list stand for the numbers they write, and a text that is no number is a ValueError. -/
theorem C74_numbers (hf : HasSql sc k f col) (ht : f.type = "number") {l : List CItem} :
    (∀ l', List.Forall₂ (WritesNumber num) l l' → l ≠ [] →
      (∃ a, (onField k "isin" (some (.list l))).sql sh num sc = .ok (.all [a], onField k "isin" (some (.list l))) ∧
        Says (truth sh w a) (w.ev col) (∃ i ∈ l', w.order (w.ev col) (itemCell i) = .eq)) ∧
      (∃ a, (onField k "isnotin" (some (.list l))).sql sh num sc = .ok (.all [a], onField k "isnotin" (some (.list l))) ∧
        Says (truth sh w a) (w.ev col) (¬ ∃ i ∈ l', w.order (w.ev col) (itemCell i) = .eq))) ∧
    (∀ s, .text s ∈ l → num s = none →
      (onField k "isin" (some (.list l))).sql sh num sc = .error .valueError ∧
      (onField k "isnotin" (some (.list l))).sql sh num sc = .error .valueError) := by
  have hy : f.type ≠ "yesno" := by rw [ht]; decide
  have hb : (f.type == "number") = true := by rw [ht]; rfl
  have h1 := sql_onField sh num hf (name := "isin") (by decide) (v := some (.list l)) (by simp) rfl (yesNo_other hy _ _)
  have h2 := sql_onField sh num hf (name := "isnotin") (by decide) (v := some (.list l)) (by simp) rfl (yesNo_other hy _ _)
  rw [criterion_plain _ _ _ _ _ _ _ (by decide)] at h1 h2
  simp only [refValue, parseExpression, mkAtom, hb, listValue, Option.getD_some, if_true] at h1 h2
  constructor
  · intro l' hl hne
    have hne' : l' ≠ [] := by rintro rfl; cases hl; exact hne rfl
    rw [toNumbers_ok num hl] at h1 h2
    exact ⟨⟨_, h1, among_says w hne' _⟩, ⟨_, h2, says_not (among_says w hne' _)⟩⟩
  · intro s hs hn
    rw [toNumbers_fails num hs hn] at h1 h2
    exact ⟨h1, h2⟩

/-- C74, against the full statement: one text instead of a list is, on a number field, the list of its characters; on another field it is
an AttributeError. -/
theorem C74_digits (hf : HasSql sc k f col) (hy : f.type ≠ "yesno") {s : List Char} (hs : '.' ∉ s) :
    (f.type = "number" → ∀ qs : List ℚ, s.map (fun c => num [c]) = qs.map some →
      (onField k "isin" (some (.text s))).sql sh num sc = .ok (.all [⟨col, .isIn, .list (qs.map .num)⟩], onField k "isin" (some (.text s)))) ∧
    (f.type ≠ "number" → (onField k "isin" (some (.text s))).sql sh num sc = .error .attributeError) := by
  have hr : refValue sc (.text s) = .text s := by simp only [refValue]; rw [if_neg hs]
  have h1 := sql_onField sh num hf (name := "isin") (by decide) (v := some (.text s)) (by simp) (v' := some (.text s))
    (by rw [Option.map_some, hr]; rfl) (yesNo_other hy _ _)
  rw [criterion_plain _ _ _ _ _ _ _ (by decide)] at h1
  simp only [parseExpression, mkAtom, Option.getD_some] at h1
  constructor
  · intro ht qs hq
    have hb : (f.type == "number") = true := by rw [ht]; rfl
    have hn : List.Forall₂ (WritesNumber num) (s.map (fun c => .text [c])) (qs.map .num) := by
      clear h1 hr hs
      induction s generalizing qs with
      | nil => cases qs with
        | nil => exact .nil
        | cons q qs => simp at hq
      | cons c s ih => cases qs with
        | nil => simp at hq
        | cons q qs =>
          simp only [List.map_cons, List.cons.injEq] at hq
          exact .cons (.text _ _ hq.1) (ih qs hq.2)
    simp only [hb, listValue, if_true] at h1
    rw [toNumbers_ok num hn] at h1
    exact h1
  · intro ht
    have hb : (f.type == "number") = false := by simp [ht]
    simp only [hb, listValue] at h1
    exact h1

end

end ML
