import Verif.Cond.PropsMore
/-
C74, continued: `matches`, datetimes, literal filters, conditions used twice, conditions on results, and the text.
-/
set_option autoImplicit false
namespace ML
open Spec

section
variable (sh : Shows) (num : ToNumeric) (w : RowSql) {sc : Scene} {k col : List Char} {f : AskedField}

/-! ### `matches` -/

theorem conj_true (l : List TV) : TV.conj l = .t ↔ ∀ x ∈ l, x = .t := by
  induction l with
  | nil => simp [TV.conj]
  | cons a l ih =>
    have h : TV.conj (a :: l) = a.and (TV.conj l) := rfl
    rw [h, List.forall_mem_cons, ← ih]
    cases a <;> cases TV.conj l <;> simp [TV.and]

theorem mkAtom_shape {type : String} {e : Expression} {v : CVal} {a : Atom} (hn : type ≠ "number") (h : mkAtom num type col e v = .ok a) :
    a = ⟨col, e, v⟩ := by
  have hb : (type == "number") = false := by simp [hn]
  unfold mkAtom at h
  rw [hb] at h
  cases e <;> simp only at h <;> first
    | (cases h; done)
    | (injection h with h; exact h.symm)
    | (cases v <;> simp only [listValue, Bool.false_eq_true, if_false] at h <;> first | (cases h; done) | (injection h with h; exact h.symm))

theorem matchAtoms_shape (hc : ¬ Casts sc) (hn : f.type ≠ "number") {cs : List Comparison} {as : List Atom}
    (h : matchAtoms sh num sc f col cs = .ok as) : as = cs.map (fun c => ⟨col, c.expr, c.value.toCVal⟩) := by
  have hm : sc.queryType ∉ castTypes := by rw [castTypes_iff]; exact hc
  induction cs generalizing as with
  | nil => cases h; rfl
  | cons c cs ih =>
    unfold matchAtoms at h
    cases h1 : matchAtom sh num sc f col c with
    | error e => rw [h1] at h; cases h
    | ok a =>
      rw [h1] at h
      simp only at h
      cases h2 : matchAtoms sh num sc f col cs with
      | error e => rw [h2] at h; cases h
      | ok as' =>
        rw [h2] at h
        injection h with h
        unfold matchAtom at h1
        rw [if_neg hm] at h1
        rw [← h, ih h2, mkAtom_shape num hn h1]
        rfl

/-- C74. `matches` on a warehouse that casts no datetimes: the rows kept are those for which every comparison holds that the string
stands for (C23 and C24 say which those are). -/
theorem C74_matches (hf : HasSql sc k f col) (hy : f.type ≠ "yesno") (hn : f.type ≠ "number") (hc : ¬ Casts sc) {s : List Char}
    (has : ¬ ∃ t, NamesField sc s t) {cs : List Comparison}
    (hcs : (filterDict num sc.now sc.week (.str s) defaultWeek).1 = .ok cs) {as : List Atom} {c' : Cond}
    (h : (onField k "matches" (some (.text s))).sql sh num sc = .ok (.all as, c')) :
    (truths sh w as = .t ↔ ∀ c ∈ cs, truth sh w ⟨col, c.expr, c.value.toCVal⟩ = .t) ∧ c' = onField k "matches" (some (.text s)) := by
  rw [sql_onField sh num hf (by decide) (by simp) (v' := some (.text s)) (name' := "matches")
    (by rw [Option.map_some, refValue_asIs (by intro s' h; cases h; exact has)]; rfl) (yesNo_other hy _ _)] at h
  simp only [Cond.criterion, if_true, Option.getD_some, CVal.toFVal, hcs] at h
  cases cs with
  | nil =>
    simp only at h
    exfalso
    by_cases hcd : sc.queryType ∈ castTypes ∧ f.datatype = none
    · rw [if_pos hcd] at h; cases h
    · rw [if_neg hcd] at h; cases h
  | cons c cs =>
    simp only at h
    cases hm : matchAtoms sh num sc f col (c :: cs) with
    | error e => rw [hm] at h; cases h
    | ok as' =>
      rw [hm] at h
      injection h with h
      injection h with h1 h2
      injection h1 with h1
      subst h1
      refine ⟨?_, h2.symm⟩
      rw [matchAtoms_shape sh num hc hn hm, truths, conj_true]
      simp only [List.map_map, List.forall_mem_map, Function.comp_apply]

/-- C74. A date phrase keeps the rows within the bounds of its window: the column is compared with the text of each bound. -/
theorem C74_matches_window (hf : HasSql sc k f col) (hy : f.type ≠ "yesno") (hc : ¬ Casts sc) {s : List Char}
    (has : ¬ ∃ t, NamesField sc s t) {win : Window} (hne : win ≠ [])
    (hp : parseDateCondition (weekStateFor sc.week) sc.now s = .ok (some win)) :
    ∃ as, (onField k "matches" (some (.text s))).sql sh num sc = .ok (.all as, onField k "matches" (some (.text s))) ∧
      (truths sh w as = .t ↔ w.ev col ≠ .null ∧
        ∀ b ∈ win, (b.1 = .ge → w.order (w.ev col) (.text (dateText b.2)) ≠ .lt) ∧ (b.1 = .le → w.order (w.ev col) (.text (dateText b.2)) ≠ .gt)) := by
  obtain ⟨cs, hcs, rfl⟩ := C23_date_phrase num sc.now sc.week defaultWeek s win hp
  have hm : sc.queryType ∉ castTypes := by rw [castTypes_iff]; exact hc
  have hall : ∀ win : Window, matchAtoms sh num sc f col
      (win.map (fun b => (⟨match b.1 with | .ge => .greaterOrEqual | .le => .lessOrEqual, .time b.2⟩ : Comparison))) =
      .ok (win.map (fun b => ⟨col, match b.1 with | .ge => .greaterOrEqual | .le => .lessOrEqual, .text (dateText b.2)⟩)) := by
    intro win
    induction win with
    | nil => rfl
    | cons b win ih =>
      have h1 : matchAtom sh num sc f col ⟨match b.1 with | .ge => .greaterOrEqual | .le => .lessOrEqual, .time b.2⟩ =
          .ok ⟨col, match b.1 with | .ge => .greaterOrEqual | .le => .lessOrEqual, .text (dateText b.2)⟩ := by
        unfold matchAtom
        rw [if_neg hm]
        obtain ⟨o, t⟩ := b
        cases o <;> rfl
      simp only [List.map_cons]
      unfold matchAtoms
      rw [h1, ih]
  refine ⟨win.map (fun b => ⟨col, match b.1 with | .ge => .greaterOrEqual | .le => .lessOrEqual, .text (dateText b.2)⟩), ?_, ?_⟩
  · rw [sql_onField sh num hf (by decide) (by simp) (v' := some (.text s)) (name' := "matches")
      (by rw [Option.map_some, refValue_asIs (by intro s' h; cases h; exact has)]; rfl) (yesNo_other hy _ _)]
    simp only [Cond.criterion, if_true, Option.getD_some, CVal.toFVal, hcs]
    cases win with
    | nil => exact absurd rfl hne
    | cons b win =>
      have := hall (b :: win)
      simp only [List.map_cons] at this ⊢
      erw [this]
  · rw [truths, conj_true]
    simp only [List.map_map, List.forall_mem_map, Function.comp_apply]
    have one : ∀ b : Bound × DateTime, truth sh w ⟨col, match b.1 with | .ge => .greaterOrEqual | .le => .lessOrEqual, .text (dateText b.2)⟩ = .t ↔
        w.ev col ≠ .null ∧ (b.1 = .ge → w.order (w.ev col) (.text (dateText b.2)) ≠ .lt) ∧
          (b.1 = .le → w.order (w.ev col) (.text (dateText b.2)) ≠ .gt) := by
      rintro ⟨o, t⟩
      cases o
      · exact (cmpTruth_says w (w.ev col) (.text (dateText t)) (fun o => decide (o ≠ .lt)) (by simp)).1.trans (by simp)
      · exact (cmpTruth_says w (w.ev col) (.text (dateText t)) (fun o => decide (o ≠ .gt)) (by simp)).1.trans (by simp)
    constructor
    · intro h
      obtain ⟨b, hb⟩ := List.exists_mem_of_ne_nil win hne
      exact ⟨((one b).1 (h b hb)).1, fun b hb => ((one b).1 (h b hb)).2⟩
    · rintro ⟨h0, h⟩ b hb
      exact (one b).2 ⟨h0, h b hb⟩

/-- C74, against the full statement: on the warehouses that cast datetimes, `matches` can only be used on fields with a data type. On a
text dimension, which has none, whatever is looked for is an AttributeError. -/
theorem C74_matches_cast (hf : HasSql sc k f col) (hy : f.type ≠ "yesno") (hc : Casts sc) (hd : f.datatype = none) {s : List Char}
    (has : ¬ ∃ t, NamesField sc s t) {cs : List Comparison}
    (hcs : (filterDict num sc.now sc.week (.str s) defaultWeek).1 = .ok cs) :
    (onField k "matches" (some (.text s))).sql sh num sc = .error .attributeError := by
  have hm : sc.queryType ∈ castTypes := by rw [castTypes_iff]; exact hc
  rw [sql_onField sh num hf (by decide) (by simp) (v' := some (.text s)) (name' := "matches")
    (by rw [Option.map_some, refValue_asIs (by intro s' h; cases h; exact has)]; rfl) (yesNo_other hy _ _)]
  simp only [Cond.criterion, if_true, Option.getD_some, CVal.toFVal, hcs]
  cases cs with
  | nil => simp only [hd, hm, and_self, if_true]
  | cons c cs =>
    simp only
    unfold matchAtoms matchAtom
    rw [if_pos hm]
    simp only [datatypeCast, hd]

/-! ### Datetimes -/

/-- C74. A datetime for a field with a data type, on a warehouse that casts: the field is compared with the datetime cast to the type of
the field, a date by way of a timestamp. -/
theorem C74_datetime (hf : HasSql sc k f col) (hy : f.type ≠ "yesno") (hc : Casts sc) {d : List Char} (hd : f.datatype = some d)
    {name : String} (hn : name ∈ orderNames) (t : DateTime) :
    ∃ a sql, (onField k name (some (.time t))).sql sh num sc = .ok (.all [a], onField k name (some (.sql sql))) ∧
      (d.map Char.toUpper = "DATE".toList → sql = "CAST(CAST('".toList ++ timeShown t ++ "' AS TIMESTAMP) AS DATE)".toList) ∧
      (d.map Char.toUpper ≠ "DATE".toList → sql = "CAST('".toList ++ timeShown t ++ "' AS ".toList ++ d.map Char.toUpper ++ [')']) ∧
      (w.ev sql ≠ .null → Says (truth sh w a) (w.ev col) (Ordered w name (w.ev col) (w.ev sql))) := by
  have hm : sc.queryType ∈ castTypes := by rw [castTypes_iff]; exact hc
  have hnm : name ≠ "matches" := by rintro rfl; revert hn; decide
  have hu : name ≠ "UNKNOWN" := by rintro rfl; revert hn; decide
  have key : ∀ sql, datatypeCast f (timeShown t) = .ok sql →
      ∃ a, (onField k name (some (.time t))).sql sh num sc = .ok (.all [a], onField k name (some (.sql sql))) ∧
        (w.ev sql ≠ .null → Says (truth sh w a) (w.ev col) (Ordered w name (w.ev col) (w.ev sql))) := by
    intro sql hsql
    obtain ⟨e, he, hs, _⟩ := atom_order sh num w hn f.type col (.sql sql)
    refine ⟨⟨col, e, .sql sql⟩, ?_, fun h => hs _ rfl h⟩
    rw [sql_onField sh num hf hu (by simp) (v' := some (.sql sql)) (name' := name)
      (by simp only [Option.map_some, refValue, castValue]; rw [if_pos hm, hsql]) (yesNo_other hy _ _)]
    rw [criterion_plain _ _ _ _ _ _ _ hnm, Option.getD_some, he]
    rfl
  by_cases h : d.map Char.toUpper = "DATE".toList
  · obtain ⟨a, h1, h2⟩ := key ("CAST(CAST('".toList ++ timeShown t ++ "' AS TIMESTAMP) AS DATE)".toList)
      (by unfold datatypeCast; rw [hd]; simp only; rw [if_pos h])
    exact ⟨a, _, h1, fun _ => rfl, fun hn => absurd h hn, h2⟩
  · obtain ⟨a, h1, h2⟩ := key ("CAST('".toList ++ timeShown t ++ "' AS ".toList ++ d.map Char.toUpper ++ [')'])
      (by unfold datatypeCast; rw [hd]; simp only; rw [if_neg h])
    exact ⟨a, _, h1, fun hn => absurd hn h, fun _ => rfl, h2⟩

/-! ### Conditions without a field -/

/-- C74. A condition that has only a literal, not empty, is the SQL of the literal. -/
theorem C74_literal (sc : Scene) (s : List Char) (hs : s ≠ []) (e : Option String) :
    (⟨none, some s, e, none⟩ : Cond).sql sh num sc =
      match sc.literalSql s with
      | .error err => .error err
      | .ok t => .ok (.literal t, ⟨none, some s, e, none⟩) := by
  have hv : (⟨none, some s, e, none⟩ : Cond).validate (some sc) = .ok (none, ⟨none, some s, e, none⟩) := by
    unfold Cond.validate
    rw [if_neg (by simp), if_pos (by simp [hs])]
    simp [Cond.isBoolean]
  unfold Cond.sql
  rw [hv]
  simp only
  cases sc.literalSql s <;> rfl

/-- C74, against the full statement: a condition that has both a field and a literal is the literal; what it says of the field is
checked and then left out. -/
theorem C74_both (sc : Scene) (c : Cond) (s : List Char) (hl : c.literal = some s) (out : CondSql) (c' : Cond)
    (h : c.sql sh num sc = .ok (out, c')) : ∃ t, sc.literalSql s = .ok t ∧ out = .literal t := by
  unfold Cond.sql at h
  cases hv : c.validate (some sc) with
  | error e => rw [hv] at h; cases h
  | ok r =>
    rw [hv] at h
    simp only [hl] at h
    cases ht : sc.literalSql s with
    | error e => rw [ht] at h; cases h
    | ok t => rw [ht] at h; cases h; exact ⟨t, rfl, rfl⟩

/-- C74. Without a field and without a literal there is never SQL. -/
theorem C74_no_field (sc : Scene) (c : Cond) (hf : c.field = none) (hl : c.literal = none) : ∃ e, c.sql sh num sc = .error e := by
  unfold Cond.sql
  cases hv : c.validate (some sc) with
  | error e => exact ⟨e, rfl⟩
  | ok r =>
    obtain ⟨f, c'⟩ := r
    simp only [hl]
    cases hp : sc.pk with
    | error e => exact ⟨e, rfl⟩
    | ok pk =>
      have : f = none := by
        unfold Cond.validate at hv
        simp only [hf, hl, true_and, ne_eq, not_true_eq_false, false_and, if_false] at hv
        split at hv
        · cases hv
        · rename_i hb
          split at hv
          · cases hv
          · split at hv
            · cases hv
            · split at hv
              · cases hv; rfl
              · split at hv <;> cases hv
      subst this
      exact ⟨_, rfl⟩

/-- C74, against the full statement: a value that is true on its own is accepted, and then fails when the SQL is asked for. -/
theorem C74_boolean (sc : Scene) (hp : ∃ pk, sc.pk = .ok pk) :
    (∃ r, (⟨none, none, some "boolean_true", some (.bool true)⟩ : Cond).validate (some sc) = .ok r) ∧
    (⟨none, none, some "boolean_true", some (.bool true)⟩ : Cond).sql sh num sc = .error .attributeError := by
  have hv : (⟨none, none, some "boolean_true", some (.bool true)⟩ : Cond).validate (some sc) =
      .ok (none, ⟨none, none, some "boolean_true", some (.bool true)⟩) := by
    simp [Cond.validate, Cond.isBoolean, CVal.isTrue, Cond.noneGiven]
  obtain ⟨pk, hp⟩ := hp
  refine ⟨⟨_, hv⟩, ?_⟩
  unfold Cond.sql
  rw [hv]
  simp only [hp]

end

/-! ### Conditions used twice -/

theorem refValue_twice (sc : Scene) (v : CVal) : refValue sc (refValue sc v) = refValue sc v := by
  by_cases h : ∃ s t, v = .text s ∧ NamesField sc s t
  · obtain ⟨s, t, rfl, ht⟩ := h
    rw [refValue_names ht]; rfl
  · have : refValue sc v = v := refValue_asIs (fun s hs ⟨t, ht⟩ => h ⟨s, t, hs, ht⟩)
    rw [this, this]

theorem refValue_none_iff (sc : Scene) (v : CVal) : refValue sc v = .none ↔ v = .none := by
  by_cases h : ∃ s t, v = .text s ∧ NamesField sc s t
  · obtain ⟨s, t, rfl, ht⟩ := h
    rw [refValue_names ht]; simp
  · rw [refValue_asIs (fun s hs ⟨t, ht⟩ => h ⟨s, t, hs, ht⟩)]

theorem refValue_time_iff (sc : Scene) (v : CVal) (t : DateTime) : refValue sc v = .time t ↔ v = .time t := by
  by_cases h : ∃ s t, v = .text s ∧ NamesField sc s t
  · obtain ⟨s, t, rfl, ht⟩ := h
    rw [refValue_names ht]; simp
  · rw [refValue_asIs (fun s hs ⟨t, ht⟩ => h ⟨s, t, hs, ht⟩)]

theorem castValue_twice {sc : Scene} {f : AskedField} {v v' : Option CVal} (h : castValue sc f (v.map (refValue sc)) = .ok v') :
    castValue sc f (v'.map (refValue sc)) = .ok v' ∧ (v' = none ↔ v = none) ∧ (v' = some .none ↔ v = some .none) := by
  cases v with
  | none =>
    simp only [Option.map_none, castValue] at h
    split at h
    · cases h
    · rename_i hm
      cases h
      simp only [Option.map_none, castValue]
      rw [if_neg hm]
      simp
  | some v =>
    simp only [Option.map_some] at h
    by_cases ht : ∃ t, v = .time t
    · obtain ⟨t, rfl⟩ := ht
      simp only [refValue, castValue] at h
      split at h
      · cases hd : datatypeCast f (timeShown t) with
        | error e => rw [hd] at h; cases h
        | ok s => rw [hd] at h; cases h; exact ⟨rfl, by simp, by simp⟩
      · rename_i hm
        cases h
        simp only [Option.map_some, refValue, castValue]
        rw [if_neg hm]
        simp
    · have hn : ∀ t, refValue sc v = .time t → sc.queryType ≠ "BIGQUERY" ∧ sc.queryType ≠ "TRINO" :=
        fun t h => absurd ⟨t, (refValue_time_iff sc v t).1 h⟩ ht
      rw [castValue_asIs hn] at h
      cases h
      simp only [Option.map_some]
      rw [refValue_twice, castValue_asIs hn]
      simp [refValue_none_iff]

theorem yesNo_twice {f : AskedField} {e e' : String} {v : Option CVal} (h : yesNo f e v = .ok e') :
    yesNo f e' v = .ok e' ∧ (e' = e ∨ e' = "boolean_true" ∨ e' = "boolean_false") := by
  unfold yesNo at h ⊢
  split at h
  · rename_i hy
    rw [if_pos hy]
    cases v with
    | none => cases h
    | some v =>
      simp only at h ⊢
      split at h
      · cases h; rename_i h1; rw [if_pos h1]; simp
      · rename_i h1
        split at h
        · cases h; rename_i h2; rw [if_neg h1, if_pos h2]; simp
        · cases h; rename_i h2; rw [if_neg h1, if_neg h2]; simp
  · rename_i hy
    cases h
    rw [if_neg hy]; simp

/-- C74. The dictionary a condition leaves behind means the same as the condition: looked at again, as every condition of a group is, it
is accepted, with the same field, and left as it is. -/
theorem C74_again (sc : Scene) (k : List Char) (name : String) (v : Option CVal) (f : Option AskedField) (c' : Cond)
    (h : (onField k name v).validate (some sc) = .ok (f, c')) : c'.validate (some sc) = .ok (f, c') := by
  rw [validate_onField] at h
  split at h
  · cases h
  rename_i hu
  split at h
  · cases h
  rename_i hv
  simp only [Cond.resolve] at h
  cases hf : sc.find k with
  | error e => rw [hf] at h; cases e <;> cases h
  | ok g =>
    rw [hf] at h
    simp only [onField] at h
    cases hc : castValue sc g (v.map (refValue sc)) with
    | error e => rw [hc] at h; cases h
    | ok v' =>
      rw [hc] at h
      simp only at h
      cases hy : yesNo g name v' with
      | error e => rw [hy] at h; cases h
      | ok e' =>
        rw [hy] at h
        cases h
        obtain ⟨h1, h2, h3⟩ := castValue_twice hc
        obtain ⟨h4, h5⟩ := yesNo_twice hy
        have hu' : e' ≠ "UNKNOWN" := by
          rcases h5 with rfl | rfl | rfl
          · exact hu
          · decide
          · decide
        have hv' : ¬ ((v' = none ∨ v' = some .none) ∧ e' ∉ noValue) := by
          rintro ⟨ha, hb⟩
          rcases h5 with rfl | rfl | rfl
          · exact hv ⟨ha.imp h2.1 h3.1, hb⟩
          · exact hb (by decide)
          · exact hb (by decide)
        have := validate_onField (some sc) k e' v'
        rw [if_neg hu', if_neg hv'] at this
        simp only [onField] at this
        rw [this]
        simp only [Cond.resolve, hf, h1, h4]

/-- C74, against the full statement: the dictionary is changed for good. Passed again where the field of its value has another SQL, here
for another warehouse, it still compares with the SQL of the first time; the same condition written anew compares with the SQL it should. -/
theorem C74_stale : ∃ (sh : Shows) (num : ToNumeric) (first second : Scene) (c left : Cond) (col old new : List Char),
    old ≠ new ∧ NamesField first "orders.due".toList old ∧ NamesField second "orders.due".toList new ∧
    c = onField "orders.paid".toList "less_than" (some (.text "orders.due".toList)) ∧
    c.sql sh num first = .ok (.all [⟨col, .lessThan, .sql old⟩], left) ∧
    left.sql sh num second = .ok (.all [⟨col, .lessThan, .sql old⟩], left) ∧
    ∃ l, c.sql sh num second = .ok (.all [⟨col, .lessThan, .sql new⟩], l) := by
  let scene (q due : String) : Scene :=
    { queryType := q
      find := fun s => if s = "orders.due".toList then .ok ⟨"time", some "timestamp".toList, fun _ => .ok due.toList⟩
        else .ok ⟨"time", some "timestamp".toList, fun _ => .ok "orders.paid".toList⟩
      pk := .ok none, week := none, now := ⟨⟨2024, 1, 1⟩, 0⟩, literalSql := fun s => .ok s }
  let sh : Shows := ⟨fun _ => [], fun _ => []⟩
  have h1 : NamesField (scene "SNOWFLAKE" "DATE_TRUNC('DAY', orders.due)") "orders.due".toList "DATE_TRUNC('DAY', orders.due)".toList :=
    ⟨by decide, _, none, rfl, rfl, rfl⟩
  have h2 : NamesField (scene "BIGQUERY" "DATE_TRUNC(orders.due, DAY)") "orders.due".toList "DATE_TRUNC(orders.due, DAY)".toList :=
    ⟨by decide, _, none, rfl, rfl, rfl⟩
  have h3 : ∀ q d, HasSql (scene q d) "orders.paid".toList ⟨"time", some "timestamp".toList, fun _ => .ok "orders.paid".toList⟩ "orders.paid".toList :=
    fun q d => ⟨rfl, none, rfl, rfl⟩
  refine ⟨sh, fun _ => none, scene "SNOWFLAKE" "DATE_TRUNC('DAY', orders.due)", scene "BIGQUERY" "DATE_TRUNC(orders.due, DAY)", _,
    onField "orders.paid".toList "less_than" (some (.sql "DATE_TRUNC('DAY', orders.due)".toList)), "orders.paid".toList, _, _, by decide,
    h1, h2, rfl, ?_, ?_,
    ⟨onField "orders.paid".toList "less_than" (some (.sql "DATE_TRUNC(orders.due, DAY)".toList)), ?_⟩⟩
  · rw [sql_onField sh _ (h3 _ _) (by decide) (by simp) (v' := some (.sql "DATE_TRUNC('DAY', orders.due)".toList)) (name' := "less_than")
      (by rw [Option.map_some, refValue_names h1]; rfl) (yesNo_other (by decide) _ _)]
    rfl
  · rw [sql_onField sh _ (h3 _ _) (by decide) (by simp) (v' := some (.sql "DATE_TRUNC('DAY', orders.due)".toList)) (name' := "less_than")
      rfl (yesNo_other (by decide) _ _)]
    rfl
  · rw [sql_onField sh _ (h3 _ _) (by decide) (by simp) (v' := some (.sql "DATE_TRUNC(orders.due, DAY)".toList)) (name' := "less_than")
      (by rw [Option.map_some, refValue_names h2]; rfl) (yesNo_other (by decide) _ _)]
    rfl

/-! ### Conditions on results -/

/-- C74. A condition on a result that is already there compares the column of the field, for the six comparisons and every constant; a
text with the name of a field in it is only a text there. -/
theorem C74_result (sh : Shows) (num : ToNumeric) (w : RowSql) (col : List Char → Res (List Char)) {k t : List Char} (hk : col k = .ok t)
    {name : String} (hn : name ∈ orderNames) {v : CVal} (hv : Constant v) :
    ∃ a, (onField k name (some v)).aliasSql num col = .ok (.all [a]) ∧
      Says (truth sh w a) (w.ev t) (Ordered w name (w.ev t) (RowSql.cell w v)) := by
  obtain ⟨e, he, hs, _⟩ := atom_order sh num w hn "unknown" t v
  have hm : name ≠ "matches" := by rintro rfl; revert hn; decide
  have hu : name ≠ "UNKNOWN" := by rintro rfl; revert hn; decide
  have hne : v ≠ .none := by rcases hv with ⟨b, rfl⟩ | ⟨q, rfl⟩ | ⟨s, rfl⟩ | ⟨t, rfl⟩ <;> simp
  refine ⟨⟨t, e, v⟩, ?_, hs _ rfl (constant_cell hv)⟩
  unfold Cond.aliasSql
  rw [validate_onField, if_neg hu, if_neg (by simp [hne])]
  simp only [onField, ne_eq, not_true_eq_false, if_false, hk, Option.some.injEq, hm, Option.getD_some, he]
  rfl

/-- C74, against the full statement: `matches` cannot be used on a result. -/
theorem C74_result_matches (num : ToNumeric) (col : List Char → Res (List Char)) {k t : List Char} (hk : col k = .ok t) {v : CVal}
    (hv : v ≠ .none) : (onField k "matches" (some v)).aliasSql num col = .error .attributeError := by
  unfold Cond.aliasSql
  rw [validate_onField, if_neg (by decide), if_neg (by simp [hv])]
  simp [onField, hk]

/-! ### The text -/

/-- C74. The text of a comparison with a text, or with a list of texts after IN, is the one of C51: the values stay inside their
literals. -/
theorem C74_text (sh : Shows) (num : ToNumeric) (type : String) (hn : type ≠ "number") (col : List Char) (e : Expression) (a : Atom) :
    (∀ s, mkAtom num type col e (.text s) = .ok a → sqlQuery sh.num col ⟨e, .text s⟩ = .ok (a.text sh)) ∧
    (∀ l, e = .isIn ∨ e = .isNotIn → mkAtom num type col e (.list (l.map .text)) = .ok a →
      sqlQuery sh.num col ⟨e, .texts l⟩ = .ok (a.text sh)) := by
  constructor
  · intro s h
    have ha := mkAtom_shape num hn h
    subst ha
    cases e <;> first | rfl | (simp [mkAtom] at h)
  · intro l he h
    have ha := mkAtom_shape num hn h
    subst ha
    have hi : ∀ l : List (List Char), (l.map CItem.text).map (CItem.sql sh) = l.map quote := by
      intro l; rw [List.map_map]; rfl
    rcases he with rfl | rfl <;> simp only [sqlQuery, Operand.sql, Atom.text, CVal.tuple, hi]

end ML
