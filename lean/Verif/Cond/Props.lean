import Verif.Cond.Spec
import Verif.FilterStr.Props
/-
C74: a condition of a query is refused, or compares its field with its value as its expression says.
-/
set_option autoImplicit false
namespace ML
open Spec

/-! ### Helpers -/

theorem refValue_asIs {sc : Scene} {v : CVal} (h : ∀ s, v = .text s → ¬ ∃ t, NamesField sc s t) : refValue sc v = v := by
  cases v with
  | text s =>
    have h := h s rfl
    simp only [refValue]
    split
    · rename_i hd
      cases hf : sc.find s with
      | error e => rfl
      | ok f =>
        simp only
        cases hp : sc.pk with
        | error e => rfl
        | ok pk =>
          simp only
          cases hs : f.sql pk with
          | error e => rfl
          | ok t => exact absurd ⟨t, hd, f, pk, hf, hp, hs⟩ h
    · rfl
  | _ => rfl

theorem refValue_names {sc : Scene} {s t : List Char} (h : NamesField sc s t) : refValue sc (.text s) = .sql t := by
  obtain ⟨hd, f, pk, hf, hp, hs⟩ := h
  simp only [refValue]
  rw [if_pos hd, hf]
  simp only
  rw [hp]
  simp only
  rw [hs]

theorem castTypes_iff (q : String) : q ∈ castTypes ↔ q = "BIGQUERY" ∨ q = "TRINO" := by simp [castTypes]

theorem castValue_asIs {sc : Scene} {f : AskedField} {v : CVal} (h : ∀ t, v = .time t → sc.queryType ≠ "BIGQUERY" ∧ sc.queryType ≠ "TRINO") :
    castValue sc f (some v) = .ok (some v) := by
  cases v with
  | time t =>
    have h := h t rfl
    simp only [castValue]
    rw [if_neg]
    rw [castTypes_iff]
    rintro (h' | h')
    · exact h.1 h'
    · exact h.2 h'
  | _ => rfl

theorem yesNo_other {f : AskedField} (h : f.type ≠ "yesno") (e : String) (v : Option CVal) : yesNo f e v = .ok e := by
  unfold yesNo; rw [if_neg h]

theorem onField_not_boolean (k : List Char) (name : String) (v : Option CVal) : (onField k name v).isBoolean = false := by
  simp [onField, Cond.isBoolean]

/-- Validation of a condition on a field, in one line. -/
theorem validate_onField (sc : Option Scene) (k : List Char) (name : String) (v : Option CVal) :
    (onField k name v).validate sc =
      if name = "UNKNOWN" then .error .notImplemented
      else if (v = none ∨ v = some .none) ∧ name ∉ noValue then .error .parse
      else match sc with
        | none => .ok (none, onField k name v)
        | some sc =>
          match (onField k name v).resolve sc k name with
          | .error err => .error err
          | .ok r => .ok (some r.1, r.2) := by
  unfold Cond.validate
  rw [onField_not_boolean]
  have h : (onField k name v).noneGiven = true ↔ (v = none ∨ v = some .none) := by
    simp only [onField, Cond.noneGiven, Bool.or_eq_true]
    exact or_congr decide_eq_true_iff decide_eq_true_iff
  simp only [Bool.false_eq_true, if_false]
  simp only [onField, reduceCtorEq, false_and, if_false] at h ⊢
  simp only [h]
  cases sc <;> rfl

/-- The SQL of a condition on a field whose validation is known. -/
theorem sql_onField (sh : Shows) (num : ToNumeric) {sc : Scene} {k : List Char} {name name' : String} {v v' : Option CVal} {f : AskedField}
    {col : List Char} (hf : HasSql sc k f col) (hu : name ≠ "UNKNOWN") (hv : ¬ ((v = none ∨ v = some .none) ∧ name ∉ noValue))
    (hc : castValue sc f (v.map (refValue sc)) = .ok v') (hy : yesNo f name v' = .ok name') :
    (onField k name v).sql sh num sc =
      match Cond.criterion sh num sc f name' (v'.getD .none) col with
      | .error e => .error e
      | .ok as => .ok (.all as, onField k name' v') := by
  obtain ⟨pk, hp, hs⟩ := hf.sql
  unfold Cond.sql
  rw [validate_onField, if_neg hu, if_neg hv]
  simp only [Cond.resolve]
  rw [hf.found]
  simp only [onField]
  rw [hc]
  simp only
  rw [hy]
  simp only
  rw [hp]
  simp only
  rw [hs]
  simp only [Option.getD_some]
  cases Cond.criterion sh num sc f name' (v'.getD .none) col <;> rfl

theorem criterion_plain (sh : Shows) (num : ToNumeric) (sc : Scene) (f : AskedField) (e : String) (v : CVal) (col : List Char) (he : e ≠ "matches") :
    Cond.criterion sh num sc f e v col = (mkAtom num f.type col (parseExpression e) v).map ([·]) := by
  unfold Cond.criterion; rw [if_neg he]

theorem says_ofBool {x : Cell} {b : Bool} {p : Prop} (h : b = true ↔ p) : Says (if x = .null then .u else TV.ofBool b) x p := by
  unfold Says
  by_cases hx : x = .null
  · simp [hx]
  · cases b
    · have : ¬ p := fun hp => by simpa using h.2 hp
      simp [hx, TV.ofBool, this]
    · have : p := h.1 rfl
      simp [hx, TV.ofBool, this]

theorem says_not {tv : TV} {x : Cell} {p : Prop} (h : Says tv x p) : Says tv.not x (¬ p) := by
  obtain ⟨ht, hf, hu⟩ := h
  refine ⟨?_, ?_, ?_⟩
  · rw [← hf]; cases tv <;> simp [TV.not]
  · rw [not_not, ← ht]; cases tv <;> simp [TV.not]
  · rw [← hu]; cases tv <;> simp [TV.not]

theorem says_congr {tv : TV} {x : Cell} {p q : Prop} (h : Says tv x p) (hpq : p ↔ q) : Says tv x q := by
  unfold Says at h ⊢; rwa [← hpq]

theorem constant_cell {w : RowSql} {v : CVal} (h : Constant v) : RowSql.cell w v ≠ .null := by
  rcases h with ⟨b, rfl⟩ | ⟨q, rfl⟩ | ⟨s, rfl⟩ | ⟨t, rfl⟩ <;> simp [RowSql.cell]

theorem cmpTruth_says (w : RowSql) (x y : Cell) (p : Ordering → Bool) (hy : y ≠ .null) :
    Says (cmpTruth w x y p) x (p (w.order x y) = true) := by
  unfold cmpTruth
  simp only [hy, or_false]
  exact says_ofBool Iff.rfl

theorem like_contains {v : List Char} (hv : NoWildcard v) (x : List Char) : like ('%' :: v ++ ['%']) x = true ↔ v <:+: x := by
  rw [List.cons_append, like_percent]
  constructor
  · rintro ⟨t, ⟨a, ha⟩, h⟩
    obtain ⟨r, hr, _⟩ := (like_literal _ hv _ _).mp h
    exact ⟨a, r, by rw [← ha, hr, List.append_assoc]⟩
  · rintro ⟨a, r, h⟩
    exact ⟨v ++ r, ⟨a, by rw [← h, List.append_assoc]⟩, (like_literal _ hv _ _).mpr ⟨r, rfl, like_any r⟩⟩

theorem like_starts {v : List Char} (hv : NoWildcard v) (x : List Char) : like (v ++ ['%']) x = true ↔ v <+: x := by
  rw [like_literal _ hv]
  constructor
  · rintro ⟨r, hr, _⟩; exact ⟨r, hr.symm⟩
  · rintro ⟨r, hr⟩; exact ⟨r, hr.symm, like_any r⟩

theorem like_ends {v : List Char} (hv : NoWildcard v) (x : List Char) : like ('%' :: v) x = true ↔ v <:+ x := by
  rw [like_percent]
  constructor
  · rintro ⟨t, ht, h⟩
    obtain ⟨r, hr, h0⟩ := (like_literal v hv [] t).mp (by simpa using h)
    have : r = [] := by simpa [like] using h0
    subst this
    rw [List.append_nil] at hr
    rw [← hr]; exact ht
  · intro h
    exact ⟨v, h, by simpa using (like_literal v hv [] v).mpr ⟨[], by simp, by simp [like]⟩⟩

theorem low_percent_both (v : List Char) : low ('%' :: v ++ ['%']) = '%' :: low v ++ ['%'] := by
  have : low ['%'] = ['%'] := by decide
  show Char.toLower '%' :: low (v ++ ['%']) = _
  rw [low_append, this]; rfl

theorem low_percent_end (v : List Char) : low (v ++ ['%']) = low v ++ ['%'] := by
  have : low ['%'] = ['%'] := by decide
  rw [low_append, this]

theorem low_percent_front (v : List Char) : low ('%' :: v) = '%' :: low v := rfl

/-! ### What a condition means -/

section
variable (sh : Shows) (num : ToNumeric) (w : RowSql) {sc : Scene} {k col : List Char} {f : AskedField}

theorem name_cases {name : String} (h : name ∈ orderNames) : name = "equal_to" ∨ name = "not_equal_to" ∨ name = "less_than" ∨
    name = "less_or_equal_than" ∨ name = "greater_than" ∨ name = "greater_or_equal_than" := by simpa [orderNames] using h

theorem atom_order {name : String} (h : name ∈ orderNames) (type : String) (col : List Char) (v : CVal) :
    ∃ e, mkAtom num type col (parseExpression name) v = .ok ⟨col, e, v⟩ ∧
      (∀ y, RowSql.cell w v = y → y ≠ .null → Says (truth sh w ⟨col, e, v⟩) (w.ev col) (Ordered w name (w.ev col) y)) ∧
      (RowSql.cell w v = .null → truth sh w ⟨col, e, v⟩ = .u) := by
  rcases name_cases h with rfl | rfl | rfl | rfl | rfl | rfl
  · refine ⟨.equalTo, rfl, ?_, ?_⟩
    · rintro y rfl hy
      exact says_congr (cmpTruth_says w (w.ev col) _ (fun o => decide (o = .eq)) hy) (by simp [Ordered])
    · intro hy; simp [truth, cmpTruth, hy]
  · refine ⟨.notEqualTo, rfl, ?_, ?_⟩
    · rintro y rfl hy
      exact says_congr (cmpTruth_says w (w.ev col) _ (fun o => decide (o ≠ .eq)) hy) (by simp [Ordered])
    · intro hy; simp [truth, cmpTruth, hy]
  · refine ⟨.lessThan, rfl, ?_, ?_⟩
    · rintro y rfl hy
      exact says_congr (cmpTruth_says w (w.ev col) _ (fun o => decide (o = .lt)) hy) (by simp [Ordered])
    · intro hy; simp [truth, cmpTruth, hy]
  · refine ⟨.lessOrEqual, rfl, ?_, ?_⟩
    · rintro y rfl hy
      exact says_congr (cmpTruth_says w (w.ev col) _ (fun o => decide (o ≠ .gt)) hy) (by simp [Ordered])
    · intro hy; simp [truth, cmpTruth, hy]
  · refine ⟨.greaterThan, rfl, ?_, ?_⟩
    · rintro y rfl hy
      exact says_congr (cmpTruth_says w (w.ev col) _ (fun o => decide (o = .gt)) hy) (by simp [Ordered])
    · intro hy; simp [truth, cmpTruth, hy]
  · refine ⟨.greaterOrEqual, rfl, ?_, ?_⟩
    · rintro y rfl hy
      exact says_congr (cmpTruth_says w (w.ev col) _ (fun o => decide (o ≠ .lt)) hy) (by simp [Ordered])
    · intro hy; simp [truth, cmpTruth, hy]

/-- C74. A condition with one of the six comparisons and a constant is true of the rows whose value compares like that, false of the
others, and unknown where there is no value; the dictionary passed is left as it was. -/
theorem C74_compares (hf : HasSql sc k f col) (ht : f.type ≠ "yesno") {name : String} (hn : name ∈ orderNames) {v : CVal}
    (hv : Constant v) (has : TakenAsIs sc v) :
    ∃ a, (onField k name (some v)).sql sh num sc = .ok (.all [a], onField k name (some v)) ∧
      Says (truth sh w a) (w.ev col) (Ordered w name (w.ev col) (RowSql.cell w v)) := by
  obtain ⟨e, he, hs, _⟩ := atom_order sh num w hn f.type col v
  have hm : name ≠ "matches" := by rintro rfl; revert hn; decide
  have hu : name ≠ "UNKNOWN" := by rintro rfl; revert hn; decide
  have hne : v ≠ .none := by rcases hv with ⟨b, rfl⟩ | ⟨q, rfl⟩ | ⟨s, rfl⟩ | ⟨t, rfl⟩ <;> simp
  refine ⟨⟨col, e, v⟩, ?_, hs _ rfl (constant_cell hv)⟩
  rw [sql_onField sh num hf hu (by simp [hne]) (v' := some v) (name' := name)
    (by rw [Option.map_some, refValue_asIs has.1, castValue_asIs has.2]) (yesNo_other ht _ _)]
  rw [criterion_plain _ _ _ _ _ _ _ hm, Option.getD_some, he]
  rfl

/-- C74. The value can be the name of a field, with its view: then the two fields are compared, row by row. The dictionary that was
passed is changed: its value is now SQL. -/
theorem C74_field_value (hf : HasSql sc k f col) (ht : f.type ≠ "yesno") {name : String} (hn : name ∈ orderNames) {s t : List Char}
    (hs : NamesField sc s t) :
    ∃ a, (onField k name (some (.text s))).sql sh num sc = .ok (.all [a], onField k name (some (.sql t))) ∧
      (w.ev t ≠ .null → Says (truth sh w a) (w.ev col) (Ordered w name (w.ev col) (w.ev t))) ∧
      (w.ev t = .null → truth sh w a = .u) := by
  obtain ⟨e, he, hs', hu'⟩ := atom_order sh num w hn f.type col (.sql t)
  have hm : name ≠ "matches" := by rintro rfl; revert hn; decide
  have hu : name ≠ "UNKNOWN" := by rintro rfl; revert hn; decide
  refine ⟨⟨col, e, .sql t⟩, ?_, fun h => hs' _ rfl h, hu'⟩
  rw [sql_onField sh num hf hu (by simp) (v' := some (.sql t)) (name' := name)
    (by rw [Option.map_some, refValue_names hs]; rfl) (yesNo_other ht _ _)]
  rw [criterion_plain _ _ _ _ _ _ _ hm, Option.getD_some, he]
  rfl

theorem liked_says (x : Cell) (p : List Char) : Says (liked w x p) x (like p (w.shown x) = true) := says_ofBool Iff.rfl

theorem likedLow_says (x : Cell) (p : List Char) : Says (likedLow w x p) x (like (low p) (low (w.shown x)) = true) := says_ofBool Iff.rfl

theorem atom_text {name : String} (h : name ∈ textNames) (type : String) (col : List Char) (v : CVal) (hv : NoWildcard (v.shown sh)) :
    ∃ e, mkAtom num type col (parseExpression name) v = .ok ⟨col, e, v⟩ ∧
      Says (truth sh w ⟨col, e, v⟩) (w.ev col) (TextHas name (v.shown sh) (w.shown (w.ev col))) := by
  have hl := noWildcard_low hv
  have hn : name = "contains" ∨ name = "does_not_contain" ∨ name = "contains_case_insensitive" ∨
      name = "does_not_contain_case_insensitive" ∨ name = "starts_with" ∨ name = "does_not_start_with" ∨
      name = "starts_with_case_insensitive" ∨ name = "does_not_start_with_case_insensitive" ∨ name = "ends_with" ∨
      name = "does_not_end_with" ∨ name = "ends_with_case_insensitive" ∨ name = "does_not_end_with_case_insensitive" := by
    simpa [textNames] using h
  rcases hn with rfl | rfl | rfl | rfl | rfl | rfl | rfl | rfl | rfl | rfl | rfl | rfl
  · exact ⟨.contains, rfl, says_congr (liked_says w _ _) ((like_contains hv _).trans (by simp [TextHas]))⟩
  · exact ⟨.doesNotContain, rfl, says_congr (says_not (liked_says w _ _)) ((not_congr (like_contains hv _)).trans (by simp [TextHas]))⟩
  · refine ⟨.containsCI, rfl, says_congr (likedLow_says w _ _) ?_⟩
    rw [low_percent_both, like_contains hl]; simp [TextHas]
  · refine ⟨.doesNotContainCI, rfl, says_congr (says_not (likedLow_says w _ _)) ?_⟩
    rw [low_percent_both, like_contains hl]; simp [TextHas]
  · exact ⟨.startsWith, rfl, says_congr (liked_says w _ _) ((like_starts hv _).trans (by simp [TextHas]))⟩
  · exact ⟨.doesNotStartWith, rfl, says_congr (says_not (liked_says w _ _)) ((not_congr (like_starts hv _)).trans (by simp [TextHas]))⟩
  · refine ⟨.startsWithCI, rfl, says_congr (likedLow_says w _ _) ?_⟩
    rw [low_percent_end, like_starts hl]; simp [TextHas]
  · refine ⟨.doesNotStartWithCI, rfl, says_congr (says_not (likedLow_says w _ _)) ?_⟩
    rw [low_percent_end, like_starts hl]; simp [TextHas]
  · exact ⟨.endsWith, rfl, says_congr (liked_says w _ _) ((like_ends hv _).trans (by simp [TextHas]))⟩
  · exact ⟨.doesNotEndWith, rfl, says_congr (says_not (liked_says w _ _)) ((not_congr (like_ends hv _)).trans (by simp [TextHas]))⟩
  · refine ⟨.endsWithCI, rfl, says_congr (likedLow_says w _ _) ?_⟩
    rw [low_percent_front, like_ends hl]; simp [TextHas]
  · refine ⟨.doesNotEndWithCI, rfl, says_congr (says_not (likedLow_says w _ _)) ?_⟩
    rw [low_percent_front, like_ends hl]; simp [TextHas]

/-- C74. The twelve expressions that look for a text find it where they say: anywhere, at the start, at the end, with or without regard
to case; for values without `%` and `_`. -/
theorem C74_texts_partial (hf : HasSql sc k f col) (ht : f.type ≠ "yesno") {name : String} (hn : name ∈ textNames) {v : CVal}
    (hv : Constant v) (has : TakenAsIs sc v) (hw : NoWildcard (v.shown sh)) :
    ∃ a, (onField k name (some v)).sql sh num sc = .ok (.all [a], onField k name (some v)) ∧
      Says (truth sh w a) (w.ev col) (TextHas name (v.shown sh) (w.shown (w.ev col))) := by
  obtain ⟨e, he, hs⟩ := atom_text sh num w hn f.type col v hw
  have hm : name ≠ "matches" := by rintro rfl; revert hn; decide
  have hu : name ≠ "UNKNOWN" := by rintro rfl; revert hn; decide
  have hne : v ≠ .none := by rcases hv with ⟨b, rfl⟩ | ⟨q, rfl⟩ | ⟨s, rfl⟩ | ⟨t, rfl⟩ <;> simp
  refine ⟨⟨col, e, v⟩, ?_, hs⟩
  rw [sql_onField sh num hf hu (by simp [hne]) (v' := some v) (name' := name)
    (by rw [Option.map_some, refValue_asIs has.1, castValue_asIs has.2]) (yesNo_other ht _ _)]
  rw [criterion_plain _ _ _ _ _ _ _ hm, Option.getD_some, he]
  rfl

/-- C74. `like` takes the value as a pattern. -/
theorem C74_like (hf : HasSql sc k f col) (ht : f.type ≠ "yesno") {s : List Char} (has : TakenAsIs sc (.text s)) :
    ∃ a, (onField k "like" (some (.text s))).sql sh num sc = .ok (.all [a], onField k "like" (some (.text s))) ∧
      Says (truth sh w a) (w.ev col) (like (w.shown (.text s)) (w.shown (w.ev col)) = true) := by
  refine ⟨⟨col, .like, .text s⟩, ?_, ?_⟩
  · rw [sql_onField sh num hf (by decide) (by simp) (v' := some (.text s)) (name' := "like")
      (by rw [Option.map_some, refValue_asIs has.1, castValue_asIs has.2]) (yesNo_other ht _ _)]
    rw [criterion_plain _ _ _ _ _ _ _ (by decide)]
    rfl
  · exact liked_says w _ _

theorem among_says {l : List CItem} (hl : l ≠ []) (x : Cell) : Says (among w x (.list l)) x (∃ i ∈ l, w.order x (itemCell i) = .eq) := by
  cases l with
  | nil => exact absurd rfl hl
  | cons i l =>
    refine says_ofBool ?_
    rw [List.any_eq_true]
    simp only [decide_eq_true_eq]

/-- C74. `isin` keeps the rows whose value is one of the list, `isnotin` the others that have a value. -/
theorem C74_lists (hf : HasSql sc k f col) (ht : f.type ≠ "yesno") (hnum : f.type ≠ "number") {l : List CItem} (hl : l ≠ []) :
    (∃ a, (onField k "isin" (some (.list l))).sql sh num sc = .ok (.all [a], onField k "isin" (some (.list l))) ∧
      Says (truth sh w a) (w.ev col) (∃ i ∈ l, w.order (w.ev col) (itemCell i) = .eq)) ∧
    (∃ a, (onField k "isnotin" (some (.list l))).sql sh num sc = .ok (.all [a], onField k "isnotin" (some (.list l))) ∧
      Says (truth sh w a) (w.ev col) (¬ ∃ i ∈ l, w.order (w.ev col) (itemCell i) = .eq)) := by
  have hb : (f.type == "number") = false := by simp [hnum]
  constructor
  · refine ⟨⟨col, .isIn, .list l⟩, ?_, among_says w hl _⟩
    rw [sql_onField sh num hf (by decide) (by simp) (v' := some (.list l)) (name' := "isin") rfl (yesNo_other ht _ _)]
    rw [criterion_plain _ _ _ _ _ _ _ (by decide)]
    simp only [parseExpression, mkAtom, hb, listValue, Option.getD_some]
    rfl
  · refine ⟨⟨col, .isNotIn, .list l⟩, ?_, says_not (among_says w hl _)⟩
    rw [sql_onField sh num hf (by decide) (by simp) (v' := some (.list l)) (name' := "isnotin") rfl (yesNo_other ht _ _)]
    rw [criterion_plain _ _ _ _ _ _ _ (by decide)]
    simp only [parseExpression, mkAtom, hb, listValue, Option.getD_some]
    rfl

end

end ML
