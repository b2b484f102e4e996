import Verif.Filters.Props
import Mathlib.Tactic.ByContra
import Mathlib.Tactic.Push
/-
More of C04 and C28: which exception a malformed filter raises.
-/
set_option autoImplicit false
namespace ML
open Spec

mutual
/-- Dictionaries at every level. -/
def Spec.OnlyDicts : FObj → Prop
  | .leaf _ => True
  | .group _ cs => Spec.OnlyDictsList cs
  | .list _ => False
  | .other => False
/-- The same for the conditions of a group. -/
def Spec.OnlyDictsList : List FObj → Prop
  | [] => True
  | c :: cs => Spec.OnlyDicts c ∧ Spec.OnlyDictsList cs
end

mutual
theorem validate_parse : ∀ f : FObj, OnlyDicts f → validateFilter f = .ok () ∨ validateFilter f = .error .parse
  | .leaf l, _ => .inl (by rw [validateFilter])
  | .group op cs, h => by
    have h' : OnlyDictsList cs := by rw [OnlyDicts] at h; exact h
    have ih := validateList_parse cs h'
    cases cs with
    | nil => right; simp only [validateFilter]
    | cons c cs =>
      simp only [validateFilter]
      rcases ih with ih | ih <;> rw [ih]
      · cases op with
        | none => left; rfl
        | some o =>
          simp only
          split
          · left; rfl
          · right; rfl
      · right; rfl
  | .list _, h => by rw [OnlyDicts] at h; exact h.elim
  | .other, h => by rw [OnlyDicts] at h; exact h.elim
theorem validateList_parse : ∀ cs : List FObj, OnlyDictsList cs → validateList cs = .ok () ∨ validateList cs = .error .parse
  | [], _ => .inl (by rw [validateList])
  | c :: cs, h => by
    rw [OnlyDictsList] at h
    have h1 := validate_parse c h.1
    have h2 := validateList_parse cs h.2
    rw [validateList]
    rcases h1 with h1 | h1 <;> rw [h1]
    · exact h2
    · right; rfl
end

/-- **C04** (e): among dictionaries, the malformed filter (an empty group or another logical operator, at any depth) is a ParseError; a list or
anything else in place of a dictionary is an AttributeError. -/
theorem C04_rejects_how (f : FObj) :
    (OnlyDicts f → ¬ WellFormedFilter f → (QFilter.json f).sql = .error .parse) ∧
    (∀ l, (QFilter.json (.list l)).sql = .error .attributeError) ∧ (QFilter.json .other).sql = .error .attributeError := by
  refine ⟨?_, fun l => rfl, rfl⟩
  intro hd hw
  rcases validate_parse f hd with h | h
  · exact absurd ((validate_ok f).mp h) hw
  · simp only [QFilter.sql, h]

theorem leafTypes_error {lookup : List (String × FieldType)} {ls : List Leaf} {e : Err} (h : leafTypes lookup ls = .error e) : e = .keyError := by
  induction ls with
  | nil => cases h
  | cons l ls ih =>
    simp only [leafTypes] at h
    split at h
    · cases h; rfl
    · split at h
      · cases h; rfl
      · split at h
        · next e' he' => cases h; exact ih he'
        · cases h

/-- **C28** (d): the only exceptions are the QueryError for a group that mixes a measure with a dimension or dimension group, and the KeyError
for a group with a field that was not resolved. -/
theorem C28_raises (lookup : List (String × FieldType)) (fs : List FObj) (e : Err) (h : parseFilters lookup fs = .error e) :
    ∃ op cs, FObj.group op cs ∈ fs ∧
      ((e = .query ∧ ∃ l l' n n' t', Inside l (.group op cs) ∧ Inside l' (.group op cs) ∧ l.field = some n ∧ l'.field = some n' ∧
          Spec.TypedAs lookup n .measure ∧ Spec.TypedAs lookup n' t' ∧ (t' = .dimension ∨ t' = .dimensionGroup)) ∨
       (e = .keyError ∧ ∃ l, Inside l (.group op cs) ∧ ¬ ∃ n t, l.field = some n ∧ Spec.TypedAs lookup n t)) := by
  induction fs with
  | nil => cases h
  | cons f fs ih =>
    simp only [parseFilters] at h
    split at h
    · next e' he =>
      cases h
      cases f with
      | leaf l => cases he
      | list l => cases he
      | other => cases he
      | group op cs =>
        cases cs with
        | nil => cases he
        | cons c cs =>
          refine ⟨op, c :: cs, by simp, ?_⟩
          have hins : ∀ l ∈ flattenFilters (c :: cs), Inside l (.group op (c :: cs)) := by
            intro l hl
            obtain ⟨d, hd, hi⟩ := (C27_mem _ _).mp hl
            exact .group op _ d hd hi
          simp only [checkMix] at he
          split at he
          · next e' hl =>
            cases he
            right
            refine ⟨leafTypes_error hl, ?_⟩
            by_contra hno
            push Not at hno
            obtain ⟨ts, hts, -⟩ := leafTypes_of_typed (lookup := lookup) (ls := flattenFilters (c :: cs)) (fun l hl => hno l (hins l hl))
            rw [hts] at hl; cases hl
          · next ts hts =>
            split at he
            · next hb =>
              cases he
              left
              refine ⟨rfl, ?_⟩
              have hall : ∀ l ∈ flattenFilters (c :: cs), ∃ n t, l.field = some n ∧ Spec.TypedAs lookup n t :=
                fun l hl => by obtain ⟨n, t, a, b, -⟩ := leafTypes_ok hts l hl; exact ⟨n, t, a, b⟩
              obtain ⟨ts', hts', hm⟩ := leafTypes_of_typed hall
              rw [hts] at hts'; cases hts'
              simp only [Bool.and_eq_true, Bool.or_eq_true, List.contains_iff_mem] at hb
              obtain ⟨l, hl, n, hn, ht⟩ := hm _ hb.1
              rcases hb.2 with h2 | h2
              · obtain ⟨l', hl', n', hn', ht'⟩ := hm _ h2
                exact ⟨l, l', n, n', _, hins l hl, hins l' hl', hn, hn', ht, ht', .inl rfl⟩
              · obtain ⟨l', hl', n', hn', ht'⟩ := hm _ h2
                exact ⟨l, l', n, n', _, hins l hl, hins l' hl', hn, hn', ht, ht', .inr rfl⟩
            · cases he
    · obtain ⟨op, cs, hm, r⟩ := ih h
      exact ⟨op, cs, by simp [hm], r⟩

/-- **C28** (e): a leaf without a field name (and without `group_by`) is a QueryError, and nothing else is. -/
theorem C28_identifiers_raises (fs : List FObj) :
    (identifiersFromDicts fs = .error .query ↔ ∃ l ∈ flattenFilters fs, l.groupBy = false ∧ l.field = none) ∧
    ((∃ ns, identifiersFromDicts fs = .ok ns) ∨ identifiersFromDicts fs = .error .query) := by
  unfold identifiersFromDicts
  induction flattenFilters fs with
  | nil => simp [identifiersFromDicts.go]
  | cons l ls ih =>
    simp only [identifiersFromDicts.go]
    cases hg : l.groupBy with
    | true => simpa [hg] using ih
    | false =>
      simp only [Bool.false_eq_true, if_false]
      cases hf : l.field with
      | none => simp [hg, hf]
      | some n =>
        simp only
        obtain ⟨i1, i2⟩ := ih
        rcases i2 with ⟨ns, i2⟩ | i2
        · rw [i2] at i1 ⊢
          simpa [hf] using i1
        · rw [i2] at i1 ⊢
          simpa [hf] using i1

example : ∃ f, OnlyDicts f ∧ ¬ WellFormedFilter f :=
  ⟨.group (some "XOR") [.leaf { field := some "v.a", first := 0 }], by simp [OnlyDicts, OnlyDictsList], by simp [WellFormedFilter]⟩

example : parseFilters [("v.a", .dimension), ("v.b", .measure)]
    [.group none [.leaf { field := some "v.a", first := 0 }, .leaf { field := some "v.b", first := 1 }]] = .error .query := by rfl

end ML
