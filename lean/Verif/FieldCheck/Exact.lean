import Verif.FieldCheck.Lemmas
/-
Each group of checks of C62 reports exactly the problems of its part of the specification.
-/
set_option autoImplicit false
namespace ML
open Spec

theorem given_unique {d : FDef} {k : String} {v w : Yaml} (h : Given d k v) (h' : Given d k w) : v = w := by
  unfold Given at *; rw [h] at h'; exact Option.some.inj h'

theorem validName_false (name : String) : validName name = false ↔ ¬ (name.toList ≠ [] ∧ ∀ c ∈ name.toList,
    ('a' ≤ c ∧ c ≤ 'z') ∨ ('A' ≤ c ∧ c ≤ 'Z') ∨ ('0' ≤ c ∧ c ≤ '9') ∨ c = '_') := by
  have h : (∀ c ∈ name.toList, ('a' ≤ c ∧ c ≤ 'z') ∨ ('A' ≤ c ∧ c ≤ 'Z') ∨ ('0' ≤ c ∧ c ≤ '9') ∨ c = '_') ↔
      ∀ c ∈ name.toList, (('A' ≤ c ∧ c ≤ 'Z') ∨ ('a' ≤ c ∧ c ≤ 'z') ∨ ('0' ≤ c ∧ c ≤ '9') ∨ c = '_') := by
    refine forall_congr' fun c => forall_congr' fun _ => ?_
    tauto
  rw [h, ← C06_validName]
  simp

theorem reserved_valid : ∀ n ∈ reservedNames, validName n = true := by decide +kernel

theorem nameChecks_mem {name ft : String} {p : FieldProblem} :
    p ∈ nameChecks name ft ↔ (p = .badName ∧ validName name = false) ∨
      (p = .reservedName ∧ name ∈ reservedNames ∧ ft ≠ "dimension_group") := by
  unfold nameChecks
  by_cases h : validName name = true
  · have h1 : ¬ ((!validName name) = true) := by simp [h]
    rw [if_neg h1]
    by_cases hr : name ∈ reservedNames
    · by_cases hf : ft = "dimension_group" <;> simp [hr, hf, h]
    · simp [hr, h]
  · have h' : validName name = false := by simpa using h
    have hr : name ∉ reservedNames := fun hr => h (reserved_valid name hr)
    simp [h', hr]

theorem lengthCheck_mem {d : FDef} {k : String} {p : FieldProblem} :
    p ∈ lengthCheck d k ↔ p = .tooLong k ∧ ∃ s, Given d k (.str s) ∧ 512 < s.length := by
  unfold lengthCheck Given
  cases h : dictGet d k with
  | none => simp
  | some v =>
    cases v with
    | str s => by_cases hs : 512 < s.length <;> simp [hs]
    | _ => simp

theorem plainChecks_mem {d : FDef} {ft : String} {p : FieldProblem} :
    p ∈ plainChecks d ft ↔
      (p = .badFieldType ∧ ft ∉ ["dimension", "dimension_group", "measure"]) ∨ (p = .noType ∧ ¬ HasKey d "type") ∨
      (p = .wrongKind "label" ∧ GivenNot d "label" Text ∧ ¬ IsSet d "label_prefix") ∨
      (p = .wrongKind "group_label" ∧ GivenNot d "group_label" Text) ∨ (p = .wrongKind "hidden" ∧ GivenNot d "hidden" Flag) ∨
      (p = .wrongKind "description" ∧ GivenNot d "description" Text) ∨
      (p = .tooLong "description" ∧ ∃ s, Given d "description" (.str s) ∧ 512 < s.length) ∨
      (p = .wrongKind "zoe_description" ∧ GivenNot d "zoe_description" Text) ∨
      (p = .tooLong "zoe_description" ∧ ∃ s, Given d "zoe_description" (.str s) ∧ 512 < s.length) ∨
      (p = .badFormat ∧ GivenNot d "value_format_name" (Word formats)) ∨
      (p = .wrongKind "synonyms" ∧ GivenNot d "synonyms" Listed) ∨ (p = .badItem "synonyms" ∧ HasItemNot d "synonyms" Text) := by
  unfold plainChecks
  rw [show validFormats = formats from rfl]
  have hl : p ∈ wants d "label" (fun v => v.isStr || truthyOpt (dictGet d "label_prefix")) (.wrongKind "label") ↔
      p = .wrongKind "label" ∧ GivenNot d "label" Text ∧ ¬ IsSet d "label_prefix" := by
    rw [wants_mem, ← truthyOpt_false_iff]
    simp only [Bool.or_eq_false_iff, isStr_iff]
    unfold GivenNot
    constructor
    · rintro ⟨h, v, hv, ht, hp⟩; exact ⟨h, ⟨v, hv, ht⟩, hp⟩
    · rintro ⟨h, ⟨v, hv, ht⟩, hp⟩; exact ⟨h, v, hv, ht, hp⟩
  have h1 : p ∈ (if ["dimension", "dimension_group", "measure"].contains ft then [] else [.badFieldType] : List FieldProblem) ↔
      p = .badFieldType ∧ ft ∉ ["dimension", "dimension_group", "measure"] := by
    by_cases h : ft ∈ ["dimension", "dimension_group", "measure"]
    · rw [if_pos (by simpa using h)]; simp [h]
    · rw [if_neg (by simpa using h)]; simp [h]
  have h2 : p ∈ (if (dictGet d "type").isSome then [] else [.noType] : List FieldProblem) ↔ p = .noType ∧ ¬ HasKey d "type" := by
    rw [← isSome_iff_hasKey]
    by_cases h : (dictGet d "type").isSome = true <;> simp [h]
  simp only [List.mem_append, hl, h1, h2, wants_kind isStr_iff, wants_kind isBool_iff, wants_kind (oneOf_iff _), lengthCheck_mem,
    wantsList_mem isStr_iff, or_assoc]

theorem grantChecks_mem {env : CheckEnv} {d : FDef} {p : FieldProblem} :
    p ∈ grantChecks env d ↔
      (p = .wrongKind "required_access_grants" ∧ GivenNot d "required_access_grants" Listed) ∨
      (p = .badItem "required_access_grants" ∧ HasItemNot d "required_access_grants" Text) ∨
      ∃ l g, Given d "required_access_grants" (.list l) ∧ Yaml.str g ∈ l ∧ env.grant g = false ∧ p = .noGrant g := by
  unfold grantChecks GivenNot HasItemNot Given
  cases h : dictGet d "required_access_grants" with
  | none => simp
  | some v =>
    cases v with
    | list l =>
      simp only [List.mem_flatMap, Option.some.injEq, exists_eq_left', Listed, Yaml.list.injEq, exists_eq', not_true_eq_false,
        and_false, false_or]
      constructor
      · rintro ⟨v, hv, hp⟩
        cases v with
        | str g =>
          simp only at hp
          cases hg : env.grant g with
          | true => rw [hg] at hp; simp at hp
          | false =>
            rw [hg] at hp
            refine .inr ⟨l, g, rfl, hv, hg, by simpa using hp⟩
        | _ => exact .inl ⟨by simpa using hp, _, hv, by simp [Text]⟩
      · rintro (⟨rfl, v, hv, hn⟩ | ⟨_, g, rfl, hg, hf, rfl⟩)
        · refine ⟨v, hv, ?_⟩
          cases v with
          | str s => exact absurd ⟨s, rfl⟩ hn
          | _ => simp
        · exact ⟨_, hg, by simp [hf]⟩
    | _ => simp [Listed]

/-- The three values of `canon_date`. -/
theorem canonVal_cases (env : CheckEnv) (d : FDef) :
    (canonVal env d = .raw ∧ IsSet d "canon_date" ∧ ¬ GivesText d "canon_date" ∧ ∀ c, ¬ DateIs env d c) ∨
    (∃ c, canonVal env d = .text c ∧ DateIs env d c ∧ (∀ c', DateIs env d c' → c' = c) ∧
      (IsSet d "canon_date" → GivesText d "canon_date")) ∨
    (canonVal env d = .none ∧ ¬ IsSet d "canon_date" ∧ ∀ c, ¬ DateIs env d c) := by
  have view : ¬ IsSet d "canon_date" → canonVal env d = canonVal.viewDate env →
      (canonVal env d = .raw ∧ IsSet d "canon_date" ∧ ¬ GivesText d "canon_date" ∧ ∀ c, ¬ DateIs env d c) ∨
      (∃ c, canonVal env d = .text c ∧ DateIs env d c ∧ (∀ c', DateIs env d c' → c' = c) ∧
        (IsSet d "canon_date" → GivesText d "canon_date")) ∨
      (canonVal env d = .none ∧ ¬ IsSet d "canon_date" ∧ ∀ c, ¬ DateIs env d c) := by
    intro hn he
    have own : ∀ s, Given d "canon_date" (.str s) → s ≠ "" → False := by
      intro s hs hne
      exact hn ⟨_, hs, fun c => by cases c; exact hne rfl⟩
    unfold canonVal.viewDate at he
    cases hv : env.defaultDate with
    | none =>
      rw [hv] at he
      refine .inr (.inr ⟨he, hn, fun c hc => ?_⟩)
      cases hc with
      | own hs hne _ => exact own _ hs hne
      | view _ ht _ _ => rw [hv] at ht; cases ht
    | some t =>
      rw [hv] at he
      by_cases ht : t = ""
      · simp only [ht, ne_eq, not_true_eq_false, if_false] at he
        refine .inr (.inr ⟨he, hn, fun c hc => ?_⟩)
        cases hc with
        | own hs hne _ => exact own _ hs hne
        | view _ ht' hne _ => rw [hv] at ht'; cases ht'; exact hne ht
      · simp only [ne_eq, ht, not_false_eq_true, if_true] at he
        refine .inr (.inl ⟨_, he, .view hn hv ht (qualified_iff.mpr rfl), fun c' hc => ?_, fun h => absurd h hn⟩)
        cases hc with
        | own hs hne _ => exact (own _ hs hne).elim
        | view _ ht' hne hq => rw [hv] at ht'; cases ht'; exact qualified_iff.mp hq
  cases h : dictGet d "canon_date" with
  | none =>
    exact view (by rintro ⟨v, hv, _⟩; unfold Given at hv; rw [h] at hv; cases hv) (by unfold canonVal; rw [h])
  | some v =>
    have hv : Given d "canon_date" v := h
    by_cases ht : v.truthy = true
    · have hset : IsSet d "canon_date" := ⟨v, hv, by rw [← truthy_iff]; simp [ht]⟩
      cases hs : v with
      | str s =>
        rw [hs] at h ht hv
        have hne : s ≠ "" := by simpa [Yaml.truthy] using ht
        refine .inr (.inl ⟨qualifyRef env.view (dropBraces s), by unfold canonVal; rw [h]; simp [hne], .own hv hne (qualified_iff.mpr rfl),
          fun c' hc => ?_, fun _ => ⟨s, hv⟩⟩)
        cases hc with
        | own hs' _ hq =>
          cases given_unique hv hs'
          exact qualified_iff.mp hq
        | view hn _ _ _ => exact absurd hset hn
      | _ =>
        rw [hs] at h ht hv
        refine .inl ⟨by unfold canonVal; rw [h]; simp [ht], hset, ?_, fun c hc => ?_⟩
        · rintro ⟨s, hs'⟩; cases given_unique hv hs'
        · cases hc with
          | own hs' _ _ => cases given_unique hv hs'
          | view hn _ _ _ => exact hn hset
    · have hn : ¬ IsSet d "canon_date" := by
        rintro ⟨w, hw, hnot⟩
        cases given_unique hv hw
        exact hnot ((truthy_iff v).mp (by simpa using ht))
      refine view hn ?_
      unfold canonVal
      rw [h]
      cases hs : v with
      | str s =>
        rw [hs] at ht
        have : s = "" := by simpa [Yaml.truthy] using ht
        simp [this]
      | _ => rw [hs] at ht; simp [ht]

theorem dateChecks_says {env : CheckEnv} {d : FDef} {p : FieldProblem} :
    Says (dateChecks env d) p ↔
      (p = .wrongKind "canon_date" ∧ IsSet d "canon_date" ∧ ¬ GivesText d "canon_date") ∨
      ∃ c, DateIs env d c ∧ ¬ Qualified env.view (env.defaultDate.getD "None") c ∧
        ((p = .dateUnreachable ∧ (Unknown (env.getByName c) ∨ env.getByName c = .error .query)) ∨
         (p = .dateNotTime ∧ ∃ g, env.getByName c = .ok g ∧ NotTime g)) := by
  unfold dateChecks
  rcases canonVal_cases env d with ⟨h, hs, hn, hd⟩ | ⟨c, h, hd, hu, ht⟩ | ⟨h, hn, hd⟩
  · rw [h]
    simp only [says_ok, List.mem_singleton]
    constructor
    · rintro rfl; exact .inl ⟨rfl, hs, hn⟩
    · rintro (⟨rfl, _⟩ | ⟨c, hc, _⟩)
      · rfl
      · exact absurd hc (hd c)
  · rw [h]
    simp only
    have l : ∀ q : FieldProblem → Prop, ((p = .wrongKind "canon_date" ∧ IsSet d "canon_date" ∧ ¬ GivesText d "canon_date") ∨ q p) ↔ q p := by
      intro q
      constructor
      · rintro (⟨_, hs, hn⟩ | h)
        · exact absurd (ht hs) hn
        · exact h
      · exact .inr
    rw [l (fun p => ∃ c, DateIs env d c ∧ ¬ Qualified env.view (env.defaultDate.getD "None") c ∧
        ((p = .dateUnreachable ∧ (Unknown (env.getByName c) ∨ env.getByName c = .error .query)) ∨
         (p = .dateNotTime ∧ ∃ g, env.getByName c = .ok g ∧ NotTime g)))]
    have e : (∃ c, DateIs env d c ∧ ¬ Qualified env.view (env.defaultDate.getD "None") c ∧
        ((p = .dateUnreachable ∧ (Unknown (env.getByName c) ∨ env.getByName c = .error .query)) ∨
         (p = .dateNotTime ∧ ∃ g, env.getByName c = .ok g ∧ NotTime g))) ↔ ¬ c = viewDateText env ∧
        ((p = .dateUnreachable ∧ (Unknown (env.getByName c) ∨ env.getByName c = .error .query)) ∨
         (p = .dateNotTime ∧ ∃ g, env.getByName c = .ok g ∧ NotTime g)) := by
      constructor
      · rintro ⟨c', hc', hq, hr⟩
        cases hu c' hc'
        exact ⟨fun e => hq (qualified_iff.mpr e), hr⟩
      · rintro ⟨hq, hr⟩
        exact ⟨c, hd, fun e => hq (qualified_iff.mp e), hr⟩
    rw [e]
    by_cases hc : c = viewDateText env
    · rw [if_pos hc]; simp [says_ok, hc]
    · rw [if_neg hc]
      simp only [hc, not_false_eq_true, true_and, Unknown]
      cases hg : env.getByName c with
      | ok g =>
        simp only [says_ok, NotTime, reduceCtorEq, or_self, and_false, false_or, Except.ok.injEq, exists_eq_left']
        by_cases hb : g.role ≠ .group ∨ g.type ≠ "time"
        · rw [if_pos hb]; simp [hb]
        · rw [if_neg hb]; simp [hb]
      | error e => cases e <;> simp [says_ok, says_error]
  · rw [h]
    simp only [says_ok, List.not_mem_nil, false_iff]
    rintro (⟨_, hs, _⟩ | ⟨c, hc, _⟩)
    · exact hn hs
    · exact hd c hc

/-! ### Filters -/

theorem qualifyFilter_dict (view : String) (f : FDef) : ∃ f', qualifyFilter view (.dict f) = .dict f' ∧
    (∀ k, k ≠ "field" → dictGet f' k = dictGet f k) ∧ (∀ k, HasKey f' k ↔ HasKey f k) ∧
    (∀ s, Given f' "field" (.str s) ↔ ∃ t, Given f "field" (.str t) ∧ Qualified view t s) ∧
    (∀ v, ¬ Text v → (Given f' "field" v ↔ Given f "field" v)) := by
  simp only [qualifyFilter]
  cases h : dictGet f "field" with
  | none =>
    refine ⟨f, by rfl, fun k _ => rfl, fun k => Iff.rfl, fun s => ?_, fun v _ => Iff.rfl⟩
    unfold Given; rw [h]; simp
  | some v =>
    cases v with
    | str t =>
      refine ⟨_, rfl, fun k hk => ?_, fun k => ?_, fun s => ?_, fun v hv => ?_⟩
      · rw [dictGet_set, if_neg (fun e => hk e.symm)]
      · unfold HasKey Given
        simp only [dictGet_set]
        by_cases hk : "field" = k
        · subst hk; simp [h]
        · simp [hk]
      · unfold Given
        simp only [dictGet_set, if_true, h, Option.some.injEq, Yaml.str.injEq, exists_eq_left', qualified_iff]
        exact eq_comm
      · unfold Given
        simp only [dictGet_set, if_true, h]
        constructor
        · intro e; exact absurd ⟨_, (Option.some.inj e).symm⟩ hv
        · intro e; exact absurd ⟨_, (Option.some.inj e).symm⟩ hv
    | _ =>
      refine ⟨f, by rfl, fun k _ => rfl, fun k => Iff.rfl, fun s => ?_, fun v _ => Iff.rfl⟩
      unfold Given; rw [h]; simp

theorem filterValueCheck_mem {env : CheckEnv} {f : FDef} {p : FieldProblem} :
    p ∈ filterValueCheck env f ↔ (p = .filterNoValue ∧ ¬ HasKey f "value") ∨
      (p = .filterBadValue ∧ GivenNot f "value" Text ∧ env.filterOk f = false) := by
  unfold filterValueCheck HasKey GivenNot Given
  cases h : dictGet f "value" with
  | none => simp
  | some v =>
    cases v with
    | str s => simp [Text]
    | _ => cases hf : env.filterOk f <;> simp [Text]

/-- What is said about one filter, qualified. -/
theorem filterCheck_says {env : CheckEnv} {name : String} {f f' : FDef} (hq : qualifyFilter env.view (.dict f) = .dict f')
    (hok : ∃ ps, filterCheck env name (.dict f') = .ok ps) {p : FieldProblem} :
    Says (filterCheck env name (.dict f')) p ↔
      (p = .filterSelf ∧ FilterOn env f (env.view ++ "." ++ name)) ∨ (p = .filterNoField ∧ ¬ HasKey f "field") ∨
      (∃ n, FilterOn env f n ∧ Unknown (env.getText n) ∧ p = .filterUnknown n) ∨ (p = .filterNoValue ∧ ¬ HasKey f "value") ∨
      (p = .filterBadValue ∧ GivenNot f "value" Text ∧ env.filterOk f' = false) ∨
      (∃ k, HasKey f k ∧ k ∉ ["field", "value"] ∧ p = .filterKey k) := by
  obtain ⟨f'', e, hk, hkeys, hs, hv⟩ := qualifyFilter_dict env.view f
  rw [hq] at e
  cases e
  have hon : ∀ n, FilterOn env f n ↔ Given f' "field" (.str n) := by
    intro n
    rw [hs n]
    constructor
    · rintro ⟨h1, h2⟩; exact ⟨_, h1, h2⟩
    · rintro ⟨t, h1, h2⟩; exact ⟨h1, h2⟩
  unfold filterCheck at *
  rw [says_seq hok]
  have h1 : p ∈ (if textAt f' "field" = some (env.view ++ "." ++ name) then [.filterSelf] else [] : List FieldProblem) ↔
      p = .filterSelf ∧ FilterOn env f (env.view ++ "." ++ name) := by
    rw [hon, ← textAt_iff]
    by_cases h : textAt f' "field" = some (env.view ++ "." ++ name) <;> simp [h]
  have h2 : Says (filterFieldCheck env f') p ↔ (p = .filterNoField ∧ ¬ HasKey f "field") ∨
      (∃ n, FilterOn env f n ∧ Unknown (env.getText n) ∧ p = .filterUnknown n) := by
    simp only [hon]
    rw [← hkeys]
    unfold filterFieldCheck HasKey Given
    cases h : dictGet f' "field" with
    | none => simp [says_ok]
    | some v =>
      rw [missingField_says]
      cases v with
      | str s =>
        simp only [getValue, Yaml.text?, Option.getD_some, Option.some.injEq, Yaml.str.injEq, exists_eq', not_true_eq_false, and_false,
          false_or]
        constructor
        · rintro ⟨rfl, hu⟩; exact ⟨s, rfl, hu, rfl⟩
        · rintro ⟨_, rfl, hu, rfl⟩; exact ⟨rfl, hu⟩
      | _ => simp [getValue, Unknown]
  have h3 : p ∈ filterValueCheck env f' ↔ (p = .filterNoValue ∧ ¬ HasKey f "value") ∨
      (p = .filterBadValue ∧ GivenNot f "value" Text ∧ env.filterOk f' = false) := by
    rw [filterValueCheck_mem, hkeys]
    unfold GivenNot Given
    rw [hk "value" (by decide)]
  simp only [List.mem_cons, List.not_mem_nil, or_false, exists_eq_or_imp, exists_eq_left, says_ok, h1, h2, h3, unknownKeys_mem, hkeys,
    or_assoc]

theorem filterChecks_says {env : CheckEnv} {name : String} {d : FDef} (hok : ∃ ps, filterChecks env name d = .ok ps) {p : FieldProblem} :
    Says (filterChecks env name d) p ↔ FilterProblem env name d p := by
  unfold filterChecks at *
  cases h : dictGet d "filters" with
  | none =>
    have hg : ∀ v, ¬ Given d "filters" v := by intro v hv; unfold Given at hv; rw [h] at hv; cases hv
    simp only [says_ok, List.not_mem_nil, false_iff]
    intro hp
    cases hp with
    | kind _ hn => obtain ⟨v, hv, _⟩ := hn; exact hg _ hv
    | notDict hn => obtain ⟨v, hv, _⟩ := hn; exact hg _ hv
    | self h _ _ => exact hg _ h
    | noField h _ _ => exact hg _ h
    | unknown h _ _ _ => exact hg _ h
    | noValue h _ _ => exact hg _ h
    | value h _ _ _ _ => exact hg _ h
    | key h _ _ _ => exact hg _ h
  | some v =>
    rw [h] at hok
    have hv : Given d "filters" v := h
    cases hs : v with
    | list l =>
      rw [hs] at hv hok
      simp only at hok ⊢
      have hitems : ∀ x ∈ l.map (qualifyFilter env.view), ∃ qs, filterCheck env name x = .ok qs := by
        intro x hx
        obtain ⟨ps, hps⟩ := hok
        exact (seqChecks_ok hps).1 _ (List.mem_map_of_mem hx)
      rw [says_forEach hok]
      constructor
      · rintro ⟨x, hx, hp⟩
        obtain ⟨y, hy, rfl⟩ := List.mem_map.mp hx
        cases y with
        | dict f =>
          obtain ⟨f', e, -⟩ := qualifyFilter_dict env.view f
          have hi := hitems _ hx
          rw [e] at hp hi
          rcases (filterCheck_says e hi).mp hp with ⟨rfl, h⟩ | ⟨rfl, h⟩ | ⟨n, h, hu, rfl⟩ | ⟨rfl, h⟩ | ⟨rfl, h, hf⟩ | ⟨k, h, hn, rfl⟩
          · exact .self hv hy h
          · exact .noField hv hy h
          · exact .unknown hv hy h hu
          · exact .noValue hv hy h
          · exact .value hv hy h e hf
          · exact .key hv hy h hn
        | _ =>
          have : p = .filterNotDict := by
            simp only [qualifyFilter, filterCheck, says_ok, List.mem_singleton] at hp
            exact hp
          subst this
          exact .notDict ⟨l, hv, _, hy, by simp [Dictionary]⟩
      · intro hp
        have one : ∀ {l' : List Yaml} {f : FDef}, Given d "filters" (.list l') → Yaml.dict f ∈ l' → ∃ f',
            qualifyFilter env.view (.dict f) = .dict f' ∧ Yaml.dict f' ∈ l.map (qualifyFilter env.view) := by
          intro l' f hl' hf
          cases given_unique hv hl'
          obtain ⟨f', e, -⟩ := qualifyFilter_dict env.view f
          exact ⟨f', e, by rw [← e]; exact List.mem_map_of_mem hf⟩
        cases hp with
        | kind _ hn => obtain ⟨w, hw, hn⟩ := hn; cases given_unique hv hw; exact absurd ⟨l, rfl⟩ hn
        | notDict hn =>
          obtain ⟨l', hl', y, hy, hn⟩ := hn
          cases given_unique hv hl'
          refine ⟨_, List.mem_map_of_mem hy, ?_⟩
          cases y with
          | dict f => exact absurd ⟨f, rfl⟩ hn
          | _ => simp [qualifyFilter, filterCheck, says_ok]
        | self h hf hx =>
          obtain ⟨f', e, hm⟩ := one h hf
          exact ⟨_, hm, (filterCheck_says e (hitems _ hm)).mpr (.inl ⟨rfl, hx⟩)⟩
        | noField h hf hx =>
          obtain ⟨f', e, hm⟩ := one h hf
          exact ⟨_, hm, (filterCheck_says e (hitems _ hm)).mpr (.inr (.inl ⟨rfl, hx⟩))⟩
        | unknown h hf hx hu =>
          obtain ⟨f', e, hm⟩ := one h hf
          exact ⟨_, hm, (filterCheck_says e (hitems _ hm)).mpr (.inr (.inr (.inl ⟨_, hx, hu, rfl⟩)))⟩
        | noValue h hf hx =>
          obtain ⟨f', e, hm⟩ := one h hf
          exact ⟨_, hm, (filterCheck_says e (hitems _ hm)).mpr (.inr (.inr (.inr (.inl ⟨rfl, hx⟩))))⟩
        | value h hf hx e' hok' =>
          obtain ⟨f', e, hm⟩ := one h hf
          rw [e] at e'; cases e'
          exact ⟨_, hm, (filterCheck_says e (hitems _ hm)).mpr (.inr (.inr (.inr (.inr (.inl ⟨rfl, hx, hok'⟩)))))⟩
        | key h hf hx hn =>
          obtain ⟨f', e, hm⟩ := one h hf
          exact ⟨_, hm, (filterCheck_says e (hitems _ hm)).mpr (.inr (.inr (.inr (.inr (.inr ⟨_, hx, hn, rfl⟩)))))⟩
    | _ =>
      rw [hs] at hv
      have nolist : ∀ l, ¬ Given d "filters" (.list l) := by intro l hl; cases given_unique hv hl
      constructor
      · intro hp
        simp only at hp
        split at hp
        · rename_i ht
          rw [says_ok, List.mem_singleton] at hp
          subst hp
          refine .kind ⟨_, hv, fun hn => ?_⟩ ⟨_, hv, by simp [Listed]⟩
          rw [(truthy_iff _).mpr hn] at ht; cases ht
        · simp [says_ok] at hp
      · intro hp
        cases hp with
        | kind hset _ =>
          obtain ⟨w, hw, hn⟩ := hset
          cases given_unique hv hw
          have : Yaml.truthy _ = true := Bool.eq_true_of_not_eq_false (fun c => hn ((truthy_iff _).mp c))
          simp only
          rw [if_pos this, says_ok, List.mem_singleton]
        | notDict hn => obtain ⟨l, hl, _⟩ := hn; exact absurd hl (nolist l)
        | self h _ _ => exact absurd h (nolist _)
        | noField h _ _ => exact absurd h (nolist _)
        | unknown h _ _ _ => exact absurd h (nolist _)
        | noValue h _ _ => exact absurd h (nolist _)
        | value h _ _ _ _ => exact absurd h (nolist _)
        | key h _ _ _ => exact absurd h (nolist _)

end ML
