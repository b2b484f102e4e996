import Verif.ViewCheck.Lemmas
/-
Helper lemmas for C63: the identifiers of a view.
-/
set_option autoImplicit false
namespace ML
open Spec

/-! ### References -/

theorem referenceIs_iff {view n full : String} : ReferenceIs view n full ↔ full = identifierRef view n := by
  unfold identifierRef
  constructor
  · intro h
    cases h with
    | bare h => rw [C06_split_other _ (.inl h)]; rfl
    | viewed hv hn => rw [C06_split_two _ _ hv hn]; rfl
    | explored he hv hn => rw [C06_split_three _ _ _ he hv hn]; rfl
    | other h => rw [C06_split_other _ (.inr h)]; rfl
  · rintro rfl
    have hj := C06_join_split n
    have hd := C06_parts_dotFree n
    rcases hp : fieldNameParts n with ⟨e, v, m⟩
    rw [hp] at hj
    simp only
    cases v with
    | none =>
      have : n.toList.count '.' = 0 ∨ 3 ≤ n.toList.count '.' := by
        unfold fieldNameParts at hp
        by_cases h2 : n.toList.count '.' = 2
        · obtain ⟨e', v', n', hs⟩ := fieldNameParts_three n h2
          rw [if_pos h2, hs] at hp; cases hp
        · by_cases h1 : n.toList.count '.' = 1
          · obtain ⟨v', n', hs⟩ := fieldNameParts_two n h1
            rw [if_neg h2, if_pos h1, hs] at hp; cases hp
          · omega
      have hm : m = n := by
        rw [C06_split_other n this] at hp; cases hp; rfl
      subst hm
      rcases this with h | h
      · exact .bare h
      · exact .other h
    | some v =>
      obtain ⟨hv, hm⟩ := hd e v m hp
      cases e with
      | none =>
        simp only [Spec.joinParts] at hj
        rw [← hj]
        exact .viewed hv hm
      | some e =>
        simp only [Spec.joinParts] at hj
        have he : Spec.dotFree e := by
          have h2 : n.toList.count '.' = 2 := by
            unfold fieldNameParts at hp
            by_cases h2 : n.toList.count '.' = 2
            · exact h2
            · rw [if_neg h2] at hp
              by_cases h1 : n.toList.count '.' = 1
              · obtain ⟨v', n', hs⟩ := fieldNameParts_two n h1
                rw [if_pos h1, hs] at hp; cases hp
              · rw [if_neg h1] at hp; cases hp
          rw [← hj] at h2
          unfold Spec.dotFree at *
          have h3 : (e ++ "." ++ v ++ "." ++ m).toList = e.toList ++ '.' :: (v.toList ++ '.' :: m.toList) := by simp
          rw [h3] at h2
          simp [List.count_eq_zero.mpr hv, List.count_eq_zero.mpr hm] at h2
          exact List.count_eq_zero.mp h2
        rw [← hj]
        exact .explored he hv hm

theorem refsGo_braces : ∀ (k : ℕ) (l : List Char), refsGo k l ≠ [] → ['$', '{'] <:+: l
  | _, [], h => by simp [refsGo] at h
  | k + 1, c :: cs, h => by
    simp only [refsGo] at h
    exact (refsGo_braces k cs h).trans (List.suffix_cons _ _).isInfix
  | 0, c :: cs, h => by
    have tail : refsGo 0 cs ≠ [] → ['$', '{'] <:+: c :: cs := fun h =>
      (refsGo_braces 0 cs h).trans (List.suffix_cons _ _).isInfix
    unfold refsGo at h
    split at h
    · exact ⟨[], _, rfl⟩
    · exact tail h

theorem braces_iff {s : List Char} : containsSub "${".toList s = true ↔ ∃ a b, s = a ++ '$' :: '{' :: b := by
  rw [containsSub_iff]
  constructor
  · rintro ⟨a, b, h⟩; exact ⟨a, b, by rw [← h]; simp⟩
  · rintro ⟨a, b, h⟩; exact ⟨a, b, by rw [h]; simp⟩

/-! ### Formed identifiers -/

theorem itemFormed_iff {v : Yaml} : itemFormed v = true ↔ ∃ q, v = .dict q ∧ HasKey q "name" := by
  cases v <;> simp [itemFormed, isSome_iff_hasKey]

theorem oneOf_true {ws : List String} {v : Yaml} : v.oneOf ws = true ↔ Word ws v := by
  rw [← Bool.not_eq_false, oneOf_iff, not_not]

theorem customFormed_iff {i : FDef} : customFormed i = true ↔
    (∃ v, Given i "relationship" v ∧ Word ["many_to_one", "one_to_one", "one_to_many", "many_to_many"] v) ∧
    HasKey i "sql_on" ∧ HasKey i "reference" := by
  unfold customFormed
  simp only [Bool.and_eq_true, isSome_iff_hasKey, and_assoc]
  refine and_congr ?_ Iff.rfl
  cases h : dictGet i "relationship" with
  | none => simp [given_none h]
  | some v => simp only [given_some h, exists_eq_left', oneOf_true]

theorem identifierFormed_iff {v : Yaml} : identifierFormed v = true ↔ ∃ i, v = .dict i ∧ FormedId i := by
  cases v with
  | dict i =>
    simp only [identifierFormed, Yaml.dict.injEq, exists_eq_left', Bool.and_eq_true, isSome_iff_hasKey]
    have h1 : (match dictGet i "identifiers" with
        | none => true
        | some (.list l) => l.all itemFormed
        | some _ => false) = true ↔
        ∀ v, Given i "identifiers" v → ∃ l, v = .list l ∧ ∀ w ∈ l, ∃ q, w = .dict q ∧ HasKey q "name" := by
      cases h : dictGet i "identifiers" with
      | none => simp [given_none h]
      | some v =>
        simp only [given_some h, forall_eq']
        cases v <;> simp [itemFormed_iff]
    have h2 : (if textAt i "type" = some "join" then customFormed i else true) = true ↔ (Given i "type" (.str "join") →
        (∃ v, Given i "relationship" v ∧ Word ["many_to_one", "one_to_one", "one_to_many", "many_to_many"] v) ∧
        HasKey i "sql_on" ∧ HasKey i "reference") := by
      rw [← textAt_iff]
      by_cases h : textAt i "type" = some "join"
      · simp only [h, if_true, forall_const]; exact customFormed_iff
      · simp [h]
    constructor
    · rintro ⟨⟨⟨a, b⟩, c⟩, e⟩
      exact ⟨a, b, h1.mp c, h2.mp e⟩
    · rintro ⟨a, b, c, e⟩
      exact ⟨⟨⟨a, b⟩, h1.mpr c⟩, h2.mpr e⟩
  | _ => simp [identifierFormed]

theorem formed_list : ∀ {l : List Yaml}, (∀ v ∈ l, ∃ i, v = .dict i ∧ FormedId i) →
    l = (l.filterMap Yaml.dict?).map .dict ∧ ∀ i ∈ l.filterMap Yaml.dict?, FormedId i
  | [], _ => by simp
  | v :: l, h => by
    obtain ⟨i, rfl, hi⟩ := h v List.mem_cons_self
    obtain ⟨h1, h2⟩ := formed_list (fun w hw => h w (List.mem_cons_of_mem _ hw))
    simp only [List.filterMap_cons, Yaml.dict?, List.map_cons, ← h1, List.mem_cons, forall_eq_or_imp]
    exact ⟨trivial, hi, h2⟩

theorem filterMap_dict (ids : List FDef) : (ids.map Yaml.dict).filterMap Yaml.dict? = ids := by
  induction ids with
  | nil => rfl
  | cons i ids ih => rw [List.map_cons, List.filterMap_cons]; simp only [Yaml.dict?, ih]

theorem viewIdentifiers_ok {d : FDef} {ids : List FDef} : viewIdentifiers d = .ok ids ↔ IdentifiersAre d ids := by
  unfold viewIdentifiers IdentifiersAre HasKey
  cases h : dictGet d "identifiers" with
  | none => simp [given_none h, eq_comm]
  | some v =>
    simp only [given_some h]
    cases v with
    | list l =>
      simp only [exists_eq', not_true_eq_false, false_and, false_or, Yaml.list.injEq]
      by_cases hl : l.all identifierFormed = true
      · rw [if_pos hl]
        obtain ⟨h1, h2⟩ := formed_list (l := l) (fun v hv => identifierFormed_iff.mp (List.all_eq_true.mp hl v hv))
        constructor
        · intro e; cases e; exact ⟨h1, h2⟩
        · rintro ⟨rfl, -⟩; rw [filterMap_dict]
      · rw [if_neg hl]
        simp only [reduceCtorEq, false_iff]
        rintro ⟨rfl, hall⟩
        apply hl
        rw [List.all_eq_true]
        intro v hv
        obtain ⟨i, hi, rfl⟩ := List.mem_map.mp hv
        exact identifierFormed_iff.mpr ⟨i, rfl, hall i hi⟩
    | _ => simp

theorem viewIdentifiers_error {d : FDef} {e : Err} (h : viewIdentifiers d = .error e) : e = .query ∧ ∀ ids, ¬ IdentifiersAre d ids := by
  refine ⟨?_, fun ids hi => by rw [← viewIdentifiers_ok, h] at hi; cases hi⟩
  unfold viewIdentifiers at h
  split at h
  · cases h
  · split at h
    · cases h
    · cases h; rfl
  · cases h; rfl

/-! ### One identifier -/

theorem referenceCheck_mem {env : ViewEnv} {i : FDef} (hr : HasKey i "reference") {p : IdProblem} :
    p ∈ referenceCheck env i ↔ (p = .wrongKind "reference" ∧ GivenNot i "reference" Text) ∨
      (p = .noView ∧ ∃ r, Given i "reference" (.str r) ∧ env.hasView r = false) := by
  obtain ⟨v, hv⟩ := hr
  have h : dictGet i "reference" = some v := hv
  unfold referenceCheck GivenNot
  rw [h]
  simp only [given_some h]
  cases v with
  | str r => cases hh : env.hasView r <;> simp [Text, hh]
  | _ => simp [Text]

theorem customChecks_mem {env : ViewEnv} {i : FDef} (hr : HasKey i "reference")
    (hrel : ∃ v, Given i "relationship" v ∧ Word ["many_to_one", "one_to_one", "one_to_many", "many_to_many"] v) {p : IdProblem} :
    p ∈ customChecks env i ↔ (p = .wrongKind "reference" ∧ GivenNot i "reference" Text) ∨
      (p = .noView ∧ ∃ r, Given i "reference" (.str r) ∧ env.hasView r = false) ∨
      (p = .joinType ∧ GivenNot i "join_type" (Word ["left_outer", "inner", "full_outer", "cross"])) ∨
      (p = .wrongKind "sql_on" ∧ GivenNot i "sql_on" Text) := by
  have hno : ¬ GivenNot i "relationship" (Word ["many_to_one", "one_to_one", "one_to_many", "many_to_many"]) := by
    rintro ⟨w, h1, h2⟩
    obtain ⟨v, h3, h4⟩ := hrel
    exact h2 (given_unique h1 h3 ▸ h4)
  unfold customChecks
  rw [List.mem_append, List.mem_append, List.mem_append, referenceCheck_mem hr, wants_kind (oneOf_iff _), wants_kind (oneOf_iff _),
    wants_kind isStr_iff]
  simp only [hno, and_false, or_false, or_assoc]

theorem items_formed {l : List Yaml} (h : ∀ w ∈ l, ∃ q, w = .dict q ∧ HasKey q "name") : l.flatMap itemChecks = [] := by
  rw [List.flatMap_eq_nil_iff]
  intro w hw
  obtain ⟨q, rfl, hq⟩ := h w hw
  simp [itemChecks, (isSome_iff_hasKey _ _).mpr hq]

theorem lookedUp_sql {view name : String} {i : FDef} (hk : KeyNamed i name) {n full : String} :
    LookedUp view i (some n) full ↔ ∃ s, Given i "sql" (.str s) ∧ n.toList ∈ fieldsToReplace s.toList ∧ n ≠ "TABLE" ∧
      full = identifierRef view n := by
  constructor
  · intro h
    cases h with
    | sql _ h1 h2 h3 h4 => exact ⟨_, h1, h2, h3, referenceIs_iff.mp h4⟩
  · rintro ⟨s, h1, h2, h3, h4⟩
    exact .sql hk h1 h2 h3 (referenceIs_iff.mpr h4)

theorem lookedUp_own {view name : String} {i : FDef} (hk : KeyNamed i name) {full : String} :
    LookedUp view i none full ↔ ¬ HasKey i "sql" ∧ ¬ HasKey i "identifiers" ∧ full = view ++ "." ++ name := by
  constructor
  · intro h
    cases h with
    | own h1 h2 h3 =>
      have := given_unique h1.1 hk.1
      cases this
      exact ⟨h2, h3, rfl⟩
  · rintro ⟨h2, h3, rfl⟩
    exact .own hk h2 h3

theorem keyChecks_says {env : ViewEnv} {view name : String} {i : FDef} (hf : FormedId i) (hk : KeyNamed i name)
    (hok : ∃ ps, keyChecks env view name i = .ok ps) {p : IdProblem} :
    Says (keyChecks env view name i) p ↔ (p = .wrongKind "sql" ∧ GivenNot i "sql" Text) ∨
      (p = .noBraces ∧ ∃ s, Given i "sql" (.str s) ∧ ¬ ∃ a b, s.toList = a ++ '$' :: '{' :: b) ∨
      (∃ r full, LookedUp view i (some r) full ∧ Unknown (env.base.getText full) ∧ p = .sqlUnknown r) ∨
      (∃ full, LookedUp view i none full ∧ Unknown (env.base.getText full) ∧ p = .fieldUnknown) ∨
      (p = .notPrimary ∧ ¬ Given i "type" (.str "primary") ∧ ¬ HasKey i "sql" ∧ HasKey i "identifiers") := by
  simp only [lookedUp_sql hk, lookedUp_own hk]
  unfold keyChecks at *
  unfold GivenNot
  cases h : dictGet i "sql" with
  | some v =>
    rw [h] at hok
    simp only [given_some h]
    have hs : HasKey i "sql" := ⟨v, h⟩
    cases v with
    | str s =>
      have htx : Text (.str s) := ⟨s, rfl⟩
      simp only [Yaml.str.injEq, exists_eq_left', htx, hs]
      by_cases hb : containsSub "${".toList s.toList = true
      · simp only at hok
        rw [if_pos hb] at hok ⊢
        rw [says_forEach hok]
        have hb' := braces_iff.mp hb
        simp only [hb', not_true_eq_false, and_false, false_and, exists_false, false_or, or_false]
        constructor
        · rintro ⟨n, hn, hp⟩
          obtain ⟨cs, hcs, rfl⟩ := List.mem_map.mp hn
          by_cases ht : String.ofList cs = "TABLE"
          · rw [if_pos ht, says_ok] at hp; cases hp
          · rw [if_neg ht, missingField_says] at hp
            exact ⟨_, _, ⟨by simpa using hcs, ht, rfl⟩, hp.2, hp.1⟩
        · rintro ⟨n, full, ⟨h1, h2, rfl⟩, hu, rfl⟩
          refine ⟨n, List.mem_map.mpr ⟨_, h1, by simp⟩, ?_⟩
          rw [if_neg h2, missingField_says]
          exact ⟨rfl, hu⟩
      · rw [if_neg hb]
        have hb' : ¬ ∃ a b, s.toList = a ++ '$' :: '{' :: b := by rw [← braces_iff]; exact hb
        simp only [says_ok, List.mem_singleton, hb', not_false_eq_true, not_true_eq_false, and_false, false_and, exists_false, or_false,
          and_true, false_or]
        constructor
        · intro h; exact .inl h
        · rintro (h | ⟨n, full, ⟨h1, -, -⟩, -, -⟩)
          · exact h
          · exfalso
            exact hb (by rw [containsSub_iff]; exact refsGo_braces 0 s.toList (List.ne_nil_of_mem h1))
    | _ => simp [says_ok, Text, hs]
  | none =>
    rw [h] at hok
    have hs : ¬ HasKey i "sql" := fun ⟨v, hv⟩ => given_none h v hv
    simp only [given_none h, hs]
    cases hi : dictGet i "identifiers" with
    | none =>
      have hs' : ¬ HasKey i "identifiers" := fun ⟨v, hv⟩ => given_none hi v hv
      simp only [hs', missingField_says]
      simp [and_comm]
    | some v =>
      have hs' : HasKey i "identifiers" := ⟨v, hi⟩
      obtain ⟨l, rfl, hl⟩ := hf.parts v hi
      simp only [hs', says_ok, compositeChecks, items_formed hl, List.append_nil]
      by_cases ht : textAt i "type" = some "primary" <;> simp [ht, ← textAt_iff]

theorem keyChecks_error {env : ViewEnv} {view name : String} {i : FDef} (hk : KeyNamed i name) {e : Err}
    (h : keyChecks env view name i = .error e) : ∃ o n, LookedUp view i o n ∧ env.base.getText n = .error e := by
  have hm : ∀ {α π : Type} {r : Res α} {p : π}, missingField r p = .error e → r = .error e := by
    intro α π r p h
    unfold missingField at h
    split at h
    · cases h
    · cases h
    · cases h; rfl
  unfold keyChecks at h
  cases hs : dictGet i "sql" with
  | some v =>
    rw [hs] at h
    cases v with
    | str s =>
      simp only at h
      split at h
      · unfold forEach at h
        have key : ∀ {l : List (Res (List IdProblem))}, seqChecks l = .error e → Except.error e ∈ l := by
          intro l
          induction l with
          | nil => intro h; cases h
          | cons c l ih =>
            intro h
            cases c with
            | error e' => cases h; exact List.mem_cons_self
            | ok qs =>
              simp only [seqChecks] at h
              cases h' : seqChecks l with
              | error e' => rw [h'] at h; cases h; exact List.mem_cons_of_mem _ (ih h')
              | ok rs => rw [h'] at h; cases h
        obtain ⟨n, hn, he⟩ := List.mem_map.mp (key h)
        obtain ⟨cs, hcs, rfl⟩ := List.mem_map.mp hn
        by_cases ht : String.ofList cs = "TABLE"
        · rw [if_pos ht] at he; cases he
        · rw [if_neg ht] at he
          exact ⟨_, _, (lookedUp_sql hk).mpr ⟨s, hs, by simpa using hcs, ht, rfl⟩, hm he⟩
      · cases h
    | _ => cases h
  | none =>
    rw [hs] at h
    have hs' : ¬ HasKey i "sql" := fun ⟨v, hv⟩ => given_none hs v hv
    cases hi : dictGet i "identifiers" with
    | none =>
      have hi' : ¬ HasKey i "identifiers" := fun ⟨v, hv⟩ => given_none hi v hv
      rw [hi] at h
      exact ⟨_, _, (lookedUp_own hk).mpr ⟨hs', hi', rfl⟩, hm h⟩
    | some v => rw [hi] at h; cases h

theorem keyChecks_fails {env : ViewEnv} {view name : String} {i : FDef} (hk : KeyNamed i name) {o : Option String} {n : String} {e : Err}
    (hl : LookedUp view i o n) (he : env.base.getText n = .error e) (hne : e ≠ .accessDenied) : Fails (keyChecks env view name i) := by
  have hm : ∀ {α π : Type} {r : Res α} {p : π}, r = .error e → Fails (missingField r p) := by
    rintro α π r p rfl
    unfold missingField
    cases e <;> first | exact fails_error | exact absurd rfl hne
  unfold keyChecks
  cases o with
  | some r =>
    obtain ⟨s, h1, h2, h3, rfl⟩ := (lookedUp_sql hk).mp hl
    rw [show dictGet i "sql" = _ from h1]
    simp only
    rw [if_pos (by rw [containsSub_iff]; exact refsGo_braces 0 s.toList (List.ne_nil_of_mem h2)), fails_forEach]
    refine ⟨r, List.mem_map.mpr ⟨_, h2, by simp⟩, ?_⟩
    rw [if_neg h3]
    exact hm he
  | none =>
    obtain ⟨h1, h2, rfl⟩ := (lookedUp_own hk).mp hl
    rw [← isSome_false_iff] at h1 h2
    rw [Option.isSome_eq_false_iff.mp h1 |> Option.isNone_iff_eq_none.mp, Option.isSome_eq_false_iff.mp h2 |> Option.isNone_iff_eq_none.mp]
    exact hm he

/-- What is said about the properties of a `join_as`. -/
def JoinAsHas (i : FDef) (p : IdProblem) : Prop :=
  (∃ k ∈ ["join_as", "join_as_label", "join_as_field_prefix"], GivenNot i k Text ∧ p = .wrongKind k) ∨
    (p = .wrongKind "include_metrics" ∧ GivenNot i "include_metrics" Flag)

theorem joinAs_mem {i : FDef} {p : IdProblem} :
    p ∈ joinAsChecks i ↔ HasKey i "join_as" ∧ JoinAsHas i p := by
  unfold joinAsChecks JoinAsHas
  rw [← isSome_iff_hasKey]
  by_cases h : (dictGet i "join_as").isSome = true
  · rw [if_pos h, List.mem_append, List.mem_append, List.mem_append, wants_kind isStr_iff, wants_kind isStr_iff, wants_kind isStr_iff,
      wants_kind isBool_iff]
    simp only [h, true_and, List.mem_cons, List.not_mem_nil, or_false, exists_eq_or_imp, exists_eq_left, or_assoc, and_comm]
  · rw [if_neg h]; simp [h]

theorem idKey_iff {t k : String} : IdKey t k ↔ k ∈ identifierKeys t := by
  unfold identifierKeys
  constructor
  · intro h
    cases h with
    | all h => simp only [List.mem_cons, List.not_mem_nil, or_false, List.mem_append] at h ⊢; tauto
    | join h => simp only [if_true, List.mem_append]; exact .inl (.inl h)
    | key ht h => simp only [if_neg ht, List.mem_append]; exact .inl (.inl h)
  · intro h
    rw [List.mem_append, List.mem_append] at h
    rcases h with (h | h) | h
    · by_cases ht : t = "join"
      · subst ht; exact .join (by simpa using h)
      · rw [if_neg ht] at h; exact .key ht h
    · exact .all (by simp only [List.mem_cons, List.not_mem_nil, or_false] at h ⊢; tauto)
    · exact .all (by simp only [List.mem_cons, List.not_mem_nil, or_false] at h ⊢; tauto)

theorem badName_mem {name : String} {p : IdProblem} :
    p ∈ (if validName name then [] else [.badName] : List IdProblem) ↔ p = .badName ∧ ¬ ProperName name := by
  rw [← properName_iff]
  cases h : validName name <;> simp

theorem identifierChecks_says {env : ViewEnv} {view : String} {i : FDef} (hf : FormedId i)
    (hok : ∃ ps, identifierChecks env view i = .ok ps) {p : IdProblem} :
    Says (identifierChecks env view i) p ↔ IdHas env view i p := by
  obtain ⟨v, hv⟩ := hf.name
  obtain ⟨w, hw⟩ := hf.type
  have hname : ∀ {x}, Given i "name" x → x = v := fun h => given_unique h hv
  have htype : ∀ {x}, Given i "type" x → x = w := fun h => given_unique h hw
  have h1 : dictGet i "name" = some v := hv
  have h2 : dictGet i "type" = some w := hw
  unfold identifierChecks at *
  rw [h1] at hok ⊢
  by_cases hvt : Text v
  · obtain ⟨name, rfl⟩ := hvt
    simp only at hok ⊢
    rw [h2] at hok ⊢
    have hgt : GivesText i "name" := ⟨name, hv⟩
    by_cases hwt : Text w
    · obtain ⟨t, rfl⟩ := hwt
      simp only at hok ⊢
      by_cases ht : t ∈ ["primary", "foreign", "join"]
      · rw [if_pos (by simpa using ht)] at hok ⊢
        rw [says_seq hok]
        have hall := fun c hc => (not_fails.mp fun hc' => not_fails.mpr hok (fails_seq.mpr ⟨c, hc, hc'⟩) : ∃ qs, c = Except.ok qs)
        unfold typedChecks at hall ⊢
        simp only [List.mem_cons, List.not_mem_nil, or_false, exists_eq_or_imp, exists_eq_left, says_ok, badName_mem, joinAs_mem,
          unknownKeys_mem, ← idKey_iff]
        have hty : TypedId i t := ⟨hgt, hw, ht⟩
        have huniq : ∀ {t'}, TypedId i t' → t' = t := fun h => by have := htype h.2.1; cases this; rfl
        by_cases hj : t = "join"
        · subst hj
          obtain ⟨hrel, hon, href⟩ := hf.join hw
          simp only [if_true, says_ok, customChecks_mem href hrel]
          have nokey : ∀ {n}, ¬ KeyNamed i n := by
            rintro n ⟨-, h | h⟩ <;> · have := htype h; exact absurd this (by simp)
          constructor
          · rintro (⟨rfl, h⟩ | (⟨rfl, h⟩ | ⟨rfl, r, h, h'⟩ | ⟨rfl, h⟩ | ⟨rfl, h⟩) | ⟨ha, ⟨k, hk, h, rfl⟩ | ⟨rfl, h⟩⟩ | ⟨k, h, h', rfl⟩)
            · exact .name hv h
            · exact .referenceKind hty h
            · exact .noView hty h h'
            · exact .joinType hty h
            · exact .sqlOn hty h
            · exact .joinAs hty ha hk h
            · exact .include hty ha h
            · exact .key hty h h'
          · intro h
            cases h with
            | nameKind h => obtain ⟨x, hx, hn⟩ := h; exact absurd ⟨name, hname hx⟩ hn
            | name h h' => have := hname h; cases this; exact .inl ⟨rfl, h'⟩
            | typeKind _ h => obtain ⟨x, hx, hn⟩ := h; exact absurd ⟨_, htype hx⟩ hn
            | type _ h h' => have := htype h; cases this; exact absurd ht h'
            | referenceKind _ h => exact .inr (.inl (.inl ⟨rfl, h⟩))
            | noView _ h h' => exact .inr (.inl (.inr (.inl ⟨rfl, _, h, h'⟩)))
            | joinType _ h => exact .inr (.inl (.inr (.inr (.inl ⟨rfl, h⟩))))
            | sqlOn _ h => exact .inr (.inl (.inr (.inr (.inr ⟨rfl, h⟩))))
            | sqlKind h _ => exact absurd h nokey
            | noBraces h _ _ => exact absurd h nokey
            | sqlUnknown h _ => cases h with | sql h _ _ _ _ => exact absurd h nokey
            | fieldUnknown h _ => cases h with | own h _ _ => exact absurd h nokey
            | notPrimary h _ _ => have := huniq h; exact absurd this (by decide)
            | joinAs h ha hk hn => exact .inr (.inr (.inl ⟨ha, .inl ⟨_, hk, hn, rfl⟩⟩))
            | «include» h ha hn => exact .inr (.inr (.inl ⟨ha, .inr ⟨rfl, hn⟩⟩))
            | key h hk hn => have := huniq h; subst this; exact .inr (.inr (.inr ⟨_, hk, hn, rfl⟩))
        · have hk : KeyNamed i name := by
            refine ⟨hv, ?_⟩
            simp only [List.mem_cons, List.not_mem_nil, or_false] at ht
            rcases ht with rfl | rfl | rfl
            · exact .inl hw
            · exact .inr hw
            · exact absurd rfl hj
          have hkok : ∃ qs, keyChecks env view name i = .ok qs := by
            have := hall _ (List.mem_cons_of_mem _ List.mem_cons_self)
            rwa [if_neg hj] at this
          have nojoin : ∀ {P : Prop}, TypedId i "join" → P := fun h => absurd (huniq h).symm hj
          rw [if_neg hj, keyChecks_says hf hk hkok]
          constructor
          · rintro (⟨rfl, h⟩ | (⟨rfl, h⟩ | ⟨rfl, s, h, h'⟩ | ⟨r, full, h, h', rfl⟩ | ⟨full, h, h', rfl⟩ | ⟨rfl, h, h', h''⟩) |
              ⟨ha, ⟨k, hk', h, rfl⟩ | ⟨rfl, h⟩⟩ | ⟨k, h, h', rfl⟩)
            · exact .name hv h
            · exact .sqlKind hk h
            · exact .noBraces hk h h'
            · exact .sqlUnknown h h'
            · exact .fieldUnknown h h'
            · refine .notPrimary ?_ h' h''
              rcases hk.2 with h3 | h3
              · exact absurd h3 h
              · exact ⟨hgt, h3, by simp⟩
            · exact .joinAs hty ha hk' h
            · exact .include hty ha h
            · exact .key hty h h'
          · intro h
            cases h with
            | nameKind h => obtain ⟨x, hx, hn⟩ := h; exact absurd ⟨name, hname hx⟩ hn
            | name h h' => have := hname h; cases this; exact .inl ⟨rfl, h'⟩
            | typeKind _ h => obtain ⟨x, hx, hn⟩ := h; exact absurd ⟨_, htype hx⟩ hn
            | type _ h h' => have := htype h; cases this; exact absurd ht h'
            | referenceKind h _ => exact nojoin h
            | noView h _ _ => exact nojoin h
            | joinType h _ => exact nojoin h
            | sqlOn h _ => exact nojoin h
            | sqlKind _ h => exact .inr (.inl (.inl ⟨rfl, h⟩))
            | noBraces _ h h' => exact .inr (.inl (.inr (.inl ⟨rfl, _, h, h'⟩)))
            | sqlUnknown h h' => exact .inr (.inl (.inr (.inr (.inl ⟨_, _, h, h', rfl⟩))))
            | fieldUnknown h h' => exact .inr (.inl (.inr (.inr (.inr (.inl ⟨_, h, h', rfl⟩)))))
            | notPrimary h h' h'' =>
              refine .inr (.inl (.inr (.inr (.inr (.inr ⟨rfl, ?_, h', h''⟩)))))
              intro hp
              have := given_unique h.2.1 hp
              exact absurd this (by simp)
            | joinAs h ha hk hn => exact .inr (.inr (.inl ⟨ha, .inl ⟨_, hk, hn, rfl⟩⟩))
            | «include» h ha hn => exact .inr (.inr (.inl ⟨ha, .inr ⟨rfl, hn⟩⟩))
            | key h hk hn => have := huniq h; subst this; exact .inr (.inr (.inr ⟨_, hk, hn, rfl⟩))
      · rw [if_neg (by simpa using ht), says_ok, List.mem_append, badName_mem, List.mem_singleton]
        have notyped : ∀ {P : Prop} {t'}, TypedId i t' → P := fun h => by
          have := htype h.2.1; cases this; exact absurd h.2.2 ht
        have nokey : ∀ {P : Prop} {n}, KeyNamed i n → P := by
          rintro P n ⟨-, h | h⟩ <;> · have := htype h; cases this; exact absurd (by simp) ht
        constructor
        · rintro (⟨rfl, h⟩ | rfl)
          · exact .name hv h
          · exact .type hgt hw ht
        · intro h
          cases h with
          | nameKind h => obtain ⟨x, hx, hn⟩ := h; exact absurd ⟨name, hname hx⟩ hn
          | name h h' => have := hname h; cases this; exact .inl ⟨rfl, h'⟩
          | typeKind _ h => obtain ⟨x, hx, hn⟩ := h; exact absurd ⟨_, htype hx⟩ hn
          | type _ h h' => exact .inr rfl
          | referenceKind h _ => exact notyped h
          | noView h _ _ => exact notyped h
          | joinType h _ => exact notyped h
          | sqlOn h _ => exact notyped h
          | sqlKind h _ => exact nokey h
          | noBraces h _ _ => exact nokey h
          | sqlUnknown h _ => cases h with | sql h _ _ _ _ => exact nokey h
          | fieldUnknown h _ => cases h with | own h _ _ => exact nokey h
          | notPrimary h _ _ => exact notyped h
          | joinAs h _ _ _ => exact notyped h
          | «include» h _ _ => exact notyped h
          | key h _ _ => exact notyped h
    · have e' : ∀ q, Says (match some w with
          | some (.str t) => if ["primary", "foreign", "join"].contains t then
              seqChecks (.ok (if validName name then [] else [.badName]) :: typedChecks env view name t i)
            else .ok ((if validName name then [] else [.badName]) ++ [.badType])
          | some _ => .ok ((if validName name then [] else [.badName]) ++ [.typeKind])
          | none => .error .keyError : Res (List IdProblem)) q ↔
          q ∈ ((if validName name then [] else [.badName]) ++ [.typeKind] : List IdProblem) := by
        intro q
        cases w with
        | str t => exact absurd ⟨t, rfl⟩ hwt
        | _ => exact says_ok
      refine (e' p).trans ?_
      rw [List.mem_append, badName_mem, List.mem_singleton]
      have notyped : ∀ {P : Prop} {t'}, TypedId i t' → P := fun h => absurd ⟨_, (htype h.2.1).symm⟩ hwt
      have nokey : ∀ {P : Prop} {n}, KeyNamed i n → P := by
        rintro P n ⟨-, h | h⟩ <;> exact absurd ⟨_, (htype h).symm⟩ hwt
      constructor
      · rintro (⟨rfl, h⟩ | rfl)
        · exact .name hv h
        · exact .typeKind hgt ⟨w, hw, hwt⟩
      · intro h
        cases h with
        | nameKind h => obtain ⟨x, hx, hn⟩ := h; exact absurd ⟨name, hname hx⟩ hn
        | name h h' => have := hname h; cases this; exact .inl ⟨rfl, h'⟩
        | typeKind _ h => exact .inr rfl
        | type _ h _ => exact absurd ⟨_, (htype h).symm⟩ hwt
        | referenceKind h _ => exact notyped h
        | noView h _ _ => exact notyped h
        | joinType h _ => exact notyped h
        | sqlOn h _ => exact notyped h
        | sqlKind h _ => exact nokey h
        | noBraces h _ _ => exact nokey h
        | sqlUnknown h _ => cases h with | sql h _ _ _ _ => exact nokey h
        | fieldUnknown h _ => cases h with | own h _ _ => exact nokey h
        | notPrimary h _ _ => exact notyped h
        | joinAs h _ _ _ => exact notyped h
        | «include» h _ _ => exact notyped h
        | key h _ _ => exact notyped h
  · have notext : ∀ {P : Prop}, GivesText i "name" → P := fun ⟨s, h⟩ => absurd ⟨_, (hname h).symm⟩ hvt
    have nokey : ∀ {P : Prop} {n}, KeyNamed i n → P := fun h => notext ⟨_, h.1⟩
    have e' : Says (match some v with
        | some (.str name) =>
          match dictGet i "type" with
          | some (.str t) =>
            if ["primary", "foreign", "join"].contains t then
              seqChecks (.ok (if validName name then [] else [.badName]) :: typedChecks env view name t i)
            else .ok ((if validName name then [] else [.badName]) ++ [.badType])
          | some _ => .ok ((if validName name then [] else [.badName]) ++ [.typeKind])
          | none => .error .keyError
        | some _ => .ok [.nameKind]
        | none => .error .keyError : Res (List IdProblem)) p ↔ p ∈ ([.nameKind] : List IdProblem) := by
      cases v with
      | str t => exact absurd ⟨t, rfl⟩ hvt
      | _ => exact says_ok
    refine e'.trans ?_
    rw [List.mem_singleton]
    constructor
    · rintro rfl; exact .nameKind ⟨v, hv, hvt⟩
    · intro h
      cases h with
      | nameKind h => rfl
      | name h _ => exact notext ⟨_, h⟩
      | typeKind h _ => exact notext h
      | type h _ _ => exact notext h
      | referenceKind h _ => exact notext h.1
      | noView h _ _ => exact notext h.1
      | joinType h _ => exact notext h.1
      | sqlOn h _ => exact notext h.1
      | sqlKind h _ => exact nokey h
      | noBraces h _ _ => exact nokey h
      | sqlUnknown h _ => cases h with | sql h _ _ _ _ => exact nokey h
      | fieldUnknown h _ => cases h with | own h _ _ => exact nokey h
      | notPrimary h _ _ => exact notext h.1
      | joinAs h _ _ _ => exact notext h.1
      | «include» h _ _ => exact notext h.1
      | key h _ _ => exact notext h.1

end ML
