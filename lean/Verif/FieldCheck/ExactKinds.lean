import Verif.FieldCheck.Exact
/-
The checks of dimensions, dimension groups and measures of C62 report exactly the problems of their part of the specification.
-/
set_option autoImplicit false
namespace ML
open Spec

/-! ### The filters, qualified by validation, change nothing else -/

section
variable (env : CheckEnv) (name : String) (d : FDef)

theorem wants_q (k : String) (ok : Yaml → Bool) (p : FieldProblem) (hk : k ≠ "filters") :
    wants (qualifyFilters env.view d) k ok p = wants d k ok p := by
  unfold wants; rw [dictGet_qualifyFilters _ _ _ hk]

theorem wantsList_q (k : String) (ok : Yaml → Bool) (hk : k ≠ "filters") :
    wantsList (qualifyFilters env.view d) k ok = wantsList d k ok := by
  unfold wantsList; rw [dictGet_qualifyFilters _ _ _ hk]

theorem typeIn_q (ws : List String) : typeIn ws (qualifyFilters env.view d) = typeIn ws d := by
  unfold typeIn; rw [textAt_qualifyFilters _ _ _ (by decide)]

theorem tierChecks_q : tierChecks (qualifyFilters env.view d) = tierChecks d := by
  unfold tierChecks; rw [textAt_qualifyFilters _ _ _ (by decide), dictGet_qualifyFilters _ _ _ (by decide)]

theorem drillChecks_q : drillChecks env (qualifyFilters env.view d) = drillChecks env d := by
  unfold drillChecks; rw [dictGet_qualifyFilters _ _ _ (by decide)]

theorem wordChecks_q (k : String) (ws : List String) (hk : k ≠ "filters") :
    wordChecks (qualifyFilters env.view d) k ws = wordChecks d k ws := by
  unfold wordChecks; rw [dictGet_qualifyFilters _ _ _ hk]

theorem canonVal_q : canonVal env (qualifyFilters env.view d) = canonVal env d := by
  unfold canonVal; rw [dictGet_qualifyFilters _ _ _ (by decide)]

theorem cumulativeChecks_q : cumulativeChecks env (qualifyFilters env.view d) = cumulativeChecks env d := by
  unfold cumulativeChecks cumMeasureChecks
  rw [textAt_qualifyFilters _ _ _ (by decide), dictGet_qualifyFilters _ _ _ (by decide), wants_q _ _ _ _ _ (by decide),
    wants_q _ _ _ _ _ (by decide)]

theorem distinctChecks_q : distinctChecks env (qualifyFilters env.view d) = distinctChecks env d := by
  unfold distinctChecks
  rw [textAt_qualifyFilters _ _ _ (by decide), dictGet_qualifyFilters _ _ _ (by decide), typeIn_q]

theorem nonAdditive_q : nonAdditive env (qualifyFilters env.view d) = nonAdditive env d := by
  unfold nonAdditive
  rw [dictGet_qualifyFilters _ _ _ (by decide)]

theorem nonAdditiveChecks_q : nonAdditiveChecks env (qualifyFilters env.view d) = nonAdditiveChecks env d := by
  unfold nonAdditiveChecks
  rw [dictGet_qualifyFilters _ _ _ (by decide), nonAdditive_q]

theorem sqlChecks_q (self : Option Yaml) (sql : String) :
    sqlChecks env name (qualifyFilters env.view d) self sql = sqlChecks env name d self sql := by
  unfold sqlChecks
  rw [checkedField_qualifyFilters]

end

theorem ownSqlChecks_says {env : CheckEnv} {name : String} {d : FDef} {p : FieldProblem}
    (hok : ∃ ps, ownSqlChecks env name (qualifyFilters env.view d) = .ok ps) :
    Says (ownSqlChecks env name (qualifyFilters env.view d)) p ↔
      ∃ s, ownSql env name d = .ok (some (.str s)) ∧ SqlProblem env name d (some (.str s)) s p := by
  unfold ownSqlChecks at *
  unfold ownSql
  cases h : fieldSql env name (qualifyFilters env.view d) with
  | error e => rw [h] at hok; obtain ⟨_, hok⟩ := hok; cases hok
  | ok v =>
    rw [h] at hok
    cases v with
    | none => simp [says_ok]
    | some v =>
      cases v with
      | str s =>
        simp only [sqlChecks_q] at hok ⊢
        rw [sqlChecks_says hok]
        constructor
        · intro h; exact ⟨s, rfl, h⟩
        · rintro ⟨_, e, h⟩; cases e; exact h
      | _ => simp [says_ok]

theorem if_mem {c : Prop} [Decidable c] {q p : FieldProblem} : p ∈ (if c then [q] else [] : List FieldProblem) ↔ p = q ∧ c := by
  by_cases h : c <;> simp [h]

theorem if_not_mem {c : Prop} [Decidable c] {q p : FieldProblem} : p ∈ (if c then [] else [q] : List FieldProblem) ↔ p = q ∧ ¬ c := by
  by_cases h : c <;> simp [h]

theorem typeIn_not {ws : List String} {d : FDef} : ¬ typeIn ws d = true ↔ ∀ v, Given d "type" v → ¬ Word ws v := by
  rw [← typeIn_iff]; simp

theorem word_congr {ws us : List String} (h : ∀ s, s ∈ ws ↔ s ∈ us) (v : Yaml) : Word ws v ↔ Word us v := by
  unfold Word; simp only [h]

/-! ### Dimensions -/

theorem dimensionSqlChecks_says {env : CheckEnv} {name : String} {d : FDef} {p : FieldProblem}
    (hok : ∃ ps, dimensionSqlChecks env name (qualifyFilters env.view d) = .ok ps) :
    Says (dimensionSqlChecks env name (qualifyFilters env.view d)) p ↔
      (p = .caseDeprecated ∧ HasKey d "case") ∨ (p = .wrongKind "sql" ∧ ¬ GivesText d "sql" ∧ ¬ HasKey d "case") ∨
      (GivesText d "sql" ∧ ¬ HasKey d "case" ∧ ∃ s, ownSql env name d = .ok (some (.str s)) ∧
        SqlProblem env name d (some (.str s)) s p) := by
  unfold dimensionSqlChecks at *
  rw [dictGet_qualifyFilters _ _ _ (by decide), textAt_qualifyFilters _ _ _ (by decide)] at hok ⊢
  rw [← isSome_iff_hasKey, ← textAt_isSome]
  by_cases hc : (dictGet d "case").isSome = true
  · simp [hc, says_ok]
  · by_cases ht : (textAt d "sql").isSome = true
    · rw [if_neg hc, if_pos ht] at hok ⊢
      rw [ownSqlChecks_says hok]
      simp [hc, ht]
    · rw [if_neg hc, if_neg ht]
      simp [hc, ht, says_ok]

theorem drillChecks_says {env : CheckEnv} {d : FDef} {p : FieldProblem} (hok : ∃ ps, drillChecks env d = .ok ps) :
    Says (drillChecks env d) p ↔ (p = .wrongKind "drill_fields" ∧ GivenNot d "drill_fields" Listed) ∨
      ∃ n, p = .drillUnknown n ∧ Unknown (env.getText n) ∧ ((∃ l ns, Given d "drill_fields" (.list l) ∧ l ≠ [] ∧ env.drill l = .ok ns ∧ n ∈ ns) ∨
        ∃ l, Given d "drill_fields" (.list l) ∧ env.drill l = .error .attributeError ∧ Yaml.str n ∈ l) := by
  unfold drillChecks at *
  cases h : dictGet d "drill_fields" with
  | none =>
    have hn : ∀ v, ¬ Given d "drill_fields" v := by intro v hv; unfold Given at hv; rw [h] at hv; cases hv
    simp [says_ok, GivenNot, hn]
  | some v =>
    rw [h] at hok
    have hv : Given d "drill_fields" v := h
    cases v with
    | list l =>
      have hnot : ¬ GivenNot d "drill_fields" Listed := by
        rintro ⟨w, hw, hn⟩; cases given_unique hv hw; exact hn ⟨l, rfl⟩
      simp only [hnot, and_false, false_or]
      simp only at hok
      by_cases hl : l = []
      · subst hl
        simp only [List.isEmpty_nil, if_true, says_ok, List.not_mem_nil, false_iff]
        rintro ⟨n, _, _, ⟨l', ns, h1, h2, _⟩ | ⟨l', h1, _, h2⟩⟩
        · cases given_unique hv h1; exact h2 rfl
        · cases given_unique hv h1; cases h2
      · have hl' : l.isEmpty = false := by simpa using hl
        simp only [hl', Bool.false_eq_true, if_false] at hok ⊢
        unfold drillNames at *
        have one : ∀ v, Says (missingField (getValue env v) (.drillUnknown (v.text?.getD ""))) p ↔
            ∃ n, v = .str n ∧ p = .drillUnknown n ∧ Unknown (env.getText n) := by
          intro v
          rw [missingField_says]
          cases v with
          | str s =>
            simp only [getValue, Yaml.text?, Option.getD_some, Yaml.str.injEq, exists_eq_left']
          | _ => simp [getValue, Unknown]
        cases hd : env.drill l with
        | ok ns =>
          rw [hd] at hok
          simp only at hok ⊢
          rw [says_forEach hok]
          simp only [one]
          constructor
          · rintro ⟨w, hw, n, rfl, hp, hu⟩
            obtain ⟨m, hm, e⟩ := List.mem_map.mp hw
            cases e
            exact ⟨_, hp, hu, .inl ⟨l, ns, hv, hl, hd, hm⟩⟩
          · rintro ⟨n, hp, hu, ⟨l', ns', e, _, e', hn⟩ | ⟨l', e, e', _⟩⟩
            · cases given_unique hv e
              rw [hd] at e'; cases e'
              exact ⟨_, List.mem_map_of_mem hn, n, rfl, hp, hu⟩
            · cases given_unique hv e
              rw [hd] at e'; cases e'
        | error e =>
          rw [hd] at hok
          cases e <;> simp only at hok ⊢
          case attributeError =>
            rw [says_forEach hok]
            simp only [one]
            constructor
            · rintro ⟨w, hw, n, rfl, hp, hu⟩
              exact ⟨n, hp, hu, .inr ⟨l, hv, hd, hw⟩⟩
            · rintro ⟨n, hp, hu, ⟨l', ns', e, _, e', hn⟩ | ⟨l', e, e', hm⟩⟩
              · cases given_unique hv e
                rw [hd] at e'; cases e'
              · cases given_unique hv e
                exact ⟨_, hm, n, rfl, hp, hu⟩
          all_goals (obtain ⟨_, hok⟩ := hok; cases hok)
    | _ =>
      have hnl : ∀ l, ¬ Given d "drill_fields" (.list l) := by intro l hl; cases given_unique hv hl
      have hnot : GivenNot d "drill_fields" Listed := ⟨_, hv, by simp [Listed]⟩
      simp [says_ok, hnl, hnot]

theorem tierChecks_mem {d : FDef} {p : FieldProblem} :
    p ∈ tierChecks d ↔ Given d "type" (.str "tier") ∧ ((p = .missing "tiers" ∧ ¬ HasKey d "tiers") ∨
      (p = .wrongKind "tiers" ∧ GivenNot d "tiers" Listed) ∨ (p = .badItem "tiers" ∧ HasItemNot d "tiers" Whole)) := by
  unfold tierChecks
  rw [← textAt_iff]
  by_cases ht : textAt d "type" = some "tier"
  · simp only [ht, if_true, true_and]
    have := wantsList_mem (d := d) (k := "tiers") (p := p) isInt_iff
    unfold wantsList at this
    unfold HasKey
    cases h : dictGet d "tiers" with
    | none =>
      rw [h] at this
      have hn : ∀ v, ¬ Given d "tiers" v := by intro v hv; unfold Given at hv; rw [h] at hv; cases hv
      simp only [List.not_mem_nil, false_iff, not_or] at this
      simp [hn, this.1, this.2]
    | some v =>
      rw [h] at this
      have hv : Given d "tiers" v := h
      have hk : ∃ v, Given d "tiers" v := ⟨v, hv⟩
      simp only [hk, not_true_eq_false, and_false, false_or]
      cases v <;> exact this
  · simp [ht]

theorem dimensionChecks_says {env : CheckEnv} {name : String} {d : FDef} {p : FieldProblem}
    (hok : ∀ c ∈ dimensionChecks env name (qualifyFilters env.view d), ∃ ps, c = .ok ps) :
    (∃ c ∈ dimensionChecks env name (qualifyFilters env.view d), Says c p) ↔ DimensionProblem env name d p := by
  have h4 : ∃ ps, dimensionSqlChecks env name (qualifyFilters env.view d) = .ok ps := hok _ (by simp [dimensionChecks])
  have h6 : ∃ ps, drillChecks env d = .ok ps := by
    rw [← drillChecks_q]; exact hok _ (by simp [dimensionChecks])
  have hw : (∀ v, Given d "type" v → ¬ Word ["string", "yesno", "number", "tier"] v) ↔
      ∀ v, Given d "type" v → ¬ Word ["string", "number", "yesno", "tier"] v := by
    refine forall_congr' fun v => ?_
    rw [word_congr (us := ["string", "number", "yesno", "tier"])]
    intro s; simp; tauto
  unfold dimensionChecks
  rw [wants_q _ _ _ _ _ (by decide), wants_q _ _ _ _ _ (by decide), wants_q _ _ _ _ _ (by decide), wantsList_q _ _ _ _ (by decide),
    drillChecks_q, tierChecks_q, typeIn_q, textAt_qualifyFilters _ _ _ (by decide), dictGet_qualifyFilters _ _ _ (by decide),
    dictGet_qualifyFilters _ _ _ (by decide)]
  simp only [List.mem_cons, List.not_mem_nil, or_false, exists_eq_or_imp, exists_eq_left, says_ok, dimensionSqlChecks_says h4,
    drillChecks_says h6, wants_kind isStr_iff, wants_kind isBool_iff, wantsList_mem isStr_iff, tierChecks_mem, if_mem, if_not_mem,
    typeIn_not, hw, textAt_iff, truthyOpt_false_iff, isSome_false_iff]
  constructor
  · rintro (⟨rfl, h⟩ | ⟨rfl, h1, h2, h3⟩ | ⟨rfl, h⟩ | (⟨rfl, h⟩ | ⟨rfl, h1, h2⟩ | ⟨h1, h2, s, h3, hp⟩) | (⟨rfl, h⟩ | ⟨rfl, h⟩) |
      (⟨rfl, h⟩ | ⟨n, rfl, hu, ⟨l, ns, h1, h2, h3, h4⟩ | ⟨l, h1, h2, h3⟩⟩) | ⟨rfl, h⟩ | ⟨ht, ⟨rfl, h⟩ | ⟨rfl, h⟩ | ⟨rfl, h⟩⟩ | ⟨rfl, h⟩)
    · exact .type h
    · exact .searchable h1 h2 h3
    · exact .flag (by simp) h
    · exact .case h
    · exact .noSql h1 h2
    · exact .sql h1 h2 h3 hp
    · exact .tags h
    · exact .tag h
    · exact .drillKind h
    · exact .drill h1 h2 h3 h4 hu
    · exact .drillRaw h1 h2 h3 hu
    · exact .flag (by simp) h
    · exact .noTiers ht h
    · exact .tiers ht h
    · exact .tier ht h
    · exact .link h
  · intro hp
    cases hp with
    | type h => exact .inl ⟨rfl, h⟩
    | searchable h1 h2 h3 => exact .inr (.inl ⟨rfl, h1, h2, h3⟩)
    | flag hk h =>
      simp only [List.mem_cons, List.not_mem_nil, or_false] at hk
      rcases hk with rfl | rfl
      · exact .inr (.inr (.inl ⟨rfl, h⟩))
      · exact .inr (.inr (.inr (.inr (.inr (.inr (.inl ⟨rfl, h⟩))))))
    | link h => exact .inr (.inr (.inr (.inr (.inr (.inr (.inr (.inr ⟨rfl, h⟩)))))))
    | noSql h1 h2 => exact .inr (.inr (.inr (.inl (.inr (.inl ⟨rfl, h1, h2⟩)))))
    | case h => exact .inr (.inr (.inr (.inl (.inl ⟨rfl, h⟩))))
    | sql h1 h2 h3 hp => exact .inr (.inr (.inr (.inl (.inr (.inr ⟨h1, h2, _, h3, hp⟩)))))
    | tags h => exact .inr (.inr (.inr (.inr (.inl (.inl ⟨rfl, h⟩)))))
    | tag h => exact .inr (.inr (.inr (.inr (.inl (.inr ⟨rfl, h⟩)))))
    | drillKind h => exact .inr (.inr (.inr (.inr (.inr (.inl (.inl ⟨rfl, h⟩))))))
    | drill h1 h2 h3 h4 hu => exact .inr (.inr (.inr (.inr (.inr (.inl (.inr ⟨_, rfl, hu, .inl ⟨_, _, h1, h2, h3, h4⟩⟩))))))
    | drillRaw h1 h2 h3 hu => exact .inr (.inr (.inr (.inr (.inr (.inl (.inr ⟨_, rfl, hu, .inr ⟨_, h1, h2, h3⟩⟩))))))
    | noTiers ht h => exact .inr (.inr (.inr (.inr (.inr (.inr (.inr (.inl ⟨ht, .inl ⟨rfl, h⟩⟩)))))))
    | tiers ht h => exact .inr (.inr (.inr (.inr (.inr (.inr (.inr (.inl ⟨ht, .inr (.inl ⟨rfl, h⟩)⟩)))))))
    | tier ht h => exact .inr (.inr (.inr (.inr (.inr (.inr (.inr (.inl ⟨ht, .inr (.inr ⟨rfl, h⟩)⟩)))))))

/-! ### Dimension groups -/

theorem wordChecks_says {d : FDef} {k : String} {ws : List String} {p : FieldProblem} :
    Says (wordChecks d k ws) p ↔ (p = .wrongKind k ∧ GivenNot d k Listed) ∨ (p = .emptyList k ∧ Given d k (.list [])) ∨
      (p = .badItem k ∧ HasItemNot d k (Word ws)) := by
  have := wantsList_mem (d := d) (k := k) (p := p) (oneOf_iff ws)
  unfold wantsList at this
  unfold wordChecks
  cases h : dictGet d k with
  | none =>
    have hn : ∀ v, ¬ Given d k v := by intro v hv; unfold Given at hv; rw [h] at hv; cases hv
    simp [says_error, GivenNot, HasItemNot, hn]
  | some v =>
    rw [h] at this
    have hv : Given d k v := h
    have hu : ∀ w, Given d k w ↔ v = w := fun w => ⟨fun hw => given_unique hv hw, fun e => e ▸ hv⟩
    cases v with
    | list l =>
      simp only at this ⊢
      rw [says_ok, List.mem_append, this, hu]
      have : p ∈ (if l.isEmpty then [.emptyList k] else [] : List FieldProblem) ↔ p = .emptyList k ∧ l = [] := by
        rw [if_mem]; simp
      rw [this]
      simp only [Yaml.list.injEq]
      tauto
    | _ =>
      simp only at this ⊢
      rw [says_ok, this, hu]
      simp

theorem timeSqlChecks_says {env : CheckEnv} {name : String} {d : FDef} {p : FieldProblem}
    (hok : ∃ ps, timeSqlChecks env name (qualifyFilters env.view d) = .ok ps) :
    Says (timeSqlChecks env name (qualifyFilters env.view d)) p ↔
      (p = .wrongKind "sql" ∧ GivenNot d "sql" Text) ∨
      (GivesText d "sql" ∧ ∃ s, ownSql env name d = .ok (some (.str s)) ∧ SqlProblem env name d (some (.str s)) s p) := by
  unfold timeSqlChecks at *
  rw [dictGet_qualifyFilters _ _ _ (by decide)] at *
  cases h : dictGet d "sql" with
  | none => rw [h] at hok; obtain ⟨_, hok⟩ := hok; cases hok
  | some v =>
    rw [h] at hok
    have hv : Given d "sql" v := h
    have hu : ∀ w, Given d "sql" w ↔ v = w := fun w => ⟨fun hw => given_unique hv hw, fun e => e ▸ hv⟩
    unfold GivenNot GivesText
    simp only [hu]
    cases v with
    | str s =>
      simp only at hok ⊢
      rw [ownSqlChecks_says hok]
      simp [Text]
    | _ => simp [says_ok, Text]

theorem endChecks_says {env : CheckEnv} {name : String} {d : FDef} {k : String} (hk : k ≠ "filters") {p : FieldProblem}
    (hok : ∃ ps, endChecks env name (qualifyFilters env.view d) k = .ok ps) :
    Says (endChecks env name (qualifyFilters env.view d) k) p ↔ (p = .wrongKind k ∧ ¬ GivesText d k) ∨
      ∃ t s, Given d k (.str t) ∧ ownSql env name d = .ok s ∧ SqlProblem env name d s (cleanSql t) p := by
  unfold endChecks at *
  rw [dictGet_qualifyFilters _ _ _ hk] at *
  unfold ownSql
  cases h : dictGet d k with
  | none =>
    have hn : ∀ v, ¬ Given d k v := by intro v hv; unfold Given at hv; rw [h] at hv; cases hv
    simp [says_ok, GivesText, hn]
  | some v =>
    rw [h] at hok
    have hv : Given d k v := h
    have hu : ∀ w, Given d k w ↔ v = w := fun w => ⟨fun hw => given_unique hv hw, fun e => e ▸ hv⟩
    unfold GivesText
    simp only [hu]
    cases v with
    | str t =>
      simp only at hok ⊢
      cases hs : fieldSql env name (qualifyFilters env.view d) with
      | error e => rw [hs] at hok; obtain ⟨_, hok⟩ := hok; cases hok
      | ok s =>
        rw [hs] at hok
        simp only [sqlChecks_q] at hok ⊢
        rw [sqlChecks_says hok]
        constructor
        · intro hp; exact .inr ⟨t, s, rfl, rfl, hp⟩
        · rintro (⟨_, hn⟩ | ⟨_, _, e, e', hp⟩)
          · exact absurd ⟨t, rfl⟩ hn
          · cases e; cases e'; exact hp
    | _ => simp [says_ok]

theorem groupChecks_says {env : CheckEnv} {name : String} {d : FDef} {p : FieldProblem}
    (hok : ∀ c ∈ groupChecks env name (qualifyFilters env.view d), ∃ ps, c = .ok ps) :
    (∃ c ∈ groupChecks env name (qualifyFilters env.view d), Says c p) ↔ GroupProblem env name d p := by
  unfold groupChecks at *
  rw [typeIn_q, wants_q _ _ _ _ _ (by decide), textAt_qualifyFilters _ _ _ (by decide)] at *
  have hd : ∀ {t : String}, Given d "type" (.str t) → ∀ {u : String}, Given d "type" (.str u) → t = u := by
    intro t h u h'
    cases given_unique h h'; rfl
  have base : (∃ c ∈ [(.ok (if typeIn ["time", "duration"] d then [] else [.badType]) : Res (List FieldProblem)),
      .ok (wants d "primary_key" Yaml.isBool (.wrongKind "primary_key"))], Says c p) ↔
      (p = .badType ∧ ∀ v, Given d "type" v → ¬ Word ["time", "duration"] v) ∨
      (p = .wrongKind "primary_key" ∧ GivenNot d "primary_key" Flag) := by
    simp only [List.mem_cons, List.not_mem_nil, or_false, exists_eq_or_imp, exists_eq_left, says_ok, wants_kind isBool_iff, if_not_mem,
      typeIn_not]
  have app : ∀ (a b : List (Res (List FieldProblem))), (∃ c ∈ a ++ b, Says c p) ↔ (∃ c ∈ a, Says c p) ∨ ∃ c ∈ b, Says c p := by
    intro a b
    simp only [List.mem_append, or_and_right, exists_or]
  rw [app, app, base]
  by_cases ht0 : textAt d "type" = some "time"
  · have ht : Given d "type" (.str "time") := (textAt_iff _ _ _).mp ht0
    have hnd : ¬ Given d "type" (.str "duration") := fun h => absurd (hd ht h) (by decide)
    have hnd0 : ¬ textAt d "type" = some "duration" := by rw [ht0]; decide
    rw [if_pos ht0, if_neg hnd0] at hok ⊢
    simp only [List.not_mem_nil, false_and, exists_false, or_false, List.append_nil] at hok ⊢
    have h3 : ∃ ps, timeSqlChecks env name (qualifyFilters env.view d) = .ok ps := hok _ (by simp [timeChecks])
    unfold timeChecks
    rw [wants_q _ _ _ _ _ (by decide), wants_q _ _ _ _ _ (by decide), wants_q _ _ _ _ _ (by decide), wordChecks_q _ _ _ _ (by decide),
      dictGet_qualifyFilters _ _ _ (by decide)]
    simp only [List.mem_cons, List.not_mem_nil, or_false, exists_eq_or_imp, exists_eq_left, says_ok, timeSqlChecks_says h3,
      wordChecks_says, wants_kind isBool_iff, wants_kind (oneOf_iff _), if_mem, isSome_iff_hasKey]
    constructor
    · rintro ((⟨rfl, h⟩ | ⟨rfl, h⟩) | ⟨rfl, h⟩ | (⟨rfl, h⟩ | ⟨rfl, h⟩ | ⟨rfl, h⟩) | (⟨rfl, h⟩ | ⟨h1, s, h2, h3⟩) | ⟨rfl, h⟩ | ⟨rfl, h⟩ |
        ⟨rfl, h⟩)
      · exact .type h
      · exact .primaryKey h
      · exact .intervals ht h
      · exact .words (t := "time") (by simp) ht h
      · exact .empty (t := "time") (by simp) ht h
      · exact .timeframe ht h
      · exact .sqlKind ht h
      · exact .sql ht h1 h2 h3
      · exact .flag (by simp) ht h
      · exact .flag (by simp) ht h
      · refine .datatype ht ?_
        obtain ⟨v, hv, hn⟩ := h
        refine ⟨v, hv, fun hw => hn ((word_congr ?_ v).mp hw)⟩
        intro s; simp; tauto
    · intro hp
      cases hp with
      | type h => exact .inl (.inl ⟨rfl, h⟩)
      | primaryKey h => exact .inl (.inr ⟨rfl, h⟩)
      | intervals _ h => exact .inr (.inl ⟨rfl, h⟩)
      | timeframes h _ => exact absurd h hnd
      | noSql h _ => exact absurd h hnd
      | words hm ht' h =>
        simp only [List.mem_cons, Prod.mk.injEq, List.not_mem_nil, or_false] at hm
        rcases hm with ⟨rfl, rfl⟩ | ⟨rfl, rfl⟩
        · exact .inr (.inr (.inl (.inl ⟨rfl, h⟩)))
        · exact absurd ht' hnd
      | empty hm ht' h =>
        simp only [List.mem_cons, Prod.mk.injEq, List.not_mem_nil, or_false] at hm
        rcases hm with ⟨rfl, rfl⟩ | ⟨rfl, rfl⟩
        · exact .inr (.inr (.inl (.inr (.inl ⟨rfl, h⟩))))
        · exact absurd ht' hnd
      | timeframe _ h => exact .inr (.inr (.inl (.inr (.inr ⟨rfl, h⟩))))
      | interval h _ => exact absurd h hnd
      | sqlKind _ h => exact .inr (.inr (.inr (.inl (.inl ⟨rfl, h⟩))))
      | sql _ h1 h2 h3 => exact .inr (.inr (.inr (.inl (.inr ⟨h1, _, h2, h3⟩))))
      | flag hm _ h =>
        simp only [List.mem_cons, List.not_mem_nil, or_false] at hm
        rcases hm with rfl | rfl
        · exact .inr (.inr (.inr (.inr (.inl ⟨rfl, h⟩))))
        · exact .inr (.inr (.inr (.inr (.inr (.inl ⟨rfl, h⟩)))))
      | datatype _ h =>
        refine .inr (.inr (.inr (.inr (.inr (.inr ⟨rfl, ?_⟩)))))
        obtain ⟨v, hv, hn⟩ := h
        refine ⟨v, hv, fun hw => hn ((word_congr ?_ v).mp hw)⟩
        intro s; simp; tauto
      | endKind _ h _ => exact absurd h hnd
      | endSql _ h _ _ _ => exact absurd h hnd
  · have ht : ¬ Given d "type" (.str "time") := fun h => ht0 ((textAt_iff _ _ _).mpr h)
    by_cases hdur0 : textAt d "type" = some "duration"
    · have hdur : Given d "type" (.str "duration") := (textAt_iff _ _ _).mp hdur0
      rw [if_neg ht0, if_pos hdur0] at hok ⊢
      simp only [List.not_mem_nil, false_and, exists_false, List.append_nil] at hok ⊢
      have h4 : ∃ ps, endChecks env name (qualifyFilters env.view d) "sql_start" = .ok ps := hok _ (by simp [durationChecks])
      have h5 : ∃ ps, endChecks env name (qualifyFilters env.view d) "sql_end" = .ok ps := hok _ (by simp [durationChecks])
      unfold durationChecks
      rw [wordChecks_q _ _ _ _ (by decide), dictGet_qualifyFilters _ _ _ (by decide), dictGet_qualifyFilters _ _ _ (by decide)]
      simp only [List.mem_cons, List.not_mem_nil, or_false, exists_eq_or_imp, exists_eq_left, says_ok, endChecks_says (by decide) h4,
        endChecks_says (by decide) h5, wordChecks_says, if_mem, isSome_iff_hasKey]
      constructor
      · rintro ((⟨rfl, h⟩ | ⟨rfl, h⟩) | ⟨rfl, h⟩ | (⟨rfl, h⟩ | ⟨rfl, h⟩ | ⟨rfl, h⟩) | ⟨rfl, h⟩ | (⟨rfl, h⟩ | ⟨t, s, h1, h2, h3⟩) |
          (⟨rfl, h⟩ | ⟨t, s, h1, h2, h3⟩))
        · exact .type h
        · exact .primaryKey h
        · exact .timeframes hdur h
        · exact .words (t := "duration") (by simp) hdur h
        · exact .empty (t := "duration") (by simp) hdur h
        · exact .interval hdur h
        · exact .noSql hdur h
        · exact .endKind (by simp) hdur h
        · exact .endSql (k := "sql_start") (by simp) hdur h1 h2 h3
        · exact .endKind (by simp) hdur h
        · exact .endSql (k := "sql_end") (by simp) hdur h1 h2 h3
      · intro hp
        cases hp with
        | type h => exact .inl (.inl ⟨rfl, h⟩)
        | primaryKey h => exact .inl (.inr ⟨rfl, h⟩)
        | intervals h _ => exact absurd h ht
        | timeframes _ h => exact .inr (.inl ⟨rfl, h⟩)
        | noSql _ h => exact .inr (.inr (.inr (.inl ⟨rfl, h⟩)))
        | words hm ht' h =>
          simp only [List.mem_cons, Prod.mk.injEq, List.not_mem_nil, or_false] at hm
          rcases hm with ⟨rfl, rfl⟩ | ⟨rfl, rfl⟩
          · exact absurd ht' ht
          · exact .inr (.inr (.inl (.inl ⟨rfl, h⟩)))
        | empty hm ht' h =>
          simp only [List.mem_cons, Prod.mk.injEq, List.not_mem_nil, or_false] at hm
          rcases hm with ⟨rfl, rfl⟩ | ⟨rfl, rfl⟩
          · exact absurd ht' ht
          · exact .inr (.inr (.inl (.inr (.inl ⟨rfl, h⟩))))
        | timeframe h _ => exact absurd h ht
        | interval _ h => exact .inr (.inr (.inl (.inr (.inr ⟨rfl, h⟩))))
        | sqlKind h _ => exact absurd h ht
        | sql h _ _ _ => exact absurd h ht
        | flag _ h _ => exact absurd h ht
        | datatype h _ => exact absurd h ht
        | endKind hm _ h =>
          simp only [List.mem_cons, List.not_mem_nil, or_false] at hm
          rcases hm with rfl | rfl
          · exact .inr (.inr (.inr (.inr (.inl (.inl ⟨rfl, h⟩)))))
          · exact .inr (.inr (.inr (.inr (.inr (.inl ⟨rfl, h⟩)))))
        | endSql hm _ h1 h2 h3 =>
          simp only [List.mem_cons, List.not_mem_nil, or_false] at hm
          rcases hm with rfl | rfl
          · exact .inr (.inr (.inr (.inr (.inl (.inr ⟨_, _, h1, h2, h3⟩)))))
          · exact .inr (.inr (.inr (.inr (.inr (.inr ⟨_, _, h1, h2, h3⟩)))))
    · have hdur : ¬ Given d "type" (.str "duration") := fun h => hdur0 ((textAt_iff _ _ _).mpr h)
      rw [if_neg ht0, if_neg hdur0]
      simp only [List.not_mem_nil, false_and, exists_false, or_false]
      constructor
      · rintro (⟨rfl, h⟩ | ⟨rfl, h⟩)
        · exact .type h
        · exact .primaryKey h
      · intro hp
        cases hp with
        | type h => exact .inl ⟨rfl, h⟩
        | primaryKey h => exact .inr ⟨rfl, h⟩
        | intervals h _ => exact absurd h ht
        | timeframes h _ => exact absurd h hdur
        | noSql h _ => exact absurd h hdur
        | words hm ht' h =>
          simp only [List.mem_cons, Prod.mk.injEq, List.not_mem_nil, or_false] at hm
          rcases hm with ⟨rfl, rfl⟩ | ⟨rfl, rfl⟩
          · exact absurd ht' ht
          · exact absurd ht' hdur
        | empty hm ht' h =>
          simp only [List.mem_cons, Prod.mk.injEq, List.not_mem_nil, or_false] at hm
          rcases hm with ⟨rfl, rfl⟩ | ⟨rfl, rfl⟩
          · exact absurd ht' ht
          · exact absurd ht' hdur
        | timeframe h _ => exact absurd h ht
        | interval h _ => exact absurd h hdur
        | sqlKind h _ => exact absurd h ht
        | sql h _ _ _ => exact absurd h ht
        | flag _ h _ => exact absurd h ht
        | datatype h _ => exact absurd h ht
        | endKind _ h _ => exact absurd h hdur
        | endSql _ h _ _ _ => exact absurd h hdur

end ML
