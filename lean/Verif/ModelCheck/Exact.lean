import Verif.ModelCheck.Maps
/-
Lemmas for C64: the access grants, the mappings and the whole report of a model.
-/
set_option autoImplicit false
namespace ML
open Spec

theorem modelTagged_says {α : Type} {f : α → ModelProblem} {c : Res (List α)} {p : ModelProblem} :
    Says (modelTagged f c) p ↔ ∃ q, Says c q ∧ p = f q := by
  cases c with
  | error e => simp [modelTagged, says_error]
  | ok qs => simp [modelTagged, says_ok, eq_comm]

theorem modelTagged_fails {α : Type} {f : α → ModelProblem} {c : Res (List α)} : Fails (modelTagged f c) ↔ Fails c := by
  cases c <;> simp [modelTagged, Fails]

/-! ### Grants -/

theorem grantReports_ok {g : FDef} {n : String} (hn : Given g "name" (.str n)) (hu : HasKey g "user_attribute") (ha : HasKey g "allowed_values") :
    ∃ ps, grantReports g = .ok ps ∧ ∀ p, p ∈ ps ↔ GrantHas g p := by
  have hk : HasKey g "name" := ⟨_, hn⟩
  unfold grantReports
  rw [show dictGet g "name" = _ from hn]
  refine ⟨_, rfl, fun p => ?_⟩
  obtain ⟨av, hav⟩ := ha
  have h1 : p ∈ (if validName n then [] else [GrantProblem.badName]) ↔ p = .badName ∧ ¬ ProperName n := by
    by_cases h : ProperName n
    · rw [if_pos (properName_true.mpr h)]; simp [h]
    · rw [properName_iff.mpr h]; simp [h]
  have h2 : p ∈ allowedCheck g ↔ (p = .valuesKind ∧ GivenNot g "allowed_values" Listed) ∨
          (p = .noText ∧ ∃ l, Given g "allowed_values" (.list l) ∧ ∀ v ∈ l, ¬ Text v) := by
    have hg : ∀ w, Given g "allowed_values" w ↔ av = w := given_some hav
    unfold allowedCheck GivenNot
    rw [show dictGet g "allowed_values" = _ from hav]
    simp only [hg]
    by_cases hl : Listed av
    · obtain ⟨l, rfl⟩ := hl
      have : (l.all (fun v => !v.isStr)) = true ↔ ∀ v ∈ l, ¬ Text v := by
        simp [List.all_eq_true, isStr_iff]
      by_cases ht : ∀ v ∈ l, ¬ Text v
      · simp only [this.mpr ht]; simpa [Listed] using fun _ => ht
      · have hf : (l.all (fun v => !v.isStr)) = false := by rw [← Bool.not_eq_true, this]; exact ht
        simp only [hf]
        simp only [Bool.false_eq_true, if_false, List.not_mem_nil, false_iff]
        rintro (⟨-, w, rfl, h⟩ | ⟨-, l', e, h⟩)
        · exact h ⟨l, rfl⟩
        · cases e; exact ht h
    · cases av with
      | list l => exact absurd ⟨l, rfl⟩ hl
      | _ => simp [Listed]
  rw [List.mem_append, List.mem_append, List.mem_append, h1, h2, wants_kind isStr_iff, unknownKeys_mem]
  constructor
  · rintro (((⟨rfl, h⟩ | ⟨rfl, h⟩) | ⟨rfl, h⟩ | ⟨rfl, l, hl, h⟩) | ⟨k, hk1, hk2, rfl⟩)
    · exact .name hu ⟨_, hav⟩ hn h
    · exact .attributeKind hk ⟨_, hav⟩ h
    · exact .valuesKind hk hu h
    · exact .noText hk hu hl h
    · exact .key hk hu ⟨_, hav⟩ hk1 hk2
  · intro h
    cases h with
    | noName h => exact absurd hk h
    | noAttribute _ h => exact absurd hu h
    | noValues _ _ h => exact absurd ⟨_, hav⟩ h
    | name _ _ h h' =>
      have := given_unique hn h
      cases this
      exact .inl (.inl (.inl ⟨rfl, h'⟩))
    | attributeKind _ _ h => exact .inl (.inl (.inr ⟨rfl, h⟩))
    | valuesKind _ _ h => exact .inl (.inr (.inl ⟨rfl, h⟩))
    | noText _ _ h h' => exact .inl (.inr (.inr ⟨rfl, _, h, h'⟩))
    | key _ _ _ h h' => exact .inr ⟨_, h, h', rfl⟩

theorem grantCheck_dict (g : FDef) :
    (Fails (grantCheck (.dict g)) ↔ HasKey g "user_attribute" ∧ HasKey g "allowed_values" ∧ GivenNot g "name" Text) ∧
    ((∃ ps, grantCheck (.dict g) = .ok ps) → ∀ p, Says (grantCheck (.dict g)) p ↔ GrantHas g p) := by
  by_cases h1 : HasKey g "name"
  · have k1 : ¬ (dictGet g "name").isSome = false := by rw [isSome_false_iff]; exact not_not.mpr h1
    by_cases h2 : HasKey g "user_attribute"
    · have k2 : ¬ (dictGet g "user_attribute").isSome = false := by rw [isSome_false_iff]; exact not_not.mpr h2
      by_cases h3 : HasKey g "allowed_values"
      · have k3 : ¬ (dictGet g "allowed_values").isSome = false := by rw [isSome_false_iff]; exact not_not.mpr h3
        have e0 : grantCheck (.dict g) = grantReports g := by simp only [grantCheck]; rw [if_neg k1, if_neg k2, if_neg k3]
        rw [e0]
        simp only [h2, h3, true_and]
        obtain ⟨v, hv⟩ := h1
        by_cases ht : Text v
        · obtain ⟨n, rfl⟩ := ht
          obtain ⟨ps, hps, hmem⟩ := grantReports_ok hv h2 h3
          rw [hps]
          refine ⟨?_, fun _ p => ?_⟩
          · simp only [fails_ok, false_iff]
            rintro ⟨w, hw, hn⟩
            have := given_unique hv hw
            subst this
            exact hn ⟨n, rfl⟩
          · rw [says_ok, hmem]
        · have e : grantReports g = .error .typeError := by
            unfold grantReports
            rw [show dictGet g "name" = _ from hv]
            cases v with
            | str s => exact absurd ⟨s, rfl⟩ ht
            | _ => rfl
          rw [e]
          refine ⟨?_, ?_⟩
          · simp only [fails_error, true_iff]; exact ⟨v, hv, ht⟩
          · rintro ⟨ps, h⟩; cases h
      · have k3 : (dictGet g "allowed_values").isSome = false := (isSome_false_iff _ _).mpr h3
        have e0 : grantCheck (.dict g) = .ok [.missing "allowed_values"] := by
          simp only [grantCheck]; rw [if_neg k1, if_neg k2, if_pos k3]
        rw [e0]
        simp only [h3, fails_ok, false_and, and_false, says_ok, List.mem_singleton, true_and]
        intro _ p
        constructor
        · rintro rfl; exact .noValues h1 h2 h3
        · intro h
          cases h with
          | noName h => exact absurd h1 h
          | noAttribute _ h => exact absurd h2 h
          | noValues => rfl
          | name _ h => exact absurd h h3
          | attributeKind _ h => exact absurd h h3
          | valuesKind _ _ h => obtain ⟨v, hv, -⟩ := h; exact absurd ⟨v, hv⟩ h3
          | noText _ _ h => exact absurd ⟨_, h⟩ h3
          | key _ _ h => exact absurd h h3
    · have k2 : (dictGet g "user_attribute").isSome = false := (isSome_false_iff _ _).mpr h2
      have e0 : grantCheck (.dict g) = .ok [.missing "user_attribute"] := by
        simp only [grantCheck]; rw [if_neg k1, if_pos k2]
      rw [e0]
      simp only [h2, fails_ok, false_and, says_ok, List.mem_singleton, true_and]
      intro _ p
      constructor
      · rintro rfl; exact .noAttribute h1 h2
      · intro h
        cases h with
        | noName h => exact absurd h1 h
        | noAttribute => rfl
        | noValues _ h => exact absurd h h2
        | name h => exact absurd h h2
        | attributeKind _ _ h => obtain ⟨v, hv, -⟩ := h; exact absurd ⟨v, hv⟩ h2
        | valuesKind _ h => exact absurd h h2
        | noText _ h => exact absurd h h2
        | key _ h => exact absurd h h2
  · have k1 : (dictGet g "name").isSome = false := (isSome_false_iff _ _).mpr h1
    have e0 : grantCheck (.dict g) = .ok [.missing "name"] := by
      simp only [grantCheck]; rw [if_pos k1]
    rw [e0]
    simp only [fails_ok, says_ok, List.mem_singleton, false_iff]
    refine ⟨?_, fun _ p => ?_⟩
    · rintro ⟨-, -, v, hv, -⟩; exact h1 ⟨v, hv⟩
    · constructor
      · rintro rfl; exact .noName h1
      · intro h
        cases h with
        | noName => rfl
        | noAttribute h => exact absurd h h1
        | noValues h => exact absurd h h1
        | name _ _ h => exact absurd ⟨_, h⟩ h1
        | attributeKind h => exact absurd h h1
        | valuesKind h => exact absurd h h1
        | noText h => exact absurd h h1
        | key h => exact absurd h h1

theorem grantCheck_other {v : Yaml} (hd : ¬ Dictionary v) :
    (Fails (grantCheck v) ↔ ¬ NamelessGrant v) ∧
    ((∃ ps, grantCheck v = .ok ps) → ∀ p, Says (grantCheck v) p ↔ NamelessGrant v ∧ p = .missing "name") := by
  have step : ∀ (c : Prop) [Decidable c], (NamelessGrant v ↔ ¬ c) →
      grantCheck v = (if c then .error .attributeError else .ok [.missing "name"]) →
      (Fails (grantCheck v) ↔ ¬ NamelessGrant v) ∧
      ((∃ ps, grantCheck v = .ok ps) → ∀ p, Says (grantCheck v) p ↔ NamelessGrant v ∧ p = .missing "name") := by
    intro c _ hc he
    rw [he, hc]
    by_cases h : c
    · simp [h, fails_error]
    · simp [h, fails_ok, says_ok]
  cases v with
  | dict g => exact absurd ⟨g, rfl⟩ hd
  | str s =>
    refine step (containsSub "name".toList s.toList = true) ?_ rfl
    rw [containsSub_iff]
    constructor
    · intro h; cases h with
      | text h => rintro ⟨a, b, e⟩; exact h ⟨a, b, e.symm⟩
    · intro h; refine .text ?_; rintro ⟨a, b, e⟩; exact h ⟨a, b, e.symm⟩
  | list l =>
    refine step (l.any (fun w => decide (w.text? = some "name")) = true) ?_ rfl
    have : l.any (fun w => decide (w.text? = some "name")) = true ↔ Yaml.str "name" ∈ l := by
      rw [List.any_eq_true]
      constructor
      · rintro ⟨w, hw, h⟩
        cases w with
        | str s =>
          have : s = "name" := by simpa [Yaml.text?] using h
          subst this; exact hw
        | _ => simp [Yaml.text?] at h
      · intro h; exact ⟨_, h, by simp [Yaml.text?]⟩
    rw [this]
    constructor
    · intro h; cases h with
      | list h => exact h
    · exact .list
  | _ =>
    have hn : ∀ {w}, (∀ s, w ≠ .str s) → (∀ l, w ≠ .list l) → ¬ NamelessGrant w := by
      intro w h1 h2 h; cases h with
      | text => exact h1 _ rfl
      | list => exact h2 _ rfl
    refine ⟨?_, ?_⟩
    · simp only [grantCheck, fails_error, true_iff]
      exact hn (by simp) (by simp)
    · rintro ⟨ps, h⟩; cases h

theorem grantsChecks_says {d : FDef} {p : ModelProblem} (hok : ∃ ps, grantsChecks d = .ok ps) :
    Says (grantsChecks d) p ↔ (p = .grantsKind ∧ GivenNot d "access_grants" Listed) ∨
      (p = .noGrant ∧ ∃ l, Given d "access_grants" (.list l) ∧ ∀ v ∈ l, ¬ Dictionary v) ∨
      (∃ l g q, Given d "access_grants" (.list l) ∧ Yaml.dict g ∈ l ∧ GrantHas g q ∧ p = .grant q) ∨
      (p = .grant (.missing "name") ∧ ∃ l g v, Given d "access_grants" (.list l) ∧ Yaml.dict g ∈ l ∧ v ∈ l ∧ NamelessGrant v) := by
  unfold grantsChecks at *
  unfold GivenNot
  cases h : dictGet d "access_grants" with
  | none => simp [says_ok, given_none h]
  | some v =>
    rw [h] at hok
    simp only [given_some h]
    by_cases hl : Listed v
    · obtain ⟨l, rfl⟩ := hl
      simp only at hok ⊢
      have hall : (l.all (fun v => !v.isDict)) = true ↔ ∀ v ∈ l, ¬ Dictionary v := by simp [List.all_eq_true, isDict_iff]
      by_cases hd : ∀ v ∈ l, ¬ Dictionary v
      · rw [if_pos (hall.mpr hd), says_ok, List.mem_singleton]
        constructor
        · rintro rfl; exact .inr (.inl ⟨rfl, l, rfl, hd⟩)
        · rintro (⟨-, v, rfl, h⟩ | ⟨rfl, -⟩ | ⟨l', g, q, e, hg, -⟩ | ⟨-, l', g, v, e, hg, -⟩)
          · exact absurd ⟨l, rfl⟩ h
          · rfl
          · cases e; exact absurd ⟨g, rfl⟩ (hd _ hg)
          · cases e; exact absurd ⟨g, rfl⟩ (hd _ hg)
      · rw [if_neg (fun h => hd (hall.mp h))] at hok ⊢
        have hex : ∃ g, Yaml.dict g ∈ l := by
          push Not at hd
          obtain ⟨v, hv, g, rfl⟩ := hd
          exact ⟨g, hv⟩
        have each : ∀ v ∈ l, ∃ ps, grantCheck v = .ok ps := by
          intro v hv
          rw [← not_fails]
          intro hf
          have : Fails (forEach (fun v => modelTagged .grant (grantCheck v)) l) := by
            rw [fails_forEach]; exact ⟨v, hv, modelTagged_fails.mpr hf⟩
          exact not_fails.mpr hok this
        rw [says_forEach hok]
        simp only [modelTagged_says]
        constructor
        · rintro ⟨v, hv, q, hs, rfl⟩
          by_cases hdv : Dictionary v
          · obtain ⟨g, rfl⟩ := hdv
            exact .inr (.inr (.inl ⟨l, g, q, rfl, hv, ((grantCheck_dict g).2 (each _ hv) q).mp hs, rfl⟩))
          · obtain ⟨hn, rfl⟩ := ((grantCheck_other hdv).2 (each _ hv) q).mp hs
            obtain ⟨g, hg⟩ := hex
            exact .inr (.inr (.inr ⟨rfl, l, g, v, rfl, hg, hv, hn⟩))
        · rintro (⟨-, v, rfl, h⟩ | ⟨-, l', e, h⟩ | ⟨l', g, q, e, hg, hq, rfl⟩ | ⟨rfl, l', g, v, e, hg, hv, hn⟩)
          · exact absurd ⟨l, rfl⟩ h
          · cases e; exact absurd h hd
          · cases e; exact ⟨_, hg, q, ((grantCheck_dict g).2 (each _ hg) q).mpr hq, rfl⟩
          · cases e
            have hnd : ¬ Dictionary v := by
              rintro ⟨g, rfl⟩; cases hn
            exact ⟨v, hv, _, ((grantCheck_other hnd).2 (each _ hv) _).mpr ⟨hn, rfl⟩, rfl⟩
    · cases v with
      | list l => exact absurd ⟨l, rfl⟩ hl
      | _ => simp [says_ok, Listed]

theorem grantsChecks_fails {d : FDef} :
    Fails (grantsChecks d) ↔ ∃ l, Given d "access_grants" (.list l) ∧ (∃ g, Yaml.dict g ∈ l) ∧
      ((∃ g, Yaml.dict g ∈ l ∧ HasKey g "user_attribute" ∧ HasKey g "allowed_values" ∧ GivenNot g "name" Text) ∨
       ∃ v ∈ l, ¬ Dictionary v ∧ ¬ NamelessGrant v) := by
  unfold grantsChecks
  cases h : dictGet d "access_grants" with
  | none => simp [fails_ok, given_none h]
  | some v =>
    simp only [given_some h]
    by_cases hl : Listed v
    · obtain ⟨l, rfl⟩ := hl
      simp only [Yaml.list.injEq, exists_eq_left']
      have hall : (l.all (fun v => !v.isDict)) = true ↔ ∀ v ∈ l, ¬ Dictionary v := by simp [List.all_eq_true, isDict_iff]
      by_cases hd : ∀ v ∈ l, ¬ Dictionary v
      · rw [if_pos (hall.mpr hd)]
        simp only [fails_ok, false_iff]
        rintro ⟨⟨g, hg⟩, -⟩
        exact hd _ hg ⟨g, rfl⟩
      · rw [if_neg (fun h => hd (hall.mp h)), fails_forEach]
        have hex : ∃ g, Yaml.dict g ∈ l := by
          push Not at hd
          obtain ⟨v, hv, g, rfl⟩ := hd
          exact ⟨g, hv⟩
        simp only [hex, true_and, modelTagged_fails]
        constructor
        · rintro ⟨v, hv, hf⟩
          by_cases hdv : Dictionary v
          · obtain ⟨g, rfl⟩ := hdv
            exact .inl ⟨g, hv, (grantCheck_dict g).1.mp hf⟩
          · exact .inr ⟨v, hv, hdv, (grantCheck_other hdv).1.mp hf⟩
        · rintro (⟨g, hg, h⟩ | ⟨v, hv, hdv, h⟩)
          · exact ⟨_, hg, (grantCheck_dict g).1.mpr h⟩
          · exact ⟨v, hv, (grantCheck_other hdv).1.mpr h⟩
    · cases v with
      | list l => exact absurd ⟨l, rfl⟩ hl
      | _ => simp [fails_ok]

/-! ### Mappings -/

theorem written_cases (d : FDef) : GivenNot d "mappings" Dictionary ∨ ∃ ms, WrittenMappings d ms := by
  cases h : dictGet d "mappings" with
  | none => exact .inr ⟨[], .none (hasKey_none.mpr h)⟩
  | some v =>
    by_cases hd : Dictionary v
    · obtain ⟨ms, rfl⟩ := hd; exact .inr ⟨ms, .some h⟩
    · exact .inl ⟨v, h, hd⟩

theorem written_unique {d ms ms' : FDef} (h : WrittenMappings d ms) (h' : WrittenMappings d ms') : ms = ms' := by
  cases h with
  | none h => cases h' with
    | none => rfl
    | some h' => exact absurd ⟨_, h'⟩ h
  | some h => cases h' with
    | none h' => exact absurd ⟨_, h⟩ h'
    | some h' => have := given_unique h h'; cases this; rfl

theorem written_not {d ms : FDef} (h : WrittenMappings d ms) : ¬ GivenNot d "mappings" Dictionary := by
  rintro ⟨v, hv, hn⟩
  cases h with
  | none h => exact h ⟨v, hv⟩
  | some h => have := given_unique h hv; subst this; exact hn ⟨_, rfl⟩

theorem mappingsOf_written {env : ModelCheckEnv} {d ms : FDef} (h : WrittenMappings d ms) : mappingsOf env d = addDates env env.order ms := by
  unfold mappingsOf
  cases h with
  | none h => rw [hasKey_none.mp h]
  | some h => rw [show dictGet d "mappings" = _ from h]

theorem mappingsOf_kind {env : ModelCheckEnv} {d : FDef} (h : GivenNot d "mappings" Dictionary) : mappingsOf env d = .error .query := by
  obtain ⟨v, hv, hn⟩ := h
  unfold mappingsOf
  rw [show dictGet d "mappings" = _ from hv]
  cases v with
  | dict g => exact absurd ⟨g, rfl⟩ hn
  | _ => rfl

/-- The mappings of a model: those of the definition, then one for each reserved name. -/
theorem mappingsOf_facts {env : ModelCheckEnv} (hl : ModelLooksUp env) {d ms : FDef} (h : WrittenMappings d ms) :
    ((∃ w ∈ reserved, HasKey ms w) → mappingsOf env d = .error .query) ∧
    ((∀ w ∈ reserved, ¬ HasKey ms w) → ∃ ds, env.dates = .ok ds ∧
      mappingsOf env d = .ok (ms ++ env.order.map (fun w => (w, dateMapping env ds w)))) := by
  obtain ⟨ds, hds, hna⟩ := hl.dates
  have hnd : env.order.Nodup := hl.order.nodup_iff.mpr (by decide +kernel)
  obtain ⟨a1, a2⟩ := addDates_facts hl hds hna env.order ms hnd (fun w hw => hl.order.mem_iff.mp hw)
  rw [mappingsOf_written h]
  constructor
  · rintro ⟨w, hw, hk⟩; exact a1 ⟨w, hl.order.mem_iff.mpr hw, hk⟩
  · intro hn; exact ⟨ds, hds, a2 (fun w hw => hn w (hl.order.mem_iff.mp hw))⟩

theorem datesRaised_false {env : ModelCheckEnv} (hl : ModelLooksUp env) (d : FDef) : datesRaised env d = false := by
  obtain ⟨ds, hds, -⟩ := hl.dates
  unfold datesRaised
  rw [hds]; rfl

theorem mappingsChecks_facts {env : ModelCheckEnv} (hl : ModelLooksUp env) (d : FDef) :
    (Fails (mappingsChecks env d) ↔ ∃ ms, WrittenMappings d ms ∧ (∀ w ∈ reserved, ¬ HasKey ms w) ∧
      ∃ n v, MapReached env ms n v ∧ OneRaises env v) ∧
    ((∃ ps, mappingsChecks env d = .ok ps) → ∀ p, Says (mappingsChecks env d) p ↔
      (p = .mappings ∧ (GivenNot d "mappings" Dictionary ∨ ∃ ms, WrittenMappings d ms ∧
        ((∃ w ∈ reserved, HasKey ms w) ∨ ∃ m ∈ ms, AmbiguousMap env m.2))) ∨
      ∃ ms n q, WrittenMappings d ms ∧ (∀ w ∈ reserved, ¬ HasKey ms w) ∧ MapHas env ms n q ∧ p = .mapping n q) := by
  rcases written_cases d with hk | ⟨ms, hw⟩
  · have hno : ∀ ms, ¬ WrittenMappings d ms := fun ms h => written_not h hk
    have e : mappingsChecks env d = .ok [.mappings] := by
      unfold mappingsChecks; rw [mappingsOf_kind hk, datesRaised_false hl]; simp
    rw [e]
    simp [fails_ok, says_ok, hno, hk]
  · have hnk := written_not hw
    have huni : ∀ {P : FDef → Prop}, (∃ ms', WrittenMappings d ms' ∧ P ms') ↔ P ms := by
      intro P
      constructor
      · rintro ⟨ms', h, hp⟩; have := written_unique hw h; subst this; exact hp
      · exact fun h => ⟨ms, hw, h⟩
    obtain ⟨f1, f2⟩ := mappingsOf_facts hl hw
    rw [huni]
    simp only [huni, hnk, false_or]
    have huni2 : ∀ {p : ModelProblem}, (∃ ms' n q, WrittenMappings d ms' ∧ (∀ w ∈ reserved, ¬ HasKey ms' w) ∧ MapHas env ms' n q ∧ p = .mapping n q) ↔
        (∀ w ∈ reserved, ¬ HasKey ms w) ∧ ∃ n q, MapHas env ms n q ∧ p = .mapping n q := by
      intro p
      constructor
      · rintro ⟨ms', n, q, h, h1, h2, h3⟩
        have := written_unique hw h; subst this; exact ⟨h1, n, q, h2, h3⟩
      · rintro ⟨h1, n, q, h2, h3⟩; exact ⟨ms, n, q, hw, h1, h2, h3⟩
    simp only [huni2]
    by_cases hr : ∃ w ∈ reserved, HasKey ms w
    · have hr' : ¬ ∀ w ∈ reserved, ¬ HasKey ms w := by push Not; exact hr
      have e : mappingsChecks env d = .ok [.mappings] := by
        unfold mappingsChecks; rw [f1 hr, datesRaised_false hl]; simp
      rw [e]
      simp only [fails_ok, says_ok, List.mem_singleton, hr, hr', true_or, and_true, false_and, or_false]
      exact ⟨trivial, fun _ _ => trivial⟩
    · have hr' : ∀ w ∈ reserved, ¬ HasKey ms w := by push Not at hr; exact hr
      obtain ⟨ds, hds, hm⟩ := f2 hr'
      set ex := env.order.map (fun w => (w, dateMapping env ds w)) with hex
      have hclean : ∀ m ∈ ex, ¬ AmbiguousMap env m.2 ∧ ¬ OneRaises env m.2 ∧ ∀ p, ¬ OneHas env m.1 m.2 p := by
        intro m hm
        obtain ⟨w, hw, rfl⟩ := List.mem_map.mp hm
        exact dateMapping_clean (hl.order.mem_iff.mp hw)
      obtain ⟨a1, a2⟩ := allSteps_facts hl (ms ++ ex)
      rw [mapReached_append (P := fun _ v => OneRaises env v) (fun m hm => (hclean m hm).2.1)] at a1
      have hamb : (∃ m ∈ ms ++ ex, AmbiguousMap env m.2) ↔ ∃ m ∈ ms, AmbiguousMap env m.2 := by
        constructor
        · rintro ⟨m, hm, h⟩
          rcases List.mem_append.mp hm with hm | hm
          · exact ⟨m, hm, h⟩
          · exact absurd h (hclean m hm).1
        · rintro ⟨m, hm, h⟩; exact ⟨m, List.mem_append_left _ hm, h⟩
      have hhas : ∀ p, (∃ n v, MapReached env (ms ++ ex) n v ∧ ∃ q, OneHas env n v q ∧ p = ModelProblem.mapping n q) ↔
          ∃ n q, MapHas env ms n q ∧ p = .mapping n q := by
        intro p
        rw [mapReached_append (P := fun n v => ∃ q, OneHas env n v q ∧ p = ModelProblem.mapping n q)
          (fun m hm => by rintro ⟨q, hq, -⟩; exact (hclean m hm).2.2 q hq)]
        constructor
        · rintro ⟨n, v, hr, q, hq, rfl⟩; exact ⟨n, q, mapHas_iff.mp ⟨v, hr, hq⟩, rfl⟩
        · rintro ⟨n, q, h, rfl⟩
          obtain ⟨v, hr, hq⟩ := mapHas_iff.mpr h
          exact ⟨n, v, hr, q, hq, rfl⟩
      have e : mappingsChecks env d = match runUntil (allSteps env (ms ++ ex)) with
          | (ps, none) => .ok ps
          | (ps, some .query) => .ok (ps ++ [.mappings])
          | (_, some e) => .error e := by
        unfold mappingsChecks; rw [hm]; rfl
      rw [e]
      simp only [hamb, hhas] at a2
      rw [eq_true hr']
      simp only [hr, false_or, true_and]
      cases hu : runUntil (allSteps env (ms ++ ex)) with
      | mk ps o =>
        rw [hu] at a1 a2
        simp only at a1 a2
        cases o with
        | none =>
          obtain ⟨b1, b2⟩ := a2 (.inl rfl)
          have hna : ¬ ∃ m ∈ ms, AmbiguousMap env m.2 := by rw [← b1]; simp
          refine ⟨?_, fun _ p => ?_⟩
          · rw [← a1]; simp [fails_ok]
          · simp only [says_ok, b2, hna, and_false, false_or]
        | some x =>
          by_cases hx : x = .query
          · subst hx
            obtain ⟨b1, b2⟩ := a2 (.inr rfl)
            have hya : ∃ m ∈ ms, AmbiguousMap env m.2 := b1.mp rfl
            refine ⟨?_, fun _ p => ?_⟩
            · rw [← a1]
              simp only [fails_ok, false_iff]
              rintro ⟨e, h, h'⟩; cases h'; exact h rfl
            · simp only [says_ok, List.mem_append, b2, List.mem_singleton, hya, and_true]
              exact or_comm
          · have : (match (ps, some x) with
                | (ps, none) => .ok ps
                | (ps, some .query) => .ok (ps ++ [.mappings])
                | (_, some e) => .error e : Res (List ModelProblem)) = .error x := by
              cases x <;> first | rfl | exact absurd rfl hx
            rw [this]
            refine ⟨?_, ?_⟩
            · rw [← a1]; simp only [fails_error, true_iff]; exact ⟨x, hx, rfl⟩
            · rintro ⟨ps, h⟩; cases h

/-! ### The whole report -/

theorem modelErrorsOf_named {env : ModelCheckEnv} {d : FDef} {name : String} (hn : Given d "name" (.str name)) :
    modelErrorsOf env d = seqChecks
      [.ok (if validName name then [] else [.badName]),
       .ok (wants d "connection" Yaml.isStr (.wrongKind "connection") ++ wants d "label" Yaml.isStr (.wrongKind "label") ++
         wants d "fiscal_month_offset" Yaml.isInt (.wrongKind "fiscal_month_offset") ++
         wants d "week_start_day" (Yaml.oneOf weekStartDays) .weekStart ++
         wants d "timezone" env.timezone .timezone ++
         wants d "default_convert_tz" Yaml.isBool (.wrongKind "default_convert_tz")),
       grantsChecks d,
       mappingsChecks env d,
       .ok (unknownKeys (modelKeys ++ ["_file_path"]) .unknownKey d)] := by
  unfold modelErrorsOf
  rw [show dictGet d "name" = _ from hn]

theorem model_fails {env : ModelCheckEnv} (hl : ModelLooksUp env) {d : FDef} {name : String} (hn : Given d "name" (.str name)) :
    Fails (modelErrorsOf env d) ↔ ModelRaises env d := by
  rw [modelErrorsOf_named hn, fails_seq]
  simp only [List.mem_cons, List.not_mem_nil, or_false, exists_eq_or_imp, exists_eq_left, fails_ok, false_or]
  rw [grantsChecks_fails, (mappingsChecks_facts hl d).1]
  constructor
  · rintro (⟨l, h, ⟨g, hg⟩, ⟨g', h1, h2, h3, h4⟩ | ⟨v, h1, h2, h3⟩⟩ | ⟨ms, h1, h2, n, v, h3, q, rfl, h4 | ⟨w, ⟨a, b, h4, h5⟩, h6⟩⟩)
    · exact .grantName h h1 h2 h3 h4
    · exact .grantItem h hg h1 h2 h3
    · exact .noFields h1 h2 h3 h4
    · exact .fieldKind h1 h2 ⟨q, a, b, h3, h4, h5⟩ h6
  · intro h
    cases h with
    | grantName h h1 h2 h3 h4 => exact .inl ⟨_, h, ⟨_, h1⟩, .inl ⟨_, h1, h2, h3, h4⟩⟩
    | grantItem h hg h1 h2 h3 => exact .inl ⟨_, h, ⟨_, hg⟩, .inr ⟨_, h1, h2, h3⟩⟩
    | noFields h1 h2 h3 h4 => exact .inr ⟨_, h1, h2, _, _, h3, _, rfl, .inl h4⟩
    | fieldKind h1 h2 h3 h6 =>
      obtain ⟨q, a, b, h3, h4, h5⟩ := h3
      exact .inr ⟨_, h1, h2, _, _, h3, q, rfl, .inr ⟨_, ⟨a, b, h4, h5⟩, h6⟩⟩

theorem model_says {env : ModelCheckEnv} (hl : ModelLooksUp env) {d : FDef} {name : String} (hn : Given d "name" (.str name))
    (hok : ∃ ps, modelErrorsOf env d = .ok ps) (p : ModelProblem) : Says (modelErrorsOf env d) p ↔ ModelHas env name d p := by
  rw [modelErrorsOf_named hn] at hok ⊢
  obtain ⟨ps0, hps0⟩ := hok
  have hall := (seqChecks_ok hps0).1
  have hg := hall (grantsChecks d) (by simp)
  have hm := hall (mappingsChecks env d) (by simp)
  rw [says_seq ⟨ps0, hps0⟩]
  simp only [List.mem_cons, List.not_mem_nil, or_false, exists_eq_or_imp, exists_eq_left]
  have hbad : p ∈ (if validName name then [] else [ModelProblem.badName]) ↔ p = .badName ∧ ¬ ProperName name := by
    by_cases h : ProperName name
    · rw [if_pos (properName_true.mpr h)]; simp [h]
    · rw [properName_iff.mpr h]; simp [h]
  have hkeys : ∀ k, (k ∈ modelKeys ++ ["_file_path"]) ↔ k ∈ ["version", "type", "name", "label", "connection", "week_start_day", "timezone",
      "default_convert_tz", "fiscal_month_offset", "access_grants", "mappings", "_file_path"] := fun k => Iff.rfl
  simp only [says_ok]
  rw [hbad, grantsChecks_says hg, (mappingsChecks_facts hl d).2 hm, unknownKeys_mem]
  simp only [hkeys]
  simp only [List.mem_append, wants_kind isStr_iff, wants_kind isInt_iff, wants_kind isBool_iff, wants_kind (oneOf_iff weekStartDays), wants_mem]
  clear hbad
  constructor
  · rintro (⟨rfl, h⟩ | (((((⟨rfl, h⟩ | ⟨rfl, h⟩) | ⟨rfl, h⟩) | ⟨rfl, h⟩) | ⟨rfl, v, h, h'⟩) | ⟨rfl, h⟩) |
      (⟨rfl, h⟩ | ⟨rfl, l, h, h'⟩ | ⟨l, g, q, h, h', h'', rfl⟩ | ⟨rfl, l, g, v, h, h', h'', h'''⟩) |
      (⟨rfl, h | ⟨ms, h, ⟨w, h1, h2⟩ | ⟨m, h1, h2⟩⟩⟩ | ⟨ms, n, q, h, h', h'', rfl⟩) | ⟨k, h, h', rfl⟩)
    · exact .name h
    · exact .text (by simp) h
    · exact .text (by simp) h
    · exact .offset h
    · exact .weekStart h
    · exact .timezone h h'
    · exact .convert h
    · exact .grantsKind h
    · exact .noGrant h h'
    · exact .grant h h' h''
    · exact .grantItem h h' h'' h'''
    · exact .mappingsKind h
    · exact .reserved h h1 h2
    · exact .ambiguous h h1 h2
    · exact .mapping h h' h''
    · exact .key h h'
  · intro h
    cases h with
    | name h => exact .inl ⟨rfl, h⟩
    | text h1 h2 =>
      simp only [List.mem_cons, List.not_mem_nil, or_false] at h1
      rcases h1 with rfl | rfl
      · exact .inr (.inl (.inl (.inl (.inl (.inl (.inl ⟨rfl, h2⟩))))))
      · exact .inr (.inl (.inl (.inl (.inl (.inl (.inr ⟨rfl, h2⟩))))))
    | offset h => exact .inr (.inl (.inl (.inl (.inl (.inr ⟨rfl, h⟩)))))
    | weekStart h => exact .inr (.inl (.inl (.inl (.inr ⟨rfl, h⟩))))
    | timezone h h' => exact .inr (.inl (.inl (.inr ⟨rfl, _, h, h'⟩)))
    | convert h => exact .inr (.inl (.inr ⟨rfl, h⟩))
    | grantsKind h => exact .inr (.inr (.inl (.inl ⟨rfl, h⟩)))
    | noGrant h h' => exact .inr (.inr (.inl (.inr (.inl ⟨rfl, _, h, h'⟩))))
    | grant h h' h'' => exact .inr (.inr (.inl (.inr (.inr (.inl ⟨_, _, _, h, h', h'', rfl⟩)))))
    | grantItem h h' h'' h''' => exact .inr (.inr (.inl (.inr (.inr (.inr ⟨rfl, _, _, _, h, h', h'', h'''⟩)))))
    | mappingsKind h => exact .inr (.inr (.inr (.inl (.inl ⟨rfl, .inl h⟩))))
    | reserved h h1 h2 => exact .inr (.inr (.inr (.inl (.inl ⟨rfl, .inr ⟨_, h, .inl ⟨_, h1, h2⟩⟩⟩))))
    | ambiguous h h1 h2 => exact .inr (.inr (.inr (.inl (.inl ⟨rfl,   .inr ⟨_, h, .inr ⟨(_, _), h1, h2⟩⟩⟩))))
    | mapping h h' h'' => exact .inr (.inr (.inr (.inl (.inr ⟨_, _, _, h, h', h'', rfl⟩))))
    | key h h' => exact .inr (.inr (.inr (.inr ⟨_, h, h', rfl⟩)))

/-! ### The order of the dates -/

theorem firstDates_nodup : ∀ l : List (Option String), (firstDates l).Nodup
  | [] => by simp [firstDates]
  | x :: l => by
    simp only [firstDates, List.nodup_cons]
    exact ⟨by simp [List.mem_filter], (firstDates_nodup l).filter _⟩

theorem firstDates_order : ∀ l : List (Option String), (firstDates l).Pairwise (fun a b => l.idxOf a < l.idxOf b)
  | [] => by simp [firstDates]
  | x :: l => by
    simp only [firstDates, List.pairwise_cons]
    constructor
    · intro y hy
      have hne : y ≠ x := by simpa using (List.mem_filter.mp hy).2
      rw [List.idxOf_cons_self, List.idxOf_cons_ne _ (Ne.symm hne)]
      omega
    · have := (firstDates_order l).filter (fun y => y != x)
      refine this.imp_of_mem ?_
      intro a b ha hb h
      have hna : a ≠ x := by simpa using (List.mem_filter.mp ha).2
      have hnb : b ≠ x := by simpa using (List.mem_filter.mp hb).2
      rw [List.idxOf_cons_ne _ (Ne.symm hna), List.idxOf_cons_ne _ (Ne.symm hnb)]
      omega

theorem dateRanks_nodup (l : List (Option String)) : (dateRanks l).Nodup :=
  (List.perm_insertionSort _ _).nodup_iff.mpr (firstDates_nodup l)

theorem dateRanks_order (l : List (Option String)) : (dateRanks l).Pairwise (fun a b =>
    l.count b < l.count a ∨ (l.count b = l.count a ∧ l.idxOf a < l.idxOf b)) := by
  have htrans : IsTrans (Option String) (fun a b => l.count b ≤ l.count a) := ⟨fun _ _ _ h1 h2 => Nat.le_trans h2 h1⟩
  have htotal : Std.Total (fun a b : Option String => l.count b ≤ l.count a) := ⟨fun a b => Nat.le_total _ _⟩
  have hs : (dateRanks l).Pairwise (fun a b => l.count b ≤ l.count a) :=
    List.pairwise_insertionSort (fun a b : Option String => l.count b ≤ l.count a) (firstDates l)
  rw [List.pairwise_iff_forall_sublist]
  intro a b hab
  have hle : l.count b ≤ l.count a := List.pairwise_iff_forall_sublist.mp hs hab
  rcases Nat.lt_or_ge (l.count b) (l.count a) with h | h
  · exact .inl h
  · refine .inr ⟨by omega, ?_⟩
    have hne : a ≠ b := by
      have := (dateRanks_nodup l).sublist hab
      simpa using this
    have hfa : a ∈ firstDates l := mem_firstDates.mpr (mem_dateRanks.mp (hab.subset (by simp)))
    have hfb : b ∈ firstDates l := mem_firstDates.mpr (mem_dateRanks.mp (hab.subset (by simp)))
    by_contra hi
    have hba : [b, a].Sublist (firstDates l) := by
      have ho := firstDates_order l
      obtain ⟨s, t, hst⟩ := List.append_of_mem hfa
      rw [hst] at hfb ho ⊢
      have hb : b ∈ s := by
        rcases List.mem_append.mp hfb with hb | hb
        · exact hb
        · rcases List.mem_cons.mp hb with hb | hb
          · exact absurd hb.symm hne
          · exact absurd ((List.pairwise_cons.mp (List.pairwise_append.mp ho).2.1).1 b hb) hi
      have h1 : [b].Sublist s := List.singleton_sublist.mpr hb
      have h2 : [a].Sublist (a :: t) := List.singleton_sublist.mpr (by simp)
      exact h1.append h2
    have hbm : [b, a].Sublist (dateRanks l) := List.pair_sublist_insertionSort (r := fun a b : Option String => l.count b ≤ l.count a) h hba
    have hnd := dateRanks_nodup l
    obtain ⟨s, t, hst⟩ := List.append_of_mem (hab.subset (by simp : a ∈ [a, b]))
    have order : ∀ {m : List (Option String)} {x y : Option String}, m.Nodup → x ≠ y → [x, y].Sublist m → m.idxOf x < m.idxOf y := by
      intro m x y hnd hne hsub
      induction m with
      | nil => cases hsub
      | cons z m ih =>
        cases hsub with
        | cons _ h =>
          have hx : x ≠ z := by
            rintro rfl; exact (List.nodup_cons.mp hnd).1 (h.subset (by simp))
          have hy : y ≠ z := by
            rintro rfl; exact (List.nodup_cons.mp hnd).1 (h.subset (by simp))
          rw [List.idxOf_cons_ne _ (Ne.symm hx), List.idxOf_cons_ne _ (Ne.symm hy)]
          have := ih (List.nodup_cons.mp hnd).2 h
          omega
        | cons_cons _ h =>
          rw [List.idxOf_cons_self, List.idxOf_cons_ne _ hne]
          omega
    have o1 := order hnd hne hab
    have o2 := order hnd (Ne.symm hne) hbm
    omega

theorem datesFor_ranked {env : ModelCheckEnv} {ds : List (Option String)} {w : String} : DatesRanked env ds w (datesFor env w (dateRanks ds)) := by
  refine ⟨_, rfl, ?_, ?_, ?_⟩
  · refine List.Nodup.filter _ (List.Nodup.filterMap ?_ (dateRanks_nodup ds))
    intro a b c ha hb
    simp only [id_eq, Option.mem_def] at ha hb
    rw [ha, hb]
  · intro x
    rw [List.mem_filter, List.mem_filterMap]
    simp only [id_eq, exists_eq_right, mem_dateRanks]
    refine and_congr_right (fun _ => ?_)
    cases env.getText (x ++ "_" ++ w) with
    | ok f => simp [Except.toOption]
    | error e => simp [Except.toOption]
  · refine List.Pairwise.filter _ ?_
    rw [List.pairwise_filterMap]
    refine (dateRanks_order ds).imp ?_
    intro a b h x hx y hy
    simp only [id_eq] at hx hy
    rw [← hx, ← hy]; exact h

end ML
