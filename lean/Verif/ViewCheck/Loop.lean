import Verif.ViewCheck.Identifiers
/-
Helper lemmas for C63: the loop over the identifiers of a view.
-/
set_option autoImplicit false
namespace ML
open Spec

theorem missing_eq {α π : Type} {r : Res α} {p : π} {e : Err} : missingField r p = .error e ↔ r = .error e ∧ e ≠ .accessDenied := by
  unfold missingField
  cases r with
  | ok a => simp
  | error e' => cases e' <;> cases e <;> simp

/-- When validation of one identifier raises. -/
theorem identifierChecks_error {env : ViewEnv} {view : String} {i : FDef} (hf : FormedId i) {e : Err}
    (h : identifierChecks env view i = .error e) : ∃ o n, LookedUp view i o n ∧ env.base.getText n = .error e := by
  obtain ⟨v, hv⟩ := hf.name
  obtain ⟨w, hw⟩ := hf.type
  have h1 : dictGet i "name" = some v := hv
  have h2 : dictGet i "type" = some w := hw
  unfold identifierChecks at h
  rw [h1] at h
  cases v with
  | str name =>
    simp only at h
    rw [h2] at h
    cases w with
    | str t =>
      simp only at h
      split at h
      · rename_i ht
        unfold typedChecks at h
        by_cases hj : t = "join"
        · simp only [seqChecks, hj, if_true] at h; cases h
        · simp only [seqChecks, if_neg hj] at h
          have hk : KeyNamed i name := by
            refine ⟨hv, ?_⟩
            simp only [List.contains_eq_mem, List.mem_cons, List.not_mem_nil, or_false, decide_eq_true_eq] at ht
            rcases ht with rfl | rfl | rfl
            · exact .inl hw
            · exact .inr hw
            · exact absurd rfl hj
          cases hc : keyChecks env view name i with
          | error e' => rw [hc] at h; cases h; exact keyChecks_error hk hc
          | ok qs => rw [hc] at h; cases h
      · cases h
    | _ => cases h
  | _ => cases h

theorem identifierChecks_ambiguous {env : ViewEnv} {view : String} {i : FDef} (ha : AmbiguousId env view i) :
    Fails (identifierChecks env view i) := by
  obtain ⟨o, n, hl, he⟩ := ha
  have key : ∃ name, KeyNamed i name := by
    cases hl with
    | sql h _ _ _ _ => exact ⟨_, h⟩
    | own h _ _ => exact ⟨_, h⟩
  obtain ⟨name, hk⟩ := key
  have hfail : Fails (keyChecks env view name i) := keyChecks_fails hk hl he (by decide)
  obtain ⟨hn, ht⟩ := hk
  unfold identifierChecks
  rw [show dictGet i "name" = _ from hn]
  simp only
  rcases ht with ht | ht
  · rw [show dictGet i "type" = _ from ht]
    simp only
    rw [if_pos (by decide), fails_seq]
    exact ⟨_, List.mem_cons_of_mem _ List.mem_cons_self, hfail⟩
  · rw [show dictGet i "type" = _ from ht]
    simp only
    rw [if_pos (by decide), fails_seq]
    exact ⟨_, List.mem_cons_of_mem _ List.mem_cons_self, hfail⟩

theorem identifierChecks_query {env : ViewEnv} {view : String} {i : FDef} (hf : FormedId i)
    (h : identifierChecks env view i = .error .query) : AmbiguousId env view i := identifierChecks_error hf h

/-! ### Names -/

theorem numberOf_iff {v : Yaml} {q : ℚ} : NumberOf v q ↔ v.number? = some q := by
  constructor
  · intro h; cases h <;> simp [Yaml.number?]
  · intro h
    cases v with
    | bool b =>
      cases b
      · simp [Yaml.number?] at h; subst h; exact .no
      · simp [Yaml.number?] at h; subst h; exact .yes
    | int n => simp [Yaml.number?] at h; subst h; exact .int
    | float q' => simp [Yaml.number?] at h; subst h; exact .float
    | _ => simp [Yaml.number?] at h

theorem sameName_iff {v w : Yaml} : SameName v w ↔ v.same w = true := by
  have key : SameName v w ↔ (∃ s, v = .str s ∧ w = .str s) ∨ (v = .null ∧ w = .null) ∨ ∃ q, v.number? = some q ∧ w.number? = some q := by
    constructor
    · intro h
      cases h with
      | text => exact .inl ⟨_, rfl, rfl⟩
      | null => exact .inr (.inl ⟨rfl, rfl⟩)
      | number h1 h2 => exact .inr (.inr ⟨_, numberOf_iff.mp h1, numberOf_iff.mp h2⟩)
    · rintro (⟨s, rfl, rfl⟩ | ⟨rfl, rfl⟩ | ⟨q, h1, h2⟩)
      · exact .text
      · exact .null
      · exact .number (numberOf_iff.mpr h1) (numberOf_iff.mpr h2)
  rw [key]
  cases v <;> cases w <;> simp [Yaml.same, Yaml.number?, eq_comm]

theorem noName_iff {v : Yaml} : NoName v ↔ v.hashable = false := by
  unfold NoName Listed Dictionary
  cases v <;> simp [Yaml.hashable]

theorem nameOf_given {i : FDef} {v : Yaml} (h : Given i "name" v) : nameOf i = v := by
  unfold nameOf; rw [show dictGet i "name" = _ from h]; rfl

theorem given_nameOf {i : FDef} (h : HasKey i "name") : Given i "name" (nameOf i) := by
  obtain ⟨v, hv⟩ := h
  rw [nameOf_given hv]; exact hv

theorem usedCheck_says {env : ViewEnv} {used : List Yaml} {i : FDef} (hok : ∃ ps, usedCheck env used i = .ok ps) {p : ViewProblem} :
    Says (usedCheck env used i) p ↔ p = .duplicateIdentifier (showYaml env (nameOf i)) ∧ ∃ u ∈ used, SameName u (nameOf i) := by
  unfold usedCheck at *
  by_cases hh : (nameOf i).hashable = false
  · rw [if_pos hh] at hok; obtain ⟨_, h⟩ := hok; cases h
  · rw [if_neg hh, says_ok]
    simp only [sameName_iff]
    by_cases hu : used.any (·.same (nameOf i)) = true
    · rw [if_pos hu]; simp at hu; simp [hu]
    · rw [if_neg hu]
      simp only [List.any_eq_true] at hu
      simp only [List.not_mem_nil, false_iff]
      rintro ⟨-, h⟩; exact hu h

theorem usedCheck_fails {env : ViewEnv} {used : List Yaml} {i : FDef} : Fails (usedCheck env used i) ↔ NoName (nameOf i) := by
  unfold usedCheck
  rw [noName_iff]
  by_cases hh : (nameOf i).hashable = false
  · simp [hh, fails_error]
  · rw [if_neg hh]; simp [hh, fails_ok]

theorem usedCheck_error {env : ViewEnv} {used : List Yaml} {i : FDef} {e : Err} (h : usedCheck env used i = .error e) : e = .typeError := by
  unfold usedCheck at h
  split at h
  · cases h; rfl
  · cases h

/-- The parts of a composite identifier that have no identifier. -/
def PartHas (env : ViewEnv) (all : List FDef) (i : FDef) (p : ViewProblem) : Prop :=
  ∃ l q, Given i "identifiers" (.list l) ∧ Yaml.dict q ∈ l ∧ (∀ j ∈ all, ¬ SameName (nameOf j) (nameOf q)) ∧
    p = .compositeUnknown (showYaml env (nameOf i)) (showYaml env (nameOf q))

theorem partCheck_says {env : ViewEnv} {all : List FDef} {i q : FDef} (hok : ∃ ps, partCheck env all i (.dict q) = .ok ps) {p : ViewProblem} :
    Says (partCheck env all i (.dict q)) p ↔ (∀ j ∈ all, ¬ SameName (nameOf j) (nameOf q)) ∧
      p = .compositeUnknown (showYaml env (nameOf i)) (showYaml env (nameOf q)) := by
  unfold partCheck at *
  simp only at hok ⊢
  by_cases hh : all.all (fun j => (nameOf j).hashable) = false ∨ (nameOf q).hashable = false
  · rw [if_pos hh] at hok; obtain ⟨_, h⟩ := hok; cases h
  · rw [if_neg hh, says_ok]
    simp only [sameName_iff]
    by_cases hu : all.any (fun j => (nameOf j).same (nameOf q)) = true
    · rw [if_pos hu]
      simp only [List.any_eq_true] at hu
      obtain ⟨j, hj, hs⟩ := hu
      simp only [List.not_mem_nil, false_iff]
      rintro ⟨h, -⟩; exact h j hj hs
    · rw [if_neg hu]
      simp only [List.any_eq_true, not_exists, not_and] at hu
      simp only [List.mem_singleton]
      constructor
      · intro h; exact ⟨hu, h⟩
      · rintro ⟨-, h⟩; exact h

theorem partsCheck_says {env : ViewEnv} {all : List FDef} {i : FDef} (hf : FormedId i) (hok : ∃ ps, partsCheck env all i = .ok ps)
    {p : ViewProblem} : Says (partsCheck env all i) p ↔ PartHas env all i p := by
  unfold partsCheck PartHas at *
  cases h : dictGet i "identifiers" with
  | none => simp [says_ok, given_none h]
  | some v =>
    obtain ⟨l, rfl, hl⟩ := hf.parts v h
    rw [h] at hok
    simp only at hok
    simp only [given_some h, Yaml.list.injEq]
    rw [says_forEach hok]
    have hall : ∀ v ∈ l, ∃ ps, partCheck env all i v = .ok ps := by
      intro v hv
      rw [← not_fails] at hok ⊢
      exact fun hc => hok (fails_forEach.mpr ⟨v, hv, hc⟩)
    constructor
    · rintro ⟨v, hv, hs⟩
      obtain ⟨q, rfl, -⟩ := hl v hv
      obtain ⟨h1, h2⟩ := (partCheck_says (hall _ hv)).mp hs
      exact ⟨l, q, rfl, hv, h1, h2⟩
    · rintro ⟨_, q, rfl, hv, h1, h2⟩
      exact ⟨_, hv, (partCheck_says (hall _ hv)).mpr ⟨h1, h2⟩⟩

theorem partCheck_fails {env : ViewEnv} {all : List FDef} {i q : FDef} :
    Fails (partCheck env all i (.dict q)) ↔ (∃ j ∈ all, NoName (nameOf j)) ∨ NoName (nameOf q) := by
  unfold partCheck
  simp only [noName_iff]
  by_cases hh : all.all (fun j => (nameOf j).hashable) = false ∨ (nameOf q).hashable = false
  · rw [if_pos hh]
    simp only [fails_error, true_iff]
    rcases hh with hh | hh
    · left; simpa using hh
    · exact .inr hh
  · rw [if_neg hh]
    simp only [fails_ok, false_iff]
    simpa using hh

theorem partsCheck_fails {env : ViewEnv} {all : List FDef} {i : FDef} (hf : FormedId i) :
    Fails (partsCheck env all i) ↔ ∃ l q, Given i "identifiers" (.list l) ∧ Yaml.dict q ∈ l ∧
      ((∃ j ∈ all, NoName (nameOf j)) ∨ NoName (nameOf q)) := by
  unfold partsCheck
  cases h : dictGet i "identifiers" with
  | none => simp [fails_ok, given_none h]
  | some v =>
    obtain ⟨l, rfl, hl⟩ := hf.parts v h
    simp only [given_some h, Yaml.list.injEq]
    rw [fails_forEach]
    constructor
    · rintro ⟨v, hv, hs⟩
      obtain ⟨q, rfl, -⟩ := hl v hv
      exact ⟨l, q, rfl, hv, partCheck_fails.mp hs⟩
    · rintro ⟨_, q, rfl, hv, hs⟩
      exact ⟨_, hv, partCheck_fails.mpr hs⟩

theorem seqChecks_error {π : Type} {l : List (Res (List π))} {e : Err} (h : seqChecks l = .error e) : Except.error e ∈ l := by
  induction l with
  | nil => cases h
  | cons c l ih =>
    cases c with
    | error e' => cases h; exact List.mem_cons_self
    | ok qs =>
      simp only [seqChecks] at h
      cases h' : seqChecks l with
      | error e' => rw [h'] at h; cases h; exact List.mem_cons_of_mem _ (ih h')
      | ok rs => rw [h'] at h; cases h

theorem partsCheck_error {env : ViewEnv} {all : List FDef} {i : FDef} {e : Err} (h : partsCheck env all i = .error e) :
    e = .typeError ∨ e = .attributeError := by
  unfold partsCheck at h
  split at h
  · obtain ⟨v, -, hv⟩ := List.mem_map.mp (seqChecks_error h)
    unfold partCheck at hv
    split at hv
    · split at hv
      · cases hv; exact .inl rfl
      · cases hv
    · cases hv; exact .inr rfl
  · cases h; exact .inr rfl
  · cases h

/-! ### The loop -/

/-- What is said in one turn of the loop. -/
def TurnSays (env : ViewEnv) (view : String) (all before : List FDef) (i : FDef) (p : ViewProblem) : Prop :=
  (∃ q, IdHas env view i q ∧ p = .identifier (showYaml env (nameOf i)) q) ∨
  (p = .duplicateIdentifier (showYaml env (nameOf i)) ∧ ∃ j ∈ before, SameName (nameOf j) (nameOf i)) ∨
  PartHas env all i p

theorem reached_cons {env : ViewEnv} {view : String} {i : FDef} {l : List FDef} (hna : ¬ AmbiguousId env view i)
    {P : List FDef → FDef → Prop} :
    (∃ before j after, Reached env view (i :: l) before j after ∧ P before j) ↔
      P [] i ∨ ∃ before j after, Reached env view l before j after ∧ P (i :: before) j := by
  constructor
  · rintro ⟨before, j, after, ⟨hl, hn⟩, ht⟩
    cases before with
    | nil =>
      rw [List.nil_append, List.cons.injEq] at hl
      obtain ⟨rfl, rfl⟩ := hl
      exact .inl ht
    | cons b before =>
      rw [List.cons_append, List.cons.injEq] at hl
      obtain ⟨rfl, rfl⟩ := hl
      refine .inr ⟨before, j, after, ⟨rfl, fun k hk => hn k ?_⟩, ht⟩
      rw [List.cons_append, List.mem_cons]
      exact .inr hk
  · rintro (ht | ⟨before, j, after, ⟨rfl, hn⟩, ht⟩)
    · exact ⟨[], i, l, ⟨rfl, by simpa using hna⟩, ht⟩
    · refine ⟨i :: before, j, after, ⟨rfl, ?_⟩, ht⟩
      intro k hk
      rw [List.cons_append, List.mem_cons] at hk
      rcases hk with rfl | hk
      · exact hna
      · exact hn k hk

theorem reached_not {env : ViewEnv} {view : String} {i : FDef} {l : List FDef} (ha : AmbiguousId env view i)
    {P : List FDef → FDef → Prop} : ¬ ∃ before j after, Reached env view (i :: l) before j after ∧ P before j := by
  rintro ⟨before, j, after, ⟨hl, hn⟩, -⟩
  cases before with
  | nil => rw [List.nil_append, List.cons.injEq] at hl; exact hn j (by simp) (hl.1 ▸ ha)
  | cons b before => rw [List.cons_append, List.cons.injEq] at hl; exact hn b (by simp) (hl.1 ▸ ha)

theorem turn_says {env : ViewEnv} {view : String} {all done : List FDef} {i : FDef} (hf : FormedId i) {q1 : List IdProblem}
    {q2 q3 : List ViewProblem} (h1 : identifierChecks env view i = .ok q1) (h2 : usedCheck env (done.map nameOf) i = .ok q2)
    (h3 : partsCheck env all i = .ok q3) (p : ViewProblem) :
    (p ∈ q1.map (ViewProblem.identifier (showYaml env (nameOf i))) ∨ p ∈ q2 ∨ p ∈ q3) ↔ TurnSays env view all done i p := by
  have s1 := fun q => identifierChecks_says (env := env) (view := view) hf ⟨q1, h1⟩ (p := q)
  have s2 := usedCheck_says (env := env) (used := done.map nameOf) (i := i) ⟨q2, h2⟩ (p := p)
  have s3 := partsCheck_says (env := env) (all := all) hf ⟨q3, h3⟩ (p := p)
  rw [h2, says_ok] at s2
  rw [h3, says_ok] at s3
  unfold TurnSays
  refine or_congr ?_ (or_congr ?_ s3)
  · rw [List.mem_map]
    constructor
    · rintro ⟨q, hq, rfl⟩; exact ⟨q, (s1 q).mp (by rw [h1, says_ok]; exact hq), rfl⟩
    · rintro ⟨q, hq, rfl⟩
      have := (s1 q).mpr hq
      rw [h1, says_ok] at this
      exact ⟨q, this, rfl⟩
  · rw [s2]
    simp

theorem steps_says {env : ViewEnv} {view : String} {all : List FDef} : ∀ {l done : List FDef} {ps : List ViewProblem} {o : Option Err},
    (∀ i ∈ l, FormedId i) → runUntil (identifierSteps env view all (done.map nameOf) l) = (ps, o) → (o = none ∨ o = some .query) →
    (o = some .query ↔ ∃ i ∈ l, AmbiguousId env view i) ∧
    ∀ p, p ∈ ps ↔ ∃ before i after, Reached env view l before i after ∧ TurnSays env view all (done ++ before) i p
  | [], done, ps, o, _, h, _ => by
    simp only [identifierSteps, runUntil] at h
    cases h
    refine ⟨by simp, fun p => ?_⟩
    simp only [List.not_mem_nil, false_iff]
    rintro ⟨before, i, after, ⟨h, -⟩, -⟩
    simp at h
  | i :: l, done, ps, o, hf, h, ho => by
    have hfi := hf i List.mem_cons_self
    simp only [identifierSteps] at h
    cases hc : identifierChecks env view i with
    | error e =>
      rw [hc] at h
      simp only [tagged, runUntil] at h
      cases h
      have he : e = .query := by
        rcases ho with h | h
        · cases h
        · cases h; rfl
      subst he
      have ha := identifierChecks_query hfi hc
      refine ⟨⟨fun _ => ⟨i, List.mem_cons_self, ha⟩, fun _ => rfl⟩, fun p => ?_⟩
      simp only [List.not_mem_nil, false_iff]
      exact reached_not ha
    | ok q1 =>
      have hna : ¬ AmbiguousId env view i := by
        intro ha
        obtain ⟨e, he⟩ := identifierChecks_ambiguous ha
        rw [hc] at he; cases he
      rw [hc] at h
      simp only [tagged, runUntil] at h
      cases hu : usedCheck env (done.map nameOf) i with
      | error e =>
        rw [hu] at h
        simp only [runUntil] at h
        cases h
        have := usedCheck_error hu
        subst this
        rcases ho with h | h <;> cases h
      | ok q2 =>
        rw [hu] at h
        simp only [runUntil] at h
        cases hp : partsCheck env all i with
        | error e =>
          rw [hp] at h
          simp only [runUntil] at h
          cases h
          rcases partsCheck_error hp with rfl | rfl <;> · rcases ho with h | h <;> cases h
        | ok q3 =>
          rw [hp] at h
          simp only [runUntil] at h
          cases hr : runUntil (identifierSteps env view all (done.map nameOf ++ [nameOf i]) l) with
          | mk rs o' =>
            rw [hr] at h
            simp only [Prod.mk.injEq] at h
            obtain ⟨rfl, rfl⟩ := h
            have hr' : runUntil (identifierSteps env view all ((done ++ [i]).map nameOf) l) = (rs, o') := by
              rw [List.map_append]; exact hr
            obtain ⟨i1, i2⟩ := steps_says (fun j hj => hf j (List.mem_cons_of_mem _ hj)) hr' ho
            refine ⟨?_, fun p => ?_⟩
            · rw [i1]
              simp [hna]
            · have t := turn_says hfi hc hu hp p
              rw [reached_cons hna, List.mem_append, List.mem_append, List.mem_append, i2 p]
              simp only [List.append_nil, ← t, List.append_assoc, List.nil_append, List.cons_append, or_assoc]

theorem reached_ambiguous {env : ViewEnv} {view : String} {ids before after : List FDef} {i : FDef} (h : Reached env view ids before i after) :
    i ∈ ids := by rw [h.1]; simp

theorem identifiers_says {env : ViewEnv} {view : String} {d : FDef} (hok : ∃ ps, identifiersChecks env view d = .ok ps) {p : ViewProblem} :
    Says (identifiersChecks env view d) p ↔ (p = .identifiers ∧ ∀ ids, ¬ IdentifiersAre d ids) ∨
      ∃ ids, IdentifiersAre d ids ∧ ((p = .identifiers ∧ ∃ i ∈ ids, AmbiguousId env view i) ∨
        ∃ before i after, Reached env view ids before i after ∧ TurnSays env view ids before i p) := by
  unfold identifiersChecks at *
  cases hi : viewIdentifiers d with
  | error e =>
    obtain ⟨rfl, hno⟩ := viewIdentifiers_error hi
    simp only [says_ok, List.mem_singleton]
    simp only [hno, false_and, exists_false, or_false, not_false_eq_true, implies_true, and_true]
  | ok ids =>
    rw [hi] at hok
    simp only at hok ⊢
    have hids := viewIdentifiers_ok.mp hi
    have huniq : ∀ ids', IdentifiersAre d ids' ↔ ids' = ids := by
      intro ids'
      rw [← viewIdentifiers_ok, hi]
      simp [eq_comm]
    have hf : ∀ i ∈ ids, FormedId i := by
      rcases hids with ⟨-, rfl⟩ | ⟨-, h⟩
      · simp
      · exact h
    cases hr : runUntil (identifierSteps env view ids [] ids) with
    | mk ps o =>
      rw [hr] at hok
      have hsay : ∀ (ho : o = none ∨ o = some .query), _ := fun ho => steps_says (done := []) hf hr ho
      have hne : ¬ ∀ ids', ¬ IdentifiersAre d ids' := fun h => h ids hids
      simp only [hne, and_false, false_or]
      simp only [huniq, exists_eq_left]
      cases o with
      | none =>
        obtain ⟨h1, h2⟩ := hsay (.inl rfl)
        simp only [says_ok, h2 p, List.nil_append]
        have : ¬ ∃ i ∈ ids, AmbiguousId env view i := fun h => by have := h1.mpr h; cases this
        simp only [this, and_false, false_or]
      | some e =>
        have he : e = .query := by
          cases e <;> first | rfl | (obtain ⟨_, h⟩ := hok; cases h)
        subst he
        obtain ⟨h1, h2⟩ := hsay (.inr rfl)
        simp only [says_ok, List.mem_append, h2 p, List.nil_append, List.mem_singleton]
        have : ∃ i ∈ ids, AmbiguousId env view i := h1.mp rfl
        simp only [this, and_true]
        exact or_comm

/-- What makes the loop raise. -/
def TurnFails (all : List FDef) (i : FDef) : Prop :=
  NoName (nameOf i) ∨ ∃ l q, Given i "identifiers" (.list l) ∧ Yaml.dict q ∈ l ∧ ((∃ j ∈ all, NoName (nameOf j)) ∨ NoName (nameOf q))

theorem identifierChecks_fails {env : ViewEnv} (hl : ViewLooksUp env) {view : String} {i : FDef} (hf : FormedId i) {e : Err}
    (h : identifierChecks env view i = .error e) : e = .query := by
  obtain ⟨o, n, h1, h2⟩ := identifierChecks_error hf h
  rcases hl.getText n e h2 with rfl | rfl
  · exfalso
    -- a missing field is reported, it does not raise
    have : identifierChecks env view i ≠ .error .accessDenied := by
      intro hc
      unfold identifierChecks at hc
      split at hc
      · split at hc
        · split at hc
          · have := seqChecks_error hc
            unfold typedChecks at this
            simp only [List.mem_cons, reduceCtorEq, List.not_mem_nil, or_false, false_or] at this
            split at this
            · cases this
            · unfold keyChecks at this
              split at this
              · split at this
                · obtain ⟨m, -, hm⟩ := List.mem_map.mp (seqChecks_error this.symm)
                  split at hm
                  · cases hm
                  · exact (missing_eq.mp hm).2 rfl
                · cases this
              · cases this
              · split at this
                · exact (missing_eq.mp this.symm).2 rfl
                · cases this
          · cases hc
        · cases hc
        · cases hc
      · cases hc
      · cases hc
    exact this h
  · rfl

theorem steps_fails {env : ViewEnv} (hl : ViewLooksUp env) {view : String} {all : List FDef} : ∀ {l : List FDef} {used : List Yaml},
    (∀ i ∈ l, FormedId i) → ((∃ e, e ≠ .query ∧ (runUntil (identifierSteps env view all used l)).2 = some e) ↔
      ∃ before i after, Reached env view l before i after ∧ TurnFails all i)
  | [], used, _ => by
    simp only [identifierSteps, runUntil]
    constructor
    · rintro ⟨e, -, h⟩; cases h
    · rintro ⟨before, i, after, ⟨h, -⟩, -⟩; simp at h
  | i :: l, used, hf => by
    have hfi := hf i List.mem_cons_self
    simp only [identifierSteps]
    cases hc : identifierChecks env view i with
    | error e =>
      have := identifierChecks_fails hl hfi hc
      subst this
      have ha := identifierChecks_query hfi hc
      simp only [tagged, runUntil]
      constructor
      · rintro ⟨e, hne, h⟩; cases h; exact absurd rfl hne
      · intro h; exact absurd h (reached_not ha)
    | ok q1 =>
      have hna : ¬ AmbiguousId env view i := by
        intro ha
        obtain ⟨e, he⟩ := identifierChecks_ambiguous ha
        rw [hc] at he; cases he
      have here : TurnFails all i → ∃ before j after, Reached env view (i :: l) before j after ∧ TurnFails all j :=
        fun h => ⟨[], i, l, ⟨rfl, by simpa using hna⟩, h⟩
      simp only [tagged, runUntil]
      cases hu : usedCheck env used i with
      | error e =>
        have := usedCheck_error hu
        subst this
        simp only [runUntil]
        constructor
        · intro _; exact here (.inl (usedCheck_fails.mp ⟨_, hu⟩))
        · intro _; exact ⟨_, by decide, rfl⟩
      | ok q2 =>
        have n2 : ¬ NoName (nameOf i) := by
          rw [← usedCheck_fails (env := env) (used := used), not_fails]; exact ⟨_, hu⟩
        simp only [runUntil]
        cases hp : partsCheck env all i with
        | error e =>
          simp only [runUntil]
          constructor
          · intro _; exact here (.inr ((partsCheck_fails hfi).mp ⟨_, hp⟩))
          · intro _
            refine ⟨e, ?_, rfl⟩
            rcases partsCheck_error hp with rfl | rfl <;> decide
        | ok q3 =>
          have n3 : ¬ TurnFails all i := by
            rintro (h | h)
            · exact n2 h
            · exact not_fails.mpr ⟨_, hp⟩ ((partsCheck_fails hfi).mpr h)
          simp only [runUntil]
          rw [steps_fails hl (fun j hj => hf j (List.mem_cons_of_mem _ hj)), reached_cons hna]
          simp only [n3, false_or]

theorem identifiers_fails {env : ViewEnv} (hl : ViewLooksUp env) {view : String} {d : FDef} :
    Fails (identifiersChecks env view d) ↔ ∃ ids before i after, IdentifiersAre d ids ∧ Reached env view ids before i after ∧
      IdRaises ids i := by
  have turn : ∀ {ids : List FDef} {i : FDef}, (∀ i ∈ ids, FormedId i) → i ∈ ids → (TurnFails ids i ↔ IdRaises ids i) := by
    intro ids i hf hi
    unfold TurnFails
    constructor
    · rintro (h | ⟨l, q, h1, h2, ⟨j, hj, h3⟩ | h3⟩)
      · exact .name (given_nameOf (hf i hi).name) h
      · exact .other h1 h2 hj (given_nameOf (hf j hj).name) h3
      · obtain ⟨l', hl', hq⟩ := (hf i hi).parts _ h1
        cases hl'
        obtain ⟨q', hq', hn⟩ := hq _ h2
        cases hq'
        exact .part h1 h2 (given_nameOf hn) h3
    · intro h
      cases h with
      | name h1 h2 => exact .inl (by rw [nameOf_given h1]; exact h2)
      | part h1 h2 h3 h4 => exact .inr ⟨_, _, h1, h2, .inr (by rw [nameOf_given h3]; exact h4)⟩
      | other h1 h2 h3 h4 h5 => exact .inr ⟨_, _, h1, h2, .inl ⟨_, h3, by rw [nameOf_given h4]; exact h5⟩⟩
  unfold identifiersChecks
  cases hi : viewIdentifiers d with
  | error e =>
    obtain ⟨rfl, hno⟩ := viewIdentifiers_error hi
    simp [fails_ok, hno]
  | ok ids =>
    simp only
    have hids := viewIdentifiers_ok.mp hi
    have huniq : ∀ ids', IdentifiersAre d ids' ↔ ids' = ids := by
      intro ids'
      rw [← viewIdentifiers_ok, hi]
      simp [eq_comm]
    have hf : ∀ i ∈ ids, FormedId i := by
      rcases hids with ⟨-, rfl⟩ | ⟨-, h⟩
      · simp
      · exact h
    have hs := steps_fails hl (view := view) (all := ids) (used := []) hf
    have goal : (∃ before i after, Reached env view ids before i after ∧ TurnFails ids i) ↔
        ∃ ids' before i after, IdentifiersAre d ids' ∧ Reached env view ids' before i after ∧ IdRaises ids' i := by
      constructor
      · rintro ⟨before, i, after, hr, ht⟩
        exact ⟨ids, before, i, after, hids, hr, (turn hf (reached_ambiguous hr)).mp ht⟩
      · rintro ⟨ids', before, i, after, h1, hr, ht⟩
        rw [huniq] at h1
        subst h1
        exact ⟨before, i, after, hr, (turn hf (reached_ambiguous hr)).mpr ht⟩
    rw [← goal, ← hs]
    cases hr : runUntil (identifierSteps env view ids [] ids) with
    | mk ps o =>
      cases o with
      | none => simp [fails_ok]
      | some e => cases e <;> simp [fails_ok, fails_error]

end ML
