import Verif.ModelCheck.Spec
import Verif.ViewCheck.Lemmas
import Verif.MergePlan.Texts
/-
Lemmas for C64: each check of the validation of a model is shown equal to its rules of the specification.
-/
set_option autoImplicit false
namespace ML
open Spec

/-! ### Loops that end with the first exception -/

theorem runUntil_append {π : Type} (a b : List (Res (List π))) :
    runUntil (a ++ b) = match runUntil a with
      | (ps, none) => (ps ++ (runUntil b).1, (runUntil b).2)
      | r => r := by
  induction a with
  | nil => simp [runUntil]
  | cons c a ih =>
    cases c with
    | error e => simp [runUntil]
    | ok ps =>
      simp only [List.cons_append, runUntil, ih]
      cases runUntil a with
      | mk qs o => cases o <;> simp [List.append_assoc]

theorem runUntil_tagged {α : Type} (f : α → ModelProblem) (l : List (Res (List α))) :
    runUntil (l.map (modelTagged f)) = ((runUntil l).1.map f, (runUntil l).2) := by
  induction l with
  | nil => rfl
  | cons c l ih =>
    cases c with
    | error e => rfl
    | ok ps => simp only [List.map_cons, modelTagged, runUntil, ih, List.map_append]

/-! ### The fields of a mapping -/

/-- One field of a mapping. -/
def fieldStep (env : ModelCheckEnv) (v : Yaml) : Res (List MapProblem) := missingField (lookUp env v) (.unknown (v.text?.getD ""))

/-- The elements are texts that are not ambiguous. -/
def Plain (env : ModelCheckEnv) (l : List Yaml) : Prop := ∀ v ∈ l, ∃ f, v = .str f ∧ ¬ Ambiguous (env.getText f)

theorem fieldStep_cases {env : ModelCheckEnv} (hl : ModelLooksUp env) (v : Yaml) :
    (∃ f, v = .str f ∧ ¬ Ambiguous (env.getText f) ∧ ∃ ps, fieldStep env v = .ok ps ∧ ∀ p, p ∈ ps ↔ p = .unknown f ∧ Unknown (env.getText f)) ∨
    (∃ f, v = .str f ∧ Ambiguous (env.getText f) ∧ fieldStep env v = .error .query) ∨
    (¬ Text v ∧ fieldStep env v = .error .typeError) := by
  cases v with
  | str f =>
    cases hg : env.getText f with
    | ok g =>
      refine .inl ⟨f, rfl, ?_, [], ?_, ?_⟩
      · rw [hg]; intro h; cases h
      · simp [fieldStep, lookUp, hg, missingField]
      · simp [Unknown, hg]
    | error e =>
      rcases hl.getText f e hg with rfl | rfl
      · refine .inl ⟨f, rfl, ?_, [.unknown f], ?_, ?_⟩
        · rw [hg]; intro h; cases h
        · simp [fieldStep, lookUp, hg, missingField, Yaml.text?]
        · simp [Unknown, hg]
      · exact .inr (.inl ⟨f, rfl, hg, by simp [fieldStep, lookUp, hg, missingField]⟩)
  | _ => exact .inr (.inr ⟨by simp [Text], rfl⟩)

theorem fieldSteps {env : ModelCheckEnv} (hl : ModelLooksUp env) (l : List Yaml) :
    ((runUntil (l.map (fieldStep env))).2 = none ↔ Plain env l) ∧
    ((runUntil (l.map (fieldStep env))).2 = some .query ↔ ∃ a f b, l = a ++ .str f :: b ∧ Plain env a ∧ Ambiguous (env.getText f)) ∧
    ((∃ e, e ≠ .query ∧ (runUntil (l.map (fieldStep env))).2 = some e) ↔ ∃ a v b, l = a ++ v :: b ∧ Plain env a ∧ ¬ Text v) ∧
    ∀ p, p ∈ (runUntil (l.map (fieldStep env))).1 ↔ ∃ a f b, l = a ++ .str f :: b ∧ Plain env a ∧ Unknown (env.getText f) ∧ p = .unknown f := by
  induction l with
  | nil => simp [runUntil, Plain]
  | cons v l ih =>
    obtain ⟨i1, i2, i3, i4⟩ := ih
    have plain_cons : ∀ {w : Yaml} {l : List Yaml}, Plain env (w :: l) ↔ (∃ f, w = .str f ∧ ¬ Ambiguous (env.getText f)) ∧ Plain env l := by
      intro w l; simp [Plain]
    have plain_nil : Plain env [] := by simp [Plain]
    rcases fieldStep_cases hl v with ⟨f, rfl, hna, ps, hps, hmem⟩ | ⟨f, rfl, ha, he⟩ | ⟨ht, he⟩
    · have hgo : ∀ {P : Yaml → Prop} , (∃ a w b, .str f :: l = a ++ w :: b ∧ Plain env a ∧ P w) ↔
          P (.str f) ∨ ∃ a w b, l = a ++ w :: b ∧ Plain env a ∧ P w := by
        intro P
        constructor
        · rintro ⟨a, w, b, e, hp, hw⟩
          cases a with
          | nil => cases e; exact .inl hw
          | cons x a => cases e; exact .inr ⟨a, w, b, rfl, (plain_cons.mp hp).2, hw⟩
        · rintro (h | ⟨a, w, b, e, hp, hw⟩)
          · exact ⟨[], _, l, rfl, plain_nil, h⟩
          · exact ⟨.str f :: a, w, b, by rw [e]; rfl, plain_cons.mpr ⟨⟨f, rfl, hna⟩, hp⟩, hw⟩
      have hgo' : ∀ {P : String → Prop} , (∃ a g b, .str f :: l = a ++ .str g :: b ∧ Plain env a ∧ P g) ↔
          P f ∨ ∃ a g b, l = a ++ .str g :: b ∧ Plain env a ∧ P g := by
        intro P
        have := @hgo (fun w => ∃ g, w = .str g ∧ P g)
        constructor
        · rintro ⟨a, g, b, e, hp, hw⟩
          rcases this.mp ⟨a, _, b, e, hp, g, rfl, hw⟩ with ⟨g', e', h⟩ | ⟨a', w, b', e', hp', g', rfl, h⟩
          · cases e'; exact .inl h
          · exact .inr ⟨a', g', b', e', hp', h⟩
        · rintro (h | ⟨a, g, b, e, hp, hw⟩)
          · obtain ⟨a', w, b', e', hp', g', rfl, h⟩ := this.mpr (.inl ⟨f, rfl, h⟩)
            exact ⟨a', g', b', e', hp', h⟩
          · obtain ⟨a', w, b', e', hp', g', rfl, h⟩ := this.mpr (.inr ⟨a, _, b, e, hp, g, rfl, hw⟩)
            exact ⟨a', g', b', e', hp', h⟩
      simp only [List.map_cons, hps, runUntil, List.mem_append]
      refine ⟨?_, ?_, ?_, ?_⟩
      · rw [i1, plain_cons]; exact ⟨fun h => ⟨⟨f, rfl, hna⟩, h⟩, fun h => h.2⟩
      · rw [i2, hgo' (P := fun g => Ambiguous (env.getText g))]; simp [hna]
      · rw [i3, hgo (P := fun w => ¬ Text w)]; simp [Text]
      · intro p
        rw [i4 p, hgo' (P := fun g => Unknown (env.getText g) ∧ p = .unknown g), hmem]
        exact or_congr_left and_comm
    · have stop : ∀ {a b : List Yaml} {w : Yaml}, .str f :: l = a ++ w :: b → Plain env a → a = [] ∧ w = .str f := by
        intro a b w e hp
        cases a with
        | nil => cases e; exact ⟨rfl, rfl⟩
        | cons x a =>
          cases e
          obtain ⟨⟨g, hg, hn⟩, -⟩ := plain_cons.mp hp
          cases hg
          exact absurd ha hn
      simp only [List.map_cons, he, runUntil]
      refine ⟨?_, ?_, ?_, ?_⟩
      · simp only [reduceCtorEq, false_iff]
        intro h
        obtain ⟨⟨g, hg, hn⟩, -⟩ := plain_cons.mp h
        cases hg; exact hn ha
      · simp only [true_iff]
        exact ⟨[], f, l, rfl, plain_nil, ha⟩
      · constructor
        · rintro ⟨e, hne, h⟩; cases h; exact absurd rfl hne
        · rintro ⟨a, w, b, e, hp, hw⟩
          obtain ⟨-, rfl⟩ := stop e hp
          exact absurd ⟨_, rfl⟩ hw
      · intro p
        simp only [List.not_mem_nil, false_iff]
        rintro ⟨a, g, b, e, hp, hu, -⟩
        obtain ⟨-, hg⟩ := stop e hp
        cases hg
        unfold Unknown at hu; unfold Ambiguous at ha; rw [ha] at hu; cases hu
    · have stop : ∀ {a b : List Yaml} {w : Yaml}, v :: l = a ++ w :: b → Plain env a → a = [] ∧ w = v := by
        intro a b w e hp
        cases a with
        | nil => cases e; exact ⟨rfl, rfl⟩
        | cons x a =>
          cases e
          obtain ⟨⟨g, hg, hn⟩, -⟩ := plain_cons.mp hp
          exact absurd ⟨g, hg⟩ ht
      simp only [List.map_cons, he, runUntil]
      refine ⟨?_, ?_, ?_, ?_⟩
      · simp only [reduceCtorEq, false_iff]
        intro h
        obtain ⟨⟨g, hg, hn⟩, -⟩ := plain_cons.mp h
        exact ht ⟨g, hg⟩
      · simp only [Option.some.injEq, reduceCtorEq, false_iff]
        rintro ⟨a, g, b, e, hp, -⟩
        obtain ⟨-, hg⟩ := stop e hp
        exact ht ⟨g, hg.symm⟩
      · constructor
        · rintro -; exact ⟨[], v, l, rfl, plain_nil, ht⟩
        · rintro -; exact ⟨.typeError, by simp, rfl⟩
      · intro p
        simp only [List.not_mem_nil, false_iff]
        rintro ⟨a, g, b, e, hp, -⟩
        obtain ⟨-, hg⟩ := stop e hp
        exact ht ⟨g, hg.symm⟩

/-! ### One mapping -/

/-- The field is one of those of the mapping that are looked at. -/
def FieldIn (env : ModelCheckEnv) (q : FDef) (v : Yaml) : Prop :=
  ∃ a b, Given q "fields" (.list (a ++ v :: b)) ∧ ∀ f, Yaml.str f ∈ a → ¬ Ambiguous (env.getText f)

/-- The problems of one mapping. -/
inductive OneHas (env : ModelCheckEnv) (n : String) : Yaml → MapProblem → Prop
  | name {v} : ¬ ProperName n → OneHas env n v .badName
  | kind {v} : ¬ Dictionary v → OneHas env n v .notDict
  | text {q k} : k ∈ ["link", "group_label", "description"] → GivenNot q k Text → OneHas env n (.dict q) (.wrongKind k)
  | fields {q} : GivenNot q "fields" Listed → OneHas env n (.dict q) .fieldsKind
  | unknown {q f} : FieldIn env q (.str f) → Unknown (env.getText f) → OneHas env n (.dict q) (.unknown f)
  | key {q k} : ¬ AmbiguousMap env (.dict q) → HasKey q k → k ∉ ["fields", "group_label", "description", "link", "label"] →
      OneHas env n (.dict q) (.unknownKey k)

/-- The mapping makes validation raise. -/
def OneRaises (env : ModelCheckEnv) (v : Yaml) : Prop :=
  ∃ q, v = .dict q ∧ (¬ HasKey q "fields" ∨ ∃ w, FieldIn env q w ∧ ¬ Text w)

theorem ambiguousMap_list {env : ModelCheckEnv} {q : FDef} {l : List Yaml} (h : Given q "fields" (.list l)) :
    AmbiguousMap env (.dict q) ↔ ∃ f, Yaml.str f ∈ l ∧ Ambiguous (env.getText f) := by
  constructor
  · rintro ⟨q', l', f, e, h', hf, ha⟩
    cases e
    have := given_unique h h'
    cases this
    exact ⟨f, hf, ha⟩
  · rintro ⟨f, hf, ha⟩
    exact ⟨q, l, f, rfl, h, hf, ha⟩

theorem ambiguousMap_dict {env : ModelCheckEnv} {q : FDef} (h : ∀ l, ¬ Given q "fields" (.list l)) : ¬ AmbiguousMap env (.dict q) := by
  rintro ⟨q', l, f, e, hl, -⟩
  cases e
  exact h l hl

theorem fieldIn_list {env : ModelCheckEnv} {q : FDef} {l : List Yaml} (h : Given q "fields" (.list l)) {v : Yaml} :
    FieldIn env q v ↔ ∃ a b, l = a ++ v :: b ∧ ∀ f, Yaml.str f ∈ a → ¬ Ambiguous (env.getText f) := by
  constructor
  · rintro ⟨a, b, h', hn⟩
    have := given_unique h h'
    cases this
    exact ⟨a, b, rfl, hn⟩
  · rintro ⟨a, b, rfl, hn⟩; exact ⟨a, b, h, hn⟩

/-- A first element with a property. -/
theorem first_bad {env : ModelCheckEnv} : ∀ {l : List Yaml}, ¬ Plain env l → ∃ a v b, l = a ++ v :: b ∧ Plain env a ∧
    ¬ (∃ f, v = .str f ∧ ¬ Ambiguous (env.getText f))
  | [], h => absurd (by simp [Plain]) h
  | v :: l, h => by
    by_cases hv : ∃ f, v = .str f ∧ ¬ Ambiguous (env.getText f)
    · obtain ⟨a, w, b, e, hp, hw⟩ := @first_bad env l (fun hl => h (by
        intro x hx
        rcases List.mem_cons.mp hx with rfl | hx
        · exact hv
        · exact hl x hx))
      refine ⟨v :: a, w, b, by rw [e]; rfl, ?_, hw⟩
      intro x hx
      rcases List.mem_cons.mp hx with rfl | hx
      · exact hv
      · exact hp x hx
    · exact ⟨[], v, l, rfl, by simp [Plain], hv⟩

theorem mapSteps_facts {env : ModelCheckEnv} (hl : ModelLooksUp env) (n : String) (v : Yaml) :
    ((∃ e, e ≠ .query ∧ (runUntil (mapSteps env n v)).2 = some e) ↔ OneRaises env v) ∧
    (((runUntil (mapSteps env n v)).2 = none ∨ (runUntil (mapSteps env n v)).2 = some .query) →
      ((runUntil (mapSteps env n v)).2 = some .query ↔ AmbiguousMap env v) ∧
      ∀ p, p ∈ (runUntil (mapSteps env n v)).1 ↔ OneHas env n v p) := by
  have hname : ∀ p, p ∈ (if validName n then [] else [MapProblem.badName]) ↔ p = .badName ∧ ¬ ProperName n := by
    intro p
    by_cases h : ProperName n
    · rw [if_pos (properName_true.mpr h)]; simp [h]
    · rw [properName_iff.mpr h]; simp [h]
  by_cases hd : Dictionary v
  · obtain ⟨q, rfl⟩ := hd
    have htext : ∀ p, p ∈ (wants q "link" Yaml.isStr (.wrongKind "link") ++ wants q "group_label" Yaml.isStr (.wrongKind "group_label") ++
        wants q "description" Yaml.isStr (MapProblem.wrongKind "description")) ↔
        ∃ k, k ∈ ["link", "group_label", "description"] ∧ GivenNot q k Text ∧ p = .wrongKind k := by
      intro p
      simp only [List.mem_append, wants_kind isStr_iff]
      constructor
      · rintro ((⟨h, h'⟩ | ⟨h, h'⟩) | ⟨h, h'⟩)
        · exact ⟨_, by simp, h', h⟩
        · exact ⟨_, by simp, h', h⟩
        · exact ⟨_, by simp, h', h⟩
      · rintro ⟨k, hk, h', h⟩
        simp only [List.mem_cons, List.not_mem_nil, or_false] at hk
        rcases hk with rfl | rfl | rfl
        · exact .inl (.inl ⟨h, h'⟩)
        · exact .inl (.inr ⟨h, h'⟩)
        · exact .inr ⟨h, h'⟩
    have pre : ∀ (F : List (Res (List MapProblem))), runUntil (mapSteps env n (.dict q)) = runUntil (mapSteps env n (.dict q)) → mappingFields env q = F →
        (runUntil (mapSteps env n (.dict q))).2 = (runUntil F).2 ∧
        ∀ p, p ∈ (runUntil (mapSteps env n (.dict q))).1 ↔ (p = .badName ∧ ¬ ProperName n) ∨
          (∃ k, k ∈ ["link", "group_label", "description"] ∧ GivenNot q k Text ∧ p = .wrongKind k) ∨ p ∈ (runUntil F).1 ∨
          ((runUntil F).2 = none ∧ ∃ k, HasKey q k ∧ k ∉ ["fields", "group_label", "description", "link", "label"] ∧ p = .unknownKey k) := by
      rintro F - hF
      simp only [mapSteps, hF, List.cons_append, runUntil, runUntil_append]
      cases hr : runUntil F with
      | mk ps o =>
        cases o with
        | none =>
          refine ⟨rfl, fun p => ?_⟩
          simp only [List.append_nil]
          rw [List.mem_append, hname, List.mem_append, htext, List.mem_append, unknownKeys_mem]
          simp only [true_and]
        | some e =>
          refine ⟨rfl, fun p => ?_⟩
          simp only
          rw [List.mem_append, hname, List.mem_append, htext]
          simp
    have rest : ∀ p, OneHas env n (.dict q) p ↔ (p = .badName ∧ ¬ ProperName n) ∨
        (∃ k, k ∈ ["link", "group_label", "description"] ∧ GivenNot q k Text ∧ p = .wrongKind k) ∨
        ((p = .fieldsKind ∧ GivenNot q "fields" Listed) ∨ ∃ f, FieldIn env q (.str f) ∧ Unknown (env.getText f) ∧ p = .unknown f) ∨
        (¬ AmbiguousMap env (.dict q) ∧ ∃ k, HasKey q k ∧ k ∉ ["fields", "group_label", "description", "link", "label"] ∧
          p = .unknownKey k) := by
      intro p
      constructor
      · intro h
        cases h with
        | name h => exact .inl ⟨rfl, h⟩
        | kind h => exact absurd ⟨q, rfl⟩ h
        | text h1 h2 => exact .inr (.inl ⟨_, h1, h2, rfl⟩)
        | fields h => exact .inr (.inr (.inl (.inl ⟨rfl, h⟩)))
        | unknown h1 h2 => exact .inr (.inr (.inl (.inr ⟨_, h1, h2, rfl⟩)))
        | key h1 h2 h3 => exact .inr (.inr (.inr ⟨h1, _, h2, h3, rfl⟩))
      · rintro (⟨rfl, h⟩ | ⟨k, h1, h2, rfl⟩ | (⟨rfl, h⟩ | ⟨f, h1, h2, rfl⟩) | ⟨h1, k, h2, h3, rfl⟩)
        · exact .name h
        · exact .text h1 h2
        · exact .fields h
        · exact .unknown h1 h2
        · exact .key h1 h2 h3
    cases hf : dictGet q "fields" with
    | none =>
      have hno : ¬ HasKey q "fields" := by rintro ⟨w, hw⟩; unfold Given at hw; rw [hf] at hw; cases hw
      obtain ⟨h1, -⟩ := pre [.error .keyError] rfl (by unfold mappingFields; rw [hf])
      rw [h1]
      constructor
      · constructor
        · rintro -; exact ⟨q, rfl, .inl hno⟩
        · rintro -; exact ⟨.keyError, by simp, rfl⟩
      · rintro (h | h) <;> simp [runUntil] at h
    | some w =>
      have hgw : Given q "fields" w := hf
      by_cases hwl : Listed w
      · obtain ⟨l, rfl⟩ := hwl
        obtain ⟨h1, h2⟩ := pre (l.map (fieldStep env)) rfl (by unfold mappingFields; rw [hf]; rfl)
        obtain ⟨f1, f2, f3, f4⟩ := fieldSteps hl l
        rw [h1]
        have plain_no : ∀ {a : List Yaml}, Plain env a → ∀ f, Yaml.str f ∈ a → ¬ Ambiguous (env.getText f) := by
          intro a hp f hfa
          obtain ⟨g, hg, hn⟩ := hp _ hfa
          cases hg; exact hn
        constructor
        · rw [f3]
          constructor
          · rintro ⟨a, x, b, e, hp, hx⟩
            exact ⟨q, rfl, .inr ⟨x, (fieldIn_list hgw).mpr ⟨a, b, e, plain_no hp⟩, hx⟩⟩
          · rintro ⟨q', e, h⟩
            cases e
            rcases h with h | ⟨x, hx, hnt⟩
            · exact absurd ⟨_, hgw⟩ h
            · obtain ⟨a, b, e, hna⟩ := (fieldIn_list hgw).mp hx
              by_cases hp : Plain env a
              · exact ⟨a, x, b, e, hp, hnt⟩
              · obtain ⟨a', y, b', e', hp', hy⟩ := first_bad hp
                refine ⟨a', y, b' ++ x :: b, by rw [e, e']; simp, hp', ?_⟩
                rintro ⟨f, rfl⟩
                exact hy ⟨f, rfl, hna f (by rw [e']; simp)⟩
        · intro ho
          have hplain : ∀ a x b, l = a ++ x :: b → (∀ f, Yaml.str f ∈ a → ¬ Ambiguous (env.getText f)) → Plain env a := by
            intro a x b e hna
            by_contra hp
            obtain ⟨a', y, b', e', hp', hy⟩ := first_bad hp
            have : ∃ e, e ≠ Err.query ∧ (runUntil (l.map (fieldStep env))).2 = some e := by
              rw [f3]
              refine ⟨a', y, b' ++ x :: b, by rw [e, e']; simp, hp', ?_⟩
              rintro ⟨f, rfl⟩
              exact hy ⟨f, rfl, hna f (by rw [e']; simp)⟩
            obtain ⟨e, hne, he⟩ := this
            rcases ho with h | h
            · rw [h] at he; cases he
            · rw [h] at he; cases he; exact hne rfl
          have hamb : (runUntil (l.map (fieldStep env))).2 = some .query ↔ AmbiguousMap env (.dict q) := by
            rw [f2, ambiguousMap_list hgw]
            constructor
            · rintro ⟨a, f, b, e, hp, ha⟩
              exact ⟨f, by rw [e]; simp, ha⟩
            · rintro ⟨f, hfl, ha⟩
              rcases ho with h | h
              · obtain ⟨g, hg, hn⟩ := f1.mp h _ hfl
                cases hg; exact absurd ha hn
              · exact f2.mp h
          refine ⟨hamb, fun p => ?_⟩
          rw [h2, rest]
          have hnk : ¬ GivenNot q "fields" Listed := by
            rintro ⟨x, hx, hn⟩
            have := given_unique hgw hx
            subst this
            exact hn ⟨l, rfl⟩
          have hnone : (runUntil (l.map (fieldStep env))).2 = none ↔ ¬ AmbiguousMap env (.dict q) := by
            rw [← hamb]
            rcases ho with h | h <;> rw [h] <;> simp
          rw [hnone, f4]
          have : (∃ a f b, l = a ++ Yaml.str f :: b ∧ Plain env a ∧ Unknown (env.getText f) ∧ p = MapProblem.unknown f) ↔
              ((p = .fieldsKind ∧ GivenNot q "fields" Listed) ∨ ∃ f, FieldIn env q (.str f) ∧ Unknown (env.getText f) ∧ p = .unknown f) := by
            simp only [hnk, and_false, false_or]
            constructor
            · rintro ⟨a, f, b, e, hp, hu, rfl⟩
              exact ⟨f, (fieldIn_list hgw).mpr ⟨a, b, e, plain_no hp⟩, hu, rfl⟩
            · rintro ⟨f, hfi, hu, rfl⟩
              obtain ⟨a, b, e, hna⟩ := (fieldIn_list hgw).mp hfi
              exact ⟨a, f, b, e, hplain a _ b e hna, hu, rfl⟩
          rw [this]
      · obtain ⟨h1, h2⟩ := pre [.ok [.fieldsKind]] rfl (by
          unfold mappingFields; rw [hf]
          cases w with
          | list l => exact absurd ⟨l, rfl⟩ hwl
          | _ => rfl)
        rw [h1]
        have hnl : ∀ l, ¬ Given q "fields" (.list l) := by
          intro l hl'
          have := given_unique hgw hl'
          exact hwl ⟨l, this⟩
        have hfi : ∀ x, ¬ FieldIn env q x := by
          rintro x ⟨a, b, h, -⟩; exact hnl _ h
        constructor
        · simp only [runUntil, reduceCtorEq, and_false, exists_false, false_iff]
          rintro ⟨q', e, h⟩
          cases e
          rcases h with h | ⟨x, hx, -⟩
          · exact h ⟨w, hgw⟩
          · exact hfi x hx
        · rintro -
          constructor
          · simp only [runUntil, reduceCtorEq, false_iff]
            exact ambiguousMap_dict hnl
          · intro p
            rw [h2, rest]
            have hg : GivenNot q "fields" Listed := ⟨w, hgw, hwl⟩
            simp only [runUntil, List.append_nil, List.mem_singleton, hg, and_true, hfi, false_and, exists_false, or_false,
              ambiguousMap_dict hnl, not_false_eq_true, true_and]
  · have e : mapSteps env n v = [.ok (if validName n then [] else [.badName]), .ok [.notDict]] := by
      cases v with
      | dict q => exact absurd ⟨q, rfl⟩ hd
      | _ => rfl
    have hna : ¬ AmbiguousMap env v := by rintro ⟨q, _, _, rfl, -⟩; exact hd ⟨q, rfl⟩
    rw [e]
    refine ⟨?_, fun _ => ⟨?_, fun p => ?_⟩⟩
    · simp only [runUntil, reduceCtorEq, and_false, exists_false, false_iff]
      rintro ⟨q, rfl, -⟩; exact hd ⟨q, rfl⟩
    · simp [runUntil, hna]
    · simp only [runUntil, List.append_nil, List.mem_append, hname, List.mem_singleton]
      constructor
      · rintro (⟨rfl, h⟩ | rfl)
        · exact .name h
        · exact .kind hd
      · intro h
        cases h with
        | name h => exact .inl ⟨rfl, h⟩
        | kind h => exact .inr rfl
        | text => exact absurd ⟨_, rfl⟩ hd
        | fields => exact absurd ⟨_, rfl⟩ hd
        | unknown => exact absurd ⟨_, rfl⟩ hd
        | key => exact absurd ⟨_, rfl⟩ hd

end ML
