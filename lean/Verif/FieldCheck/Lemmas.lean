import Verif.FieldCheck.Spec
import Verif.Usable.Lemmas
import Verif.Names.Props
/-
Helper lemmas for C62.
-/
set_option autoImplicit false
namespace ML
open Spec

theorem truthy_iff (v : Yaml) : v.truthy = false ↔ Nothing v := by
  constructor
  · intro h
    cases v with
    | null => exact .null
    | bool b => cases b with
      | false => exact .no
      | true => cases h
    | int n =>
      have : n = 0 := by simpa [Yaml.truthy] using h
      subst this; exact .zero
    | float q =>
      have : q = 0 := by simpa [Yaml.truthy] using h
      subst this; exact .zero'
    | str s =>
      have : s = "" := by simpa [Yaml.truthy] using h
      subst this; exact .text
    | list l =>
      cases l with
      | nil => exact .list
      | cons x l => simp [Yaml.truthy] at h
    | dict l =>
      cases l with
      | nil => exact .dict
      | cons x l => simp [Yaml.truthy] at h
  · intro h
    cases h <;> simp [Yaml.truthy]

theorem truthyOpt_iff (d : FDef) (k : String) : truthyOpt (dictGet d k) = true ↔ IsSet d k := by
  unfold IsSet Given
  cases h : dictGet d k with
  | none => simp [truthyOpt]
  | some v =>
    simp only [truthyOpt, Option.some.injEq, exists_eq_left']
    rw [← truthy_iff]
    simp

theorem truthyOpt_false_iff (d : FDef) (k : String) : truthyOpt (dictGet d k) = false ↔ ¬ IsSet d k := by
  rw [← truthyOpt_iff]; simp

theorem qualified_iff {view n full : String} : Qualified view n full ↔ full = qualifyRef view n := by
  unfold Qualified qualifyRef
  by_cases h : '.' ∈ n.toList <;> simp [h]

theorem isStr_iff (v : Yaml) : v.isStr = false ↔ ¬ Text v := by
  cases v <;> simp [Yaml.isStr, Text]

theorem isBool_iff (v : Yaml) : v.isBool = false ↔ ¬ Flag v := by
  cases v <;> simp [Yaml.isBool, Flag]

theorem isInt_iff (v : Yaml) : v.isInt = false ↔ ¬ Whole v := by
  cases v <;> simp [Yaml.isInt, Whole]

theorem isList_iff (v : Yaml) : v.isList = false ↔ ¬ Listed v := by
  cases v <;> simp [Yaml.isList, Listed]

theorem isDict_iff (v : Yaml) : v.isDict = false ↔ ¬ Dictionary v := by
  cases v <;> simp [Yaml.isDict, Dictionary]

theorem oneOf_iff (ws : List String) (v : Yaml) : v.oneOf ws = false ↔ ¬ Word ws v := by
  cases v <;> simp [Yaml.oneOf, Yaml.text?, Word]

theorem textAt_iff (d : FDef) (k s : String) : textAt d k = some s ↔ Given d k (.str s) := by
  unfold textAt Given
  cases h : dictGet d k with
  | none => simp
  | some v => cases v <;> simp

theorem textAt_isSome (d : FDef) (k : String) : (textAt d k).isSome = true ↔ GivesText d k := by
  unfold GivesText
  rw [Option.isSome_iff_exists]
  simp only [textAt_iff]

theorem isSome_iff_hasKey (d : FDef) (k : String) : (dictGet d k).isSome = true ↔ HasKey d k := by
  unfold HasKey Given
  rw [Option.isSome_iff_exists]

theorem isSome_false_iff (d : FDef) (k : String) : (dictGet d k).isSome = false ↔ ¬ HasKey d k := by
  rw [← isSome_iff_hasKey]; simp

theorem mem_keys_iff (d : FDef) (k : String) : k ∈ d.map (·.1) ↔ HasKey d k := by
  rw [← isSome_iff_hasKey, dictGet_isSome]

theorem typeIn_iff (d : FDef) (ws : List String) : typeIn ws d = false ↔ ∀ v, Given d "type" v → ¬ Word ws v := by
  unfold typeIn
  cases h : textAt d "type" with
  | none =>
    simp only [true_iff]
    rintro v hv ⟨s, -, rfl⟩
    rw [(textAt_iff d "type" s).mpr hv] at h
    cases h
  | some t =>
    have ht := (textAt_iff d "type" t).mp h
    simp only
    constructor
    · rintro hc v hv ⟨s, hs, rfl⟩
      have : Yaml.str t = Yaml.str s := by
        unfold Given at ht hv; rw [ht] at hv; exact Option.some.inj hv
      cases this
      simp at hc; exact hc hs
    · intro hc
      have := hc _ ht
      simp only [List.contains_eq_mem, decide_eq_false_iff_not]
      intro hm; exact this ⟨t, hm, rfl⟩

/-! ### Sequences of checks -/

theorem seqChecks_ok {π : Type} {l : List (Res (List π))} {ps : List π} (h : seqChecks l = .ok ps) :
    (∀ c ∈ l, ∃ qs, c = .ok qs) ∧ ∀ p, p ∈ ps ↔ ∃ c ∈ l, ∃ qs, c = .ok qs ∧ p ∈ qs := by
  induction l generalizing ps with
  | nil => cases h; simp
  | cons c l ih =>
    cases c with
    | error e => cases h
    | ok qs =>
      simp only [seqChecks] at h
      cases h' : seqChecks l with
      | error e => rw [h'] at h; cases h
      | ok rs =>
        rw [h'] at h
        cases h
        obtain ⟨h1, h2⟩ := ih h'
        refine ⟨?_, fun p => ?_⟩
        · intro c hc
          rcases List.mem_cons.mp hc with rfl | hc
          · exact ⟨_, rfl⟩
          · exact h1 c hc
        · rw [List.mem_append, h2 p]
          constructor
          · rintro (hp | ⟨c, hc, us, e, hp⟩)
            · exact ⟨_, List.mem_cons_self, _, rfl, hp⟩
            · exact ⟨c, List.mem_cons_of_mem _ hc, us, e, hp⟩
          · rintro ⟨c, hc, us, e, hp⟩
            rcases List.mem_cons.mp hc with rfl | hc
            · cases e; exact .inl hp
            · exact .inr ⟨c, hc, us, e, hp⟩

theorem seqChecks_total {π : Type} {l : List (Res (List π))} (h : ∀ c ∈ l, ∃ qs, c = .ok qs) : ∃ ps, seqChecks l = .ok ps := by
  induction l with
  | nil => exact ⟨_, rfl⟩
  | cons c l ih =>
    obtain ⟨qs, rfl⟩ := h c List.mem_cons_self
    obtain ⟨rs, hr⟩ := ih (fun c hc => h c (List.mem_cons_of_mem _ hc))
    exact ⟨qs ++ rs, by simp only [seqChecks, hr]⟩

/-- Some check of the list reports the problem. -/
def Says {π : Type} (c : Res (List π)) (p : π) : Prop := ∃ qs, c = .ok qs ∧ p ∈ qs

theorem says_ok {π : Type} {qs : List π} {p : π} : Says (.ok qs) p ↔ p ∈ qs := by
  unfold Says
  constructor
  · rintro ⟨_, e, h⟩; cases e; exact h
  · intro h; exact ⟨_, rfl, h⟩

theorem says_error {π : Type} {e : Err} {p : π} : ¬ Says (.error e) p := by
  rintro ⟨_, h, _⟩; cases h

theorem says_seq {π : Type} {l : List (Res (List π))} (hok : ∃ ps, seqChecks l = .ok ps) (p : π) :
    Says (seqChecks l) p ↔ ∃ c ∈ l, Says c p := by
  obtain ⟨ps, hps⟩ := hok
  rw [hps, says_ok, (seqChecks_ok hps).2 p]
  rfl

theorem says_forEach {α π : Type} {f : α → Res (List π)} {l : List α} (hok : ∃ ps, forEach f l = .ok ps) (p : π) :
    Says (forEach f l) p ↔ ∃ x ∈ l, Says (f x) p := by
  unfold forEach at *
  rw [says_seq hok]
  simp

theorem wants_mem {π : Type} {d : FDef} {k : String} {ok : Yaml → Bool} {q p : π} :
    p ∈ wants d k ok q ↔ p = q ∧ ∃ v, Given d k v ∧ ok v = false := by
  unfold wants Given
  cases h : dictGet d k with
  | none => simp
  | some v => cases hv : ok v <;> simp [hv]

theorem wants_kind {π : Type} {d : FDef} {k : String} {ok : Yaml → Bool} {kind : Yaml → Prop} (hk : ∀ v, ok v = false ↔ ¬ kind v) {q p : π} :
    p ∈ wants d k ok q ↔ p = q ∧ GivenNot d k kind := by
  rw [wants_mem]; simp only [hk]; rfl

theorem wantsList_mem {d : FDef} {k : String} {ok : Yaml → Bool} {kind : Yaml → Prop} (hk : ∀ v, ok v = false ↔ ¬ kind v)
    {p : FieldProblem} :
    p ∈ wantsList d k ok ↔ (p = .wrongKind k ∧ GivenNot d k Listed) ∨ (p = .badItem k ∧ HasItemNot d k kind) := by
  unfold wantsList GivenNot HasItemNot Given
  cases h : dictGet d k with
  | none => simp
  | some v =>
    cases v with
    | list l =>
      simp only [List.mem_flatMap, Option.some.injEq, exists_eq_left', Listed, Yaml.list.injEq, exists_eq', not_true_eq_false,
        and_false, false_or]
      constructor
      · rintro ⟨v, hv, hp⟩
        cases hv' : ok v with
        | true => simp [hv'] at hp
        | false => simp [hv'] at hp; exact ⟨hp, v, hv, (hk v).mp hv'⟩
      · rintro ⟨rfl, v, hv, hn⟩
        exact ⟨v, hv, by simp [(hk v).mpr hn]⟩
    | _ => simp [Listed]

theorem unknownKeys_mem {π : Type} {valid : List String} {q : String → π} {d : FDef} {p : π} :
    p ∈ unknownKeys valid q d ↔ ∃ k, HasKey d k ∧ k ∉ valid ∧ p = q k := by
  unfold unknownKeys
  simp only [List.mem_flatMap, mem_keys_iff]
  constructor
  · rintro ⟨k, hk, hp⟩
    by_cases h : k ∈ valid <;> simp [h] at hp
    exact ⟨k, hk, h, hp⟩
  · rintro ⟨k, hk, h, rfl⟩
    exact ⟨k, hk, by simp [h]⟩

theorem missingField_says {α π : Type} {r : Res α} {p q : π} : Says (missingField r q) p ↔ p = q ∧ Unknown r := by
  unfold missingField Unknown
  cases r with
  | ok a => simp [says_ok]
  | error e => cases e <;> simp [says_ok, says_error]

/-! ### References -/

theorem dictGet_qualifyFilters (view : String) (d : FDef) (k : String) (hk : k ≠ "filters") :
    dictGet (qualifyFilters view d) k = dictGet d k := by
  unfold qualifyFilters
  split
  · rw [dictGet_set, if_neg (fun h => hk h.symm)]
  · rfl

theorem textAt_qualifyFilters (view : String) (d : FDef) (k : String) (hk : k ≠ "filters") :
    textAt (qualifyFilters view d) k = textAt d k := by
  unfold textAt; rw [dictGet_qualifyFilters view d k hk]

theorem checkedField_qualifyFilters (env : CheckEnv) (name : String) (d : FDef) (s : Option Yaml) :
    checkedField env name (qualifyFilters env.view d) s = checkedField env name d s := by
  unfold checkedField cleanText
  rw [textAt_qualifyFilters _ _ _ (by decide), textAt_qualifyFilters _ _ _ (by decide), textAt_qualifyFilters _ _ _ (by decide),
    dictGet_qualifyFilters _ _ _ (by decide), dictGet_qualifyFilters _ _ _ (by decide)]

theorem refsLoop_text {get : UGet} {deep : UField → Res (Option (List URef))} {view : String} :
    ∀ {ns : List String} {rs : List URef}, refsLoop get deep view ns = .ok rs →
      ∀ x, URef.text x ∈ rs ↔ ∃ n ∈ ns, n ≠ "TABLE" ∧ ((Unknown (get view n) ∧ x = n) ∨
        ∃ g, get view n = .ok g ∧ g.type = "number" ∧ ∃ l, deep g = .ok (some l) ∧ URef.text x ∈ l)
  | [], rs, hr, x => by cases hr; simp
  | n :: ns, rs, hr, x => by
    unfold refsLoop at hr
    rw [List.exists_mem_cons_iff]
    by_cases ht : n = "TABLE"
    · rw [if_pos ht] at hr
      rw [refsLoop_text hr x]
      simp [ht]
    · rw [if_neg ht] at hr
      have ht' : n ≠ "TABLE" := ht
      simp only [ne_eq, ht, not_false_eq_true, true_and]
      cases hg : get view n with
      | error e =>
        rw [hg] at hr
        cases e <;> simp only [reduceCtorEq] at hr
        case accessDenied =>
          cases hl : refsLoop get deep view ns with
          | error e => rw [hl] at hr; cases hr
          | ok us =>
            rw [hl] at hr; cases hr
            rw [List.mem_cons, refsLoop_text hl x]
            simp [Unknown]
      | ok g =>
        rw [hg] at hr
        simp only at hr
        by_cases hn : g.type = "number"
        · rw [if_pos hn] at hr
          cases hd : deep g with
          | error e => rw [hd] at hr; cases hr
          | ok r =>
            rw [hd] at hr
            cases hl : refsLoop get deep view ns with
            | error e => rw [hl] at hr; cases hr
            | ok us =>
              rw [hl] at hr; cases hr
              rw [List.mem_append, refsLoop_text hl x]
              cases r with
              | none => simp [Unknown, hn, hd]
              | some l => simp [Unknown, hn, hd]
        · rw [if_neg hn] at hr
          cases hl : refsLoop get deep view ns with
          | error e => rw [hl] at hr; cases hr
          | ok us =>
            rw [hl] at hr; cases hr
            rw [List.mem_cons, refsLoop_text hl x]
            simp [Unknown, hn]

theorem refsLoop_join {get : UGet} {deep : UField → Res (Option (List URef))} {view : String} {x : URef} :
    ∀ {ns ms : List String} {rs us : List URef}, refsLoop get deep view ns = .ok rs →
      refsLoop get deep view ms = .ok us → ∃ ws, refsLoop get deep view (ns ++ ms) = .ok ws ∧ (x ∈ ws ↔ x ∈ rs ++ us)
  | [], ms, rs, us, h, h' => by cases h; exact ⟨us, h', by simp⟩
  | n :: ns, ms, rs, us, h, h' => by
    rw [List.cons_append]
    unfold refsLoop at h ⊢
    by_cases ht : n = "TABLE"
    · rw [if_pos ht] at h ⊢; exact refsLoop_join h h'
    · rw [if_neg ht] at h ⊢
      cases hg : get view n with
      | error e =>
        rw [hg] at h
        cases e <;> simp only [reduceCtorEq] at h
        case accessDenied =>
          cases hl : refsLoop get deep view ns with
          | error e => rw [hl] at h; cases h
          | ok vs =>
            rw [hl] at h; cases h
            obtain ⟨ws, e, hw⟩ := refsLoop_join (x := x) hl h'
            simp only [e]
            exact ⟨_, rfl, by simp [hw]⟩
      | ok g =>
        rw [hg] at h
        simp only at h ⊢
        by_cases hn : g.type = "number"
        · rw [if_pos hn] at h ⊢
          cases hd : deep g with
          | error e => rw [hd] at h; cases h
          | ok r =>
            rw [hd] at h
            cases hl : refsLoop get deep view ns with
            | error e => rw [hl] at h; cases h
            | ok vs =>
              rw [hl] at h; cases h
              obtain ⟨ws, e, hw⟩ := refsLoop_join (x := x) hl h'
              simp only [e]
              exact ⟨_, rfl, by simp only [List.mem_append, hw, or_assoc]⟩
        · rw [if_neg hn] at h ⊢
          cases hl : refsLoop get deep view ns with
          | error e => rw [hl] at h; cases h
          | ok vs =>
            rw [hl] at h; cases h
            obtain ⟨ws, e, hw⟩ := refsLoop_join (x := x) hl h'
            simp only [e]
            exact ⟨_, rfl, by simp [hw]⟩

theorem templated_iff (f : UField) : (f.sql.map (·.template)).getD false = true ↔ Templated f := by
  unfold Templated
  cases h : f.sql <;> simp

/-- What a field that is no template and no cumulative metric is searched for. -/
theorem fieldRefs_loop' {get : UGet} {n : ℕ} {f : UField} (hc : f.type ≠ "cumulative") (ht : ¬ Templated f)
    {r : Option (List URef)} (h : fieldRefs get (n + 1) f = .ok r) :
    ∃ rs, r = some rs ∧ ∀ x, ∃ ws, refsLoop get (fieldRefs get n) f.view (readNames f) = .ok ws ∧ (x ∈ ws ↔ x ∈ rs) := by
  unfold fieldRefs at h
  rw [if_neg (by rw [templated_iff]; exact ht), if_neg hc] at h
  have key : ∀ {s : Option SqlNames} {r : Option (List URef)}, (match refsLoop get (fieldRefs get n) f.view (namesOf s) with
      | .error e => .error e
      | .ok rs => .ok (some rs) : Res (Option (List URef))) = .ok r →
      ∃ rs, r = some rs ∧ ∀ x, ∃ ws, refsLoop get (fieldRefs get n) f.view ((s.map (·.names)).getD []) = .ok ws ∧ (x ∈ ws ↔ x ∈ rs) := by
    intro s r h
    have e : namesOf s = (s.map (·.names)).getD [] := by cases s <;> rfl
    rw [e] at h
    cases hl : refsLoop get (fieldRefs get n) f.view ((s.map (·.names)).getD []) with
    | error e => rw [hl] at h; cases h
    | ok rs => rw [hl] at h; cases h; exact ⟨rs, rfl, fun x => ⟨rs, rfl, Iff.rfl⟩⟩
  unfold readNames
  cases hs : f.sqlStart with
  | none => rw [if_neg (by simp [hs])] at h; exact key h
  | some s =>
    cases he : f.sqlEnd with
    | none => rw [if_neg (by simp [he])] at h; exact key h
    | some t =>
      simp only
      by_cases hd : f.type = "duration"
      · rw [if_pos hd]
        rw [if_pos ⟨hd, by simp [hs], by simp [he]⟩, hs, he] at h
        simp only [namesOf] at h
        cases h1 : refsLoop get (fieldRefs get n) f.view s.names with
        | error e => rw [h1] at h; cases h
        | ok rs =>
          rw [h1] at h
          simp only at h
          cases h2 : refsLoop get (fieldRefs get n) f.view t.names with
          | error e => rw [h2] at h; cases h
          | ok us =>
            rw [h2] at h
            cases h
            exact ⟨rs ++ us, rfl, fun x => refsLoop_join h1 h2⟩
      · rw [if_neg (fun c => hd c.1)] at h
        rw [if_neg hd]; exact key h

theorem fieldRefs_template {get : UGet} {n : ℕ} {f : UField} (ht : Templated f) : fieldRefs get (n + 1) f = .ok none := by
  unfold fieldRefs
  rw [if_pos (by rw [templated_iff]; exact ht)]

/-- The names reported are those that lead nowhere. -/
theorem fieldRefs_dead {get : UGet} : ∀ {n : ℕ} {f : UField} {rs : List URef}, f.type ≠ "cumulative" →
    fieldRefs get n f = .ok (some rs) → ¬ Templated f ∧ ∀ x, URef.text x ∈ rs ↔ DeadRef get f x
  | 0, f, rs, _, h => by cases h
  | n + 1, f, rs, hc, h => by
    have ht : ¬ Templated f := by
      intro ht
      rw [fieldRefs_template ht] at h
      cases h
    refine ⟨ht, fun x => ?_⟩
    obtain ⟨rs', e, hl⟩ := fieldRefs_loop' hc ht h
    cases e
    obtain ⟨ws, hw, hx⟩ := hl (.text x)
    rw [← hx, refsLoop_text hw x]
    constructor
    · rintro ⟨m, hm, hne, ⟨hu, rfl⟩ | ⟨g, hg, hn, l, hd, hxl⟩⟩
      · exact .here hm hne hu
      · obtain ⟨hgt, hgx⟩ := fieldRefs_dead (by rw [hn]; decide) hd
        exact .through hm hne hg hn hgt ((hgx x).mp hxl)
    · intro hd
      cases hd with
      | here hm hne hu => exact ⟨x, hm, hne, .inl ⟨hu, rfl⟩⟩
      | @through _ g m _ hm hne hg hn hgt hgd =>
        refine ⟨m, hm, hne, .inr ⟨g, hg, hn, ?_⟩⟩
        obtain ⟨r, hr⟩ := refsLoop_deep hw m hm hne g hg hn
        cases r with
        | some l => exact ⟨l, hr, ((fieldRefs_dead (by rw [hn]; decide) hr).2 x).mpr hgd⟩
        | none =>
          exfalso
          cases n with
          | zero => cases hr
          | succ n =>
            obtain ⟨rs, e, -⟩ := fieldRefs_loop' (by rw [hn]; decide) hgt hr
            cases e

theorem refProblems_mem {rs : List URef} {p : FieldProblem} :
    p ∈ refProblems (some rs) ↔ ∃ x, URef.text x ∈ rs ∧ p = .badRef x := by
  simp only [refProblems, List.mem_flatMap]
  constructor
  · rintro ⟨r, hr, hp⟩
    cases r with
    | field g => simp at hp
    | nothing => simp at hp
    | text s => exact ⟨s, hr, by simpa using hp⟩
  · rintro ⟨x, hx, rfl⟩
    exact ⟨_, hx, by simp⟩

theorem checkedField_type (env : CheckEnv) (name : String) (d : FDef) (s : Option Yaml) :
    (checkedField env name d s).type = "cumulative" ↔ Given d "type" (.str "cumulative") := by
  simp only [checkedField]
  rw [← textAt_iff]
  cases h : textAt d "type" <;> simp

/-- What a cumulative metric is searched for has no text in it. -/
theorem fieldRefs_cumulative {get : UGet} {n : ℕ} {f : UField} (hc : f.type = "cumulative") {rs : List URef}
    (h : fieldRefs get n f = .ok (some rs)) (x : String) : URef.text x ∉ rs := by
  cases n with
  | zero => cases h
  | succ n =>
    unfold fieldRefs at h
    by_cases ht : (f.sql.map (·.template)).getD false = true
    · rw [if_pos ht] at h; cases h
    · rw [if_neg ht, if_pos hc] at h
      cases hm : f.measure with
      | none => rw [hm] at h; cases h; simp
      | some m =>
        rw [hm] at h
        simp only at h
        cases hg : get f.view m with
        | error e => rw [hg] at h; cases h
        | ok g => rw [hg] at h; cases h; simp

theorem sqlChecks_says {env : CheckEnv} {name : String} {d : FDef} {self : Option Yaml} {sql : String} {p : FieldProblem}
    (hok : ∃ ps, sqlChecks env name d self sql = .ok ps) :
    Says (sqlChecks env name d self sql) p ↔ SqlProblem env name d self sql p := by
  unfold sqlChecks at *
  cases hr : fieldRefs env.get env.depth (checkedField env name d self) with
  | error e => rw [hr] at hok; obtain ⟨_, h⟩ := hok; cases h
  | ok refs =>
    simp only [says_ok, List.mem_append]
    cases hn : env.depth with
    | zero => rw [hn] at hr; cases hr
    | succ n =>
      rw [hn] at hr
      constructor
      · rintro (h | h)
        · by_cases hs : sql = "${" ++ name ++ "}"
          · rw [if_pos hs] at h
            rw [List.mem_singleton.mp h]; exact .self hs
          · rw [if_neg hs] at h; cases h
        · cases refs with
          | none =>
            have hp : p = .template := by simpa [refProblems] using h
            subst hp
            refine .template (Classical.byContradiction fun ht => ?_)
            by_cases hc : (checkedField env name d self).type = "cumulative"
            · unfold fieldRefs at hr
              rw [if_neg (by rw [templated_iff]; exact ht), if_pos hc] at hr
              cases hm : (checkedField env name d self).measure with
              | none => rw [hm] at hr; cases hr
              | some m =>
                rw [hm] at hr
                simp only at hr
                cases hg : env.get (checkedField env name d self).view m with
                | error e => rw [hg] at hr; cases hr
                | ok g => rw [hg] at hr; cases hr
            · obtain ⟨rs, e, -⟩ := fieldRefs_loop' hc ht hr
              cases e
          | some rs =>
            obtain ⟨x, hx, rfl⟩ := refProblems_mem.mp h
            by_cases hc : (checkedField env name d self).type = "cumulative"
            · exact absurd hx (fieldRefs_cumulative hc hr x)
            · obtain ⟨ht, hd⟩ := fieldRefs_dead hc hr
              exact .dead ht (fun h => hc ((checkedField_type _ _ _ _).mpr h)) ((hd x).mp hx)
      · intro h
        cases h with
        | self hs => left; simp [hs]
        | template ht =>
          right
          rw [fieldRefs_template ht] at hr
          cases hr
          simp [refProblems]
        | @dead x ht hc hd =>
          right
          have hc' : (checkedField env name d self).type ≠ "cumulative" := fun h => hc ((checkedField_type _ _ _ _).mp h)
          obtain ⟨rs, rfl, -⟩ := fieldRefs_loop' hc' ht hr
          exact refProblems_mem.mpr ⟨x, ((fieldRefs_dead hc' hr).2 x).mpr hd, rfl⟩

end ML
