import Verif.MergePlan.Texts
import Verif.ViewCheck.Exact
/-
C63: what validating a view reports, when it raises, and what a view without reports is good for.
-/
set_option autoImplicit false
namespace ML
open Spec

/-! ### Definitions for the examples -/

/-- The price as the primary key. -/
def vcPrice : FDef :=
  [("name", .str "price"), ("field_type", .str "dimension"), ("type", .str "number"), ("sql", .str "${TABLE}.price"), ("primary_key", .bool true)]
/-- A project with the view `orders`, which can be joined with `customers`. -/
def vcEnv : ViewEnv where
  base := fcEnv
  model := .ok true
  canAccess := fun _ => .ok true
  joinable := fun _ => .ok ["customers"]
  hasView := fun v => v = "orders" ∨ v = "customers"
  setNames := fun _ _ => .ok ["orders.price", "orders.cost"]
  table := fun s => if s = "bad" then .error .query else .ok s

theorem vcEnv_looksUp : ViewLooksUp vcEnv where
  getText := fun n e h => .inl (fcEnv_looksUp.getText n e h)
  getByName := fcEnv_looksUp.getByName
  joinable := by intro n e h; cases h

/-- A view in order. -/
def vcView : FDef :=
  [("name", .str "orders"), ("sql_table_name", .str "raw.orders"), ("default_date", .str "created"),
   ("identifiers", .list [.dict [("name", .str "price"), ("type", .str "primary"), ("sql", .str "${price}")],
     .dict [("name", .str "to_customers"), ("type", .str "join"), ("relationship", .str "many_to_one"), ("sql_on", .str "a = b"),
       ("reference", .str "customers")]]),
   ("fields", .list [.dict fcGroup, .dict vcPrice, .dict fcSum])]
/-- A view with much wrong: two tables, a date that is no date, an unknown field in a set, an identifier that refers to nothing, a duplicate
identifier, two primary keys and an unknown property. -/
def vcBad : FDef :=
  [("name", .str "orders"), ("sql_table_name", .str "raw.orders"), ("derived_table", .dict []), ("default_date", .str "cost"),
   ("sets", .list [.dict [("name", .str "main"), ("fields", .list [.str "*"])]]),
   ("identifiers", .list [.dict [("name", .str "key"), ("type", .str "foreign"), ("sql", .str "${cost}")],
     .dict [("name", .str "key"), ("type", .str "primary"), ("identifiers", .list [.dict [("name", .str "other")]])]]),
   ("fields", .list [.dict vcPrice, .dict (("primary_key", .bool true) :: fcGroup)]), ("colour", .str "red")]

/-! ### What is reported -/

/-- C63 (a): a definition without a name or without fields is rejected when the view is made; otherwise the name is put in lower case, `sets` is
there, and nothing else changes. -/
theorem C63_made (d : FDef) :
    ((∃ e, viewInit d = .error e) ↔ ¬ HasKey d "name" ∨ ¬ HasKey d "fields") ∧
    ∀ d', viewInit d = .ok d' → HasKey d' "name" ∧ HasKey d' "fields" ∧ HasKey d' "sets" ∧
      (∀ s, Given d "name" (.str s) → Given d' "name" (.str (String.ofList (s.toList.map Char.toLower)))) ∧
      ∀ k, k ≠ "name" → k ≠ "sets" → dictGet d' k = dictGet d k := by
  set d1 := (if (dictGet d "sets").isSome then d else dictSet d "sets" (.list [])) with hd1
  have g1 : ∀ k, k ≠ "sets" → dictGet d1 k = dictGet d k := by
    intro k hk
    rw [hd1]
    split
    · rfl
    · rw [dictGet_set, if_neg (fun h => hk h.symm)]
  have s1 : (dictGet d1 "sets").isSome = true := by
    rw [hd1]
    split
    · assumption
    · rw [dictGet_set, if_pos rfl]; rfl
  set d2 := (match dictGet d1 "name" with
    | some (.str s) => dictSet d1 "name" (.str (String.ofList (s.toList.map Char.toLower)))
    | _ => d1) with hd2
  have g2 : ∀ k, k ≠ "name" → dictGet d2 k = dictGet d1 k := by
    intro k hk
    rw [hd2]
    split
    · rw [dictGet_set, if_neg (fun h => hk h.symm)]
    · rfl
  have n2 : ∀ s, Given d "name" (.str s) → Given d2 "name" (.str (String.ofList (s.toList.map Char.toLower))) := by
    intro s hs
    have : dictGet d1 "name" = some (.str s) := by rw [g1 _ (by decide)]; exact hs
    rw [hd2, this]
    unfold Given
    simp only
    rw [dictGet_set, if_pos rfl]
  have m2 : (dictGet d2 "name").isSome = (dictGet d "name").isSome := by
    rw [← g1 "name" (by decide), hd2]
    split
    · rename_i s hs; rw [dictGet_set, if_pos rfl, hs]; rfl
    · rfl
  have f2 : (dictGet d2 "fields").isSome = (dictGet d "fields").isSome := by rw [g2 _ (by decide), g1 _ (by decide)]
  have e : viewInit d = if (dictGet d2 "name").isSome ∧ (dictGet d2 "fields").isSome then .ok d2 else .error .query := rfl
  rw [e]
  constructor
  · rw [m2, f2, ← isSome_iff_hasKey, ← isSome_iff_hasKey]
    by_cases h : (dictGet d "name").isSome = true ∧ (dictGet d "fields").isSome = true
    · rw [if_pos h]; simp [h.1, h.2]
    · rw [if_neg h]
      simp only [Except.error.injEq, exists_eq', true_iff]
      tauto
  · intro d' h
    split at h
    · rename_i hk
      cases h
      refine ⟨(isSome_iff_hasKey _ _).mp hk.1, (isSome_iff_hasKey _ _).mp hk.2, ?_, n2, ?_⟩
      · rw [← isSome_iff_hasKey, g2 _ (by decide)]; exact s1
      · intro k h1 h2; rw [g2 k h1, g1 k h2]
    · cases h

/-- The name is put in lower case. -/
example : viewInit [("name", .str "Orders"), ("fields", .list [])] =
    .ok [("name", .str "orders"), ("fields", .list []), ("sets", .list [])] := by rfl

/-- What `Field.__init__` makes of a definition. -/
theorem fieldInit_made {pre : Option Yaml} {v : Yaml} {g : FDef} (h : fieldInit pre v = .ok g) : ∃ f, v = .dict f ∧ MadeOf pre f g := by
  cases v with
  | dict f =>
    refine ⟨f, rfl, ?_⟩
    set f1 := (match pre with
      | some v => dictSet f "label_prefix" v
      | none => f) with hf1
    have g1 : ∀ k, k ≠ "label_prefix" → dictGet f1 k = dictGet f k := by
      intro k hk
      rw [hf1]
      cases pre with
      | none => rfl
      | some v => simp only; rw [dictGet_set, if_neg (fun h => hk h.symm)]
    set f2 := (match dictGet f1 "name" with
      | some (.str s) => dictSet f1 "name" (.str (String.ofList (s.toList.map Char.toLower)))
      | _ => f1) with hf2
    have g2 : ∀ k, k ≠ "name" → dictGet f2 k = dictGet f1 k := by
      intro k hk
      rw [hf2]
      split
      · rw [dictGet_set, if_neg (fun h => hk h.symm)]
      · rfl
    set f3 := (match dictGet f2 "label_prefix" with
      | some .null => f2.filter (fun (e : String × Yaml) => e.1 ≠ "label_prefix")
      | _ => f2) with hf3
    have g3 : ∀ k, k ≠ "label_prefix" → dictGet f3 k = dictGet f2 k := by
      intro k hk
      rw [hf3]
      split
      · generalize f2 = l
        induction l with
        | nil => rfl
        | cons x l ih =>
          by_cases hx : x.1 = "label_prefix"
          · rw [List.filter_cons_of_neg (by simp [hx]), ih]
            obtain ⟨a, b⟩ := x
            simp only at hx
            subst hx
            simp [dictGet, Ne.symm hk]
          · rw [List.filter_cons_of_pos (by simp [hx])]
            obtain ⟨a, b⟩ := x
            simp only [dictGet]
            rw [ih]
      · rfl
    have e : fieldInit pre (.dict f) = if (dictGet f3 "name").isSome ∧ (dictGet f3 "field_type").isSome then .ok f3 else .error .query := rfl
    rw [e] at h
    split at h
    · rename_i hk
      rw [← Except.ok.inj h]
      have hlow : ∀ s, Given f "name" (.str s) → Given f3 "name" (.str (String.ofList (s.toList.map Char.toLower))) := by
        intro s hs
        have e1 : dictGet f1 "name" = some (.str s) := by rw [g1 _ (by decide)]; exact hs
        unfold Given
        rw [g3 _ (by decide), hf2, e1]
        simp only
        rw [dictGet_set, if_pos rfl]
      have hsame : (∀ s, dictGet f "name" ≠ some (.str s)) → dictGet f3 "name" = dictGet f "name" := by
        intro hn
        rw [g3 _ (by decide), hf2, ← g1 "name" (by decide)]
        split
        · rename_i s hs; rw [g1 _ (by decide)] at hs; exact absurd hs (hn s)
        · rfl
      refine ⟨?_, ?_, hlow, ?_, ?_, ?_⟩
      · have : HasKey f3 "name" := (isSome_iff_hasKey _ _).mp hk.1
        obtain ⟨v, hv⟩ := this
        cases hn : dictGet f "name" with
        | none =>
          have := hsame (fun s => by rw [hn]; simp)
          unfold Given at hv; rw [this, hn] at hv; cases hv
        | some w => exact ⟨w, hn⟩
      · have := hk.2
        rw [g3 _ (by decide), g2 _ (by decide), g1 _ (by decide)] at this
        exact (isSome_iff_hasKey _ _).mp this
      · intro v hv
        unfold Given
        constructor
        · intro hg
          by_cases hs : ∃ s, dictGet f "name" = some (.str s)
          · obtain ⟨s, hs⟩ := hs
            have := hlow s hs
            unfold Given at this
            rw [this] at hg
            cases hg
            exact absurd ⟨_, rfl⟩ hv
          · rw [← hsame (fun s hc => hs ⟨s, hc⟩)]; exact hg
        · intro hg
          rw [hsame (fun s hc => by rw [hg] at hc; cases hc; exact hv ⟨s, rfl⟩)]; exact hg
      · intro k v hk1 hk2
        unfold Given
        rw [g3 k hk2, g2 k hk1, g1 k hk2]
      · intro v
        have e2 : dictGet f2 "label_prefix" = dictGet f1 "label_prefix" := g2 _ (by decide)
        have e3 : ∀ v, dictGet f3 "label_prefix" = some v ↔ v ≠ .null ∧ dictGet f1 "label_prefix" = some v := by
          intro v
          rw [hf3, ← e2]
          split
          · rename_i hnull
            rw [hnull]
            constructor
            · intro hc
              exfalso
              have gone : ∀ l : FDef, dictGet (l.filter fun e => e.1 ≠ "label_prefix") "label_prefix" = none := by
                intro l
                induction l with
                | nil => rfl
                | cons x l ih =>
                  by_cases hx : x.1 = "label_prefix"
                  · rw [List.filter_cons_of_neg (by simp [hx])]; exact ih
                  · rw [List.filter_cons_of_pos (by simp [hx])]
                    obtain ⟨a, b⟩ := x
                    simp only [dictGet]
                    rw [if_neg hx]
                    exact ih
              rw [gone] at hc
              cases hc
            · rintro ⟨h1, h2⟩
              exact absurd (Option.some.inj h2).symm h1
          · rename_i hnn
            constructor
            · intro hv
              refine ⟨?_, hv⟩
              rintro rfl
              exact hnn hv
            · exact fun hv => hv.2
        unfold Given
        rw [e3 v, hf1]
        cases pre with
        | none => simp
        | some w =>
          simp only
          rw [dictGet_set, if_pos rfl]
          simp
    · cases h
  | str s =>
    exfalso
    simp only [fieldInit] at h
    split at h
    · cases h
    · split at h <;> cases h
  | list l =>
    exfalso
    simp only [fieldInit] at h
    split at h
    · cases h
    · split at h <;> cases h
  | _ => cases h

theorem fieldsLoop_made {env : ViewEnv} {pre : Option Yaml} : ∀ {l : List Yaml} {fs : List FDef}, fieldsLoop env pre l = .ok fs →
    ∃ gs, List.Forall₂ (fun v g => ∃ f, v = Yaml.dict f ∧ MadeOf pre f g) l gs ∧ fs.Sublist gs ∧
      (∀ g ∈ fs, env.canAccess g = .ok true) ∧ (∀ g ∈ gs, g ∈ fs ∨ env.canAccess g = .ok false)
  | [], fs, h => by cases h; exact ⟨[], .nil, List.Sublist.refl _, by simp, by simp⟩
  | v :: l, fs, h => by
    unfold fieldsLoop at h
    cases hv : fieldInit pre v with
    | error e => rw [hv] at h; cases h
    | ok g =>
      rw [hv] at h
      simp only at h
      cases ha : env.canAccess g with
      | error e => rw [ha] at h; cases h
      | ok b =>
        rw [ha] at h
        simp only at h
        cases hr : fieldsLoop env pre l with
        | error e => rw [hr] at h; cases h
        | ok r =>
          rw [hr] at h
          cases h
          obtain ⟨gs, h1, h2, h3, h4⟩ := fieldsLoop_made hr
          refine ⟨g :: gs, .cons (fieldInit_made hv) h1, ?_, ?_, ?_⟩
          · cases b with
            | true => exact h2.cons_cons g
            | false => exact h2.cons g
          · cases b with
            | true =>
              intro x hx
              rcases List.mem_cons.mp hx with rfl | hx
              · exact ha
              · exact h3 x hx
            | false => exact h3
          · intro x hx
            rcases List.mem_cons.mp hx with rfl | hx
            · cases b with
              | true => exact .inl List.mem_cons_self
              | false => exact .inr ha
            · rcases h4 x hx with h | h
              · cases b with
                | true => exact .inl (List.mem_cons_of_mem _ h)
                | false => exact .inl h
              · exact .inr h

/-- C63 (b): the fields that are validated are made of the definitions in the list, in order, their names in lower case, without those the user
may not see. -/
theorem C63_fields (env : ViewEnv) (d : FDef) (l : List Yaml) (hl : Given d "fields" (.list l)) (fs : List FDef) (h : checkedFields env d = .ok fs) :
    ∃ pre, (∀ v, pre = some v ↔ Given d "field_prefix" v ∧ v.truthy = true) ∧
      ∃ gs, List.Forall₂ (fun v g => ∃ f, v = Yaml.dict f ∧ MadeOf pre f g) l gs ∧ fs.Sublist gs ∧
        (∀ g ∈ fs, env.canAccess g = .ok true) ∧ (∀ g ∈ gs, g ∈ fs ∨ env.canAccess g = .ok false) := by
  unfold checkedFields at h
  rw [show dictGet d "fields" = _ from hl] at h
  refine ⟨_, ?_, fieldsLoop_made h⟩
  intro v
  unfold Given
  cases hp : dictGet d "field_prefix" with
  | none => simp [truthyOpt]
  | some w =>
    by_cases hw : w.truthy = true
    · rw [if_pos (by simpa [truthyOpt] using hw)]
      constructor
      · intro hv; cases hv; exact ⟨rfl, hw⟩
      · rintro ⟨hv, _⟩; exact hv
    · rw [if_neg (by simpa [truthyOpt] using hw)]
      constructor
      · intro hv; cases hv
      · rintro ⟨hv, ht⟩; cases hv; exact absurd ht hw

/-- The fields of the example. -/
example : checkedFields vcEnv vcView = .ok [fcGroup, vcPrice, fcSum] := by rfl

theorem checkedFields_first {env : ViewEnv} {d : FDef} {v : Yaml} {l : List Yaml} {e : Err} (h : Given d "fields" (.list (v :: l)))
    (he : fieldInit (if truthyOpt (dictGet d "field_prefix") then dictGet d "field_prefix" else none) v = .error e) :
    checkedFields env d = .error e := by
  unfold checkedFields
  rw [show dictGet d "fields" = _ from h]
  simp only [iterate, fieldsLoop]
  rw [he]

theorem prefix_of_unset {d : FDef} (h : ¬ IsSet d "field_prefix") :
    (if truthyOpt (dictGet d "field_prefix") then dictGet d "field_prefix" else none) = none := by
  rw [if_neg (by rw [truthyOpt_iff]; exact h)]

/-- C63: what a view's `fields` raise: a value that cannot be gone through, and an element that is neither a dictionary, a text nor a list, is a
TypeError, and so is any element that is no dictionary in a view with a prefix. Without a prefix a text that contains `name` or `label_prefix`, or
a list with one of them as an element, is a TypeError, and any other text or list is the one report that the fields cannot be made. -/
theorem C63_fields_raise (env : ViewEnv) (d : FDef) :
    (∀ v, Given d "fields" v → ¬ Listed v → ¬ Dictionary v → ¬ Text v → viewErrorsOf env d = .error .typeError) ∧
    (∀ v l, Given d "fields" (.list (v :: l)) → ¬ Listed v → ¬ Dictionary v → ¬ Text v → viewErrorsOf env d = .error .typeError) ∧
    (∀ v l, Given d "fields" (.list (v :: l)) → ¬ Dictionary v → IsSet d "field_prefix" → viewErrorsOf env d = .error .typeError) ∧
    (∀ s l, Given d "fields" (.list (.str s :: l)) → ¬ IsSet d "field_prefix" →
      (("name".toList <:+: s.toList ∨ "label_prefix".toList <:+: s.toList) → viewErrorsOf env d = .error .typeError) ∧
      (¬ "name".toList <:+: s.toList → ¬ "label_prefix".toList <:+: s.toList → viewErrorsOf env d = .ok [.fields])) ∧
    (∀ m l, Given d "fields" (.list (.list m :: l)) → ¬ IsSet d "field_prefix" →
      ((Yaml.str "name" ∈ m ∨ Yaml.str "label_prefix" ∈ m) → viewErrorsOf env d = .error .typeError) ∧
      (Yaml.str "name" ∉ m → Yaml.str "label_prefix" ∉ m → viewErrorsOf env d = .ok [.fields])) := by
  have type : checkedFields env d = .error .typeError → viewErrorsOf env d = .error .typeError := by
    intro h; unfold viewErrorsOf; rw [h]
  have query : checkedFields env d = .error .query → viewErrorsOf env d = .ok [.fields] := by
    intro h; unfold viewErrorsOf; rw [h]
  have has : ∀ (m : List Yaml) (k : String), (m.any fun v => v.text? = some k) = true ↔ Yaml.str k ∈ m := by
    intro m k
    rw [List.any_eq_true]
    constructor
    · rintro ⟨v, hv, hk⟩
      cases v <;> simp [Yaml.text?] at hk
      subst hk; exact hv
    · intro h
      exact ⟨_, h, by simp [Yaml.text?]⟩
  refine ⟨?_, ?_, ?_, ?_, ?_⟩
  · intro v h h1 h2 h3
    apply type
    unfold checkedFields
    rw [show dictGet d "fields" = _ from h]
    cases v with
    | list l => exact absurd ⟨l, rfl⟩ h1
    | dict l => exact absurd ⟨l, rfl⟩ h2
    | str s => exact absurd ⟨s, rfl⟩ h3
    | _ => rfl
  · intro v l h h1 h2 h3
    apply type
    apply checkedFields_first h
    cases v with
    | list l => exact absurd ⟨l, rfl⟩ h1
    | dict l => exact absurd ⟨l, rfl⟩ h2
    | str s => exact absurd ⟨s, rfl⟩ h3
    | _ => rfl
  · intro v l h h1 hp
    apply type
    apply checkedFields_first h
    rw [if_pos ((truthyOpt_iff _ _).2 hp)]
    obtain ⟨w, hw, -⟩ := hp
    rw [show dictGet d "field_prefix" = _ from hw]
    cases v with
    | dict l => exact absurd ⟨l, rfl⟩ h1
    | _ => rfl
  · intro s l h hp
    constructor
    · intro hs
      apply type
      apply checkedFields_first h
      rw [prefix_of_unset hp]
      simp only [fieldInit]
      rw [if_neg (by simp), if_pos (by simpa only [containsSub_iff] using hs)]
    · intro h1 h2
      apply query
      apply checkedFields_first h
      rw [prefix_of_unset hp]
      simp only [fieldInit]
      rw [if_neg (by simp), if_neg (by rw [containsSub_iff, containsSub_iff]; exact fun h => h.elim h1 h2)]
  · intro m l h hp
    constructor
    · intro hs
      apply type
      apply checkedFields_first h
      rw [prefix_of_unset hp]
      simp only [fieldInit]
      rw [if_neg (by simp), if_pos (by rw [has, has]; exact hs)]
    · intro h1 h2
      apply query
      apply checkedFields_first h
      rw [prefix_of_unset hp]
      simp only [fieldInit]
      rw [if_neg (by simp), if_neg (by rw [has, has]; exact fun h => h.elim h1 h2)]

/-- A number for `fields`; a text among them. -/
example : viewErrorsOf vcEnv [("name", .str "orders"), ("fields", .int 1)] = .error .typeError ∧
    viewErrorsOf vcEnv [("name", .str "orders"), ("fields", .list [.str "price"])] = .ok [.fields] ∧
    viewErrorsOf vcEnv [("name", .str "orders"), ("fields", .list [.str "surname"])] = .error .typeError :=
  ⟨by rfl, by rfl, by rfl⟩

/-- C63 (c): when the fields cannot be made, or there is no model, that is the only thing reported. -/
theorem C63_stops (env : ViewEnv) (d : FDef) :
    (checkedFields env d = .error .query → viewErrorsOf env d = .ok [.fields]) ∧
    ∀ fs, checkedFields env d = .ok fs → (env.model = .ok false ∨ env.model = .error .query) → viewErrorsOf env d = .ok [.noModel] := by
  constructor
  · intro h; unfold viewErrorsOf; rw [h]
  · rintro fs h (hm | hm)
    · unfold viewErrorsOf; rw [h]; simp only; rw [hm]
    · unfold viewErrorsOf; rw [h]; simp only; rw [hm]

/-- A field without a `field_type` hides every other problem. -/
example : viewErrorsOf vcEnv [("name", .str "or ders"), ("fields", .list [.dict [("name", .str "price")]]), ("sets", .list [])] =
    .ok [.fields] := by rfl

theorem viewErrorsOf_examined {env : ViewEnv} {d : FDef} {view : String} {fs : List FDef} (hx : Examined env d view fs) :
    viewErrorsOf env d = seqChecks (.ok (if validName view then [] else [.badName]) :: viewChecks env view d fs) := by
  unfold viewErrorsOf
  rw [hx.fields]
  simp only
  rw [hx.model]
  simp only
  rw [show dictGet d "name" = _ from hx.name]

/-- C63 (d): when validating a view ends with a report, the report lists exactly the problems of the specification. -/
theorem C63_exact (env : ViewEnv) (d : FDef) (view : String) (fs : List FDef) (hx : Examined env d view fs) (ps : List ViewProblem)
    (h : viewErrorsOf env d = .ok ps) (p : ViewProblem) : p ∈ ps ↔ ViewHas env view d fs p := by
  rw [viewErrorsOf_examined hx] at h
  rw [← viewChecks_says ⟨ps, h⟩, h, says_ok]

/-- The view in order, and the one with much wrong. -/
example : Examined vcEnv vcView "orders" [fcGroup, vcPrice, fcSum] ∧ viewErrorsOf vcEnv vcView = .ok [] ∧
    viewErrorsOf vcEnv vcBad = .ok [.bothTables, .derivedNoSql, .dateUnknown, .set (.unknown "orders.cost"),
      .identifier "key" (.sqlUnknown "cost"), .duplicateIdentifier "key", .compositeUnknown "key" "other",
      .manyKeys, .unknownKey "colour"] :=
  ⟨⟨rfl, rfl, rfl⟩, by rfl, by rfl⟩

/-- C63 (e): the views for which validation ends with an exception instead of a report. -/
theorem C63_raises (env : ViewEnv) (hl : ViewLooksUp env) (d : FDef) (view : String) (fs : List FDef) (hx : Examined env d view fs) :
    (∃ e, viewErrorsOf env d = .error e) ↔ ViewRaises env view d fs := by
  rw [viewErrorsOf_examined hx]
  exact viewChecks_fails hl

/-- A set whose name is a number. -/
example : viewErrorsOf vcEnv (vcView ++ [("sets", .list [.dict [("name", .int 1), ("fields", .list [])]])]) = .error .typeError := by rfl

/-- C63 (f): an event dimension with a view in its name makes validation raise unless the view has a default date, and the field it names is
looked at in neither case. -/
theorem C63_event_dimension (env : ViewEnv) (hl : ViewLooksUp env) (d : FDef) (view s : String) (fs : List FDef) (hx : Examined env d view fs)
    (hs : Given d "event_dimension" (.str s)) (hdot : '.' ∈ s.toList) :
    (¬ HasKey d "default_date" → ∃ e, viewErrorsOf env d = .error e) ∧
    ∀ t g ps, Given d "default_date" (.str t) → t ≠ "" → env.base.getText t = .ok g → viewErrorsOf env d = .ok ps → .eventUnknown ∉ ps := by
  constructor
  · intro h
    rw [C63_raises env hl d view fs hx]
    exact .noDate hs hdot h
  · intro t g ps ht h0 hg hps hp
    rw [C63_exact env d view fs hx ps hps] at hp
    have hev : ViewProblem.eventUnknown = .eventUnknown → False := by
      intro _
      have key : ∀ n, EventName env view d n → ¬ Unknown (env.base.getText n) := by
        intro n hn hu
        cases hn with
        | own h1 h2 =>
          have := given_unique hs h1
          cases this
          exact h2 hdot
        | date h1 h2 h3 h4 h5 =>
          have := given_unique ht h3
          subst this
          rcases h4 with h4 | h4
          · cases h4
            unfold Unknown at hu
            rw [hg] at hu; cases hu
          · exact h4.1 ⟨_, rfl⟩
      cases hp with
      | event h1 h2 => exact key _ h1 h2
      | access _ _ h => cases h
    exact hev rfl

/-- The dotted event dimension names no field: with a default date nothing is reported, without one validation raises. -/
example : vcEnv.base.getText "orders.no_such" = .error .accessDenied ∧
    viewErrorsOf vcEnv (("default_date", .str "orders.created") :: ("event_dimension", .str "orders.no_such") :: vcView) = .ok [] ∧
    viewErrorsOf vcEnv (("event_dimension", .str "orders.no_such") :: vcView.filter (fun e => e.1 ≠ "default_date")) = .error .keyError :=
  ⟨by rfl, by rfl, by rfl⟩

/-! ### What a view without errors is good for -/

theorem onlyWarnings_not {env : ViewEnv} {d : FDef} {view : String} {fs : List FDef} (hx : Examined env d view fs) (h : OnlyWarnings env d)
    {p : ViewProblem} (hp : ViewHas env view d fs p) :
    p = .bothTables ∨ p = .noPrimaryKey ∨ (∃ n, p = .identifier n .noBraces) ∨ ∃ n r, p = .field n r ∧ r.problem = .noDate := by
  obtain ⟨ps, hps, hw⟩ := h
  exact hw p ((C63_exact env d view fs hx ps hps p).mpr hp)

theorem onlyWarnings_returns {env : ViewEnv} (hl : ViewLooksUp env) {d : FDef} {view : String} {fs : List FDef} (hx : Examined env d view fs)
    (h : OnlyWarnings env d) : ¬ ViewRaises env view d fs := by
  obtain ⟨ps, hps, -⟩ := h
  rw [← C63_raises env hl d view fs hx, hps]
  rintro ⟨e, he⟩; cases he

/-- C63 (g): in a view without errors the fields have different names, at most one is the primary key, and validating each of them on its own
reports nothing that is no warning. -/
theorem C63_clean_fields (env : ViewEnv) (hl : ViewLooksUp env) (d : FDef) (view : String) (fs : List FDef) (hx : Examined env d view fs)
    (h : OnlyWarnings env d) :
    (∀ f ∈ fs, GivesText f "name" ∧ NothingReported (fieldEnv env view d) f) ∧
    fs.Pairwise (fun f g => ∀ n, Given f "name" (.str n) → ¬ Given g "name" (.str n)) ∧
    ∀ f ∈ fs, ∀ g ∈ fs, ∀ n m, KeyField f n → KeyField g m → n = m := by
  have hr := onlyWarnings_returns hl hx h
  have hn : ∀ f ∈ fs, GivesText f "name" := by
    intro f hf
    by_contra hc
    obtain ⟨e, he⟩ := C62_raises_name (fieldEnv env view d) f hc
    exact hr (.field hf he)
  refine ⟨fun f hf => ⟨hn f hf, ?_⟩, ?_, ?_⟩
  · cases hc : collectErrors (fieldEnv env view d) f with
    | error e => exact absurd (.field hf hc) hr
    | ok rs =>
      refine ⟨rs, hc, ?_⟩
      intro r hrm
      obtain ⟨n, hname⟩ := hn f hf
      have hp := (C62_exact _ f n hname rs hc r.problem).mp ⟨r, hrm, rfl⟩
      obtain ⟨w, hw⟩ : ∃ w, Marks f r.problem w := by
        by_cases h1 : r.problem = .caseDeprecated ∨ r.problem = .noDate <;> by_cases h2 : IsSet f "is_personal_field"
        · exact ⟨2, 1, 1, rfl, .inl ⟨rfl, h1⟩, .inl ⟨rfl, h2⟩⟩
        · exact ⟨1, 1, 0, rfl, .inl ⟨rfl, h1⟩, .inr ⟨rfl, h2⟩⟩
        · exact ⟨1, 0, 1, rfl, .inr ⟨rfl, h1⟩, .inl ⟨rfl, h2⟩⟩
        · exact ⟨0, 0, 0, rfl, .inr ⟨rfl, h1⟩, .inr ⟨rfl, h2⟩⟩
      rcases onlyWarnings_not hx h (.field hf hname hp hw) with h | h | ⟨_, h⟩ | ⟨n', r', h, h'⟩
      · cases h
      · cases h
      · cases h
      · cases h; exact h'
  · by_contra hc
    have hdup : ∃ a b c f g n, fs = a ++ f :: b ++ g :: c ∧ Given f "name" (.str n) ∧ Given g "name" (.str n) := by
      clear hx h hr hn
      induction fs with
      | nil => exact absurd List.Pairwise.nil hc
      | cons f fs ih =>
        rw [List.pairwise_cons] at hc
        by_cases h1 : ∀ g ∈ fs, ∀ n, Given f "name" (.str n) → ¬ Given g "name" (.str n)
        · obtain ⟨a, b, c, f', g, n, h2, h3⟩ := ih (fun h => hc ⟨h1, h⟩)
          exact ⟨f :: a, b, c, f', g, n, by rw [h2]; rfl, h3⟩
        · push Not at h1
          obtain ⟨g, hg, n, h2, h3⟩ := h1
          obtain ⟨b, c, rfl⟩ := List.append_of_mem hg
          exact ⟨[], b, c, f, g, n, rfl, h2, h3⟩
    obtain ⟨a, b, c, f, g, n, h1, h2, h3⟩ := hdup
    rcases onlyWarnings_not hx h (.duplicateFields h1 h2 h3) with h | h | ⟨_, h⟩ | ⟨_, _, h, _⟩ <;> cases h
  · intro f hf g hg n m h1 h2
    by_contra hnm
    rcases onlyWarnings_not hx h (.manyKeys hf hg h1 h2 hnm) with h | h | ⟨_, h⟩ | ⟨_, _, h, _⟩ <;> cases h

/-- C63 (h): in a view without errors the default date is a time dimension group, of the view itself or of one it can be joined with. -/
theorem C63_clean_date (env : ViewEnv) (hl : ViewLooksUp env) (d : FDef) (view s : String) (fs : List FDef) (hx : Examined env d view fs)
    (h : OnlyWarnings env d) (hs : Given d "default_date" (.str s)) (hne : s ≠ "") :
    ∃ full g vs, Qualified view s full ∧ env.base.getByName full = .ok g ∧ g.role = .group ∧ g.type = "time" ∧
      env.joinable view = .ok vs ∧ (g.view ∈ vs ∨ g.view = view) := by
  have no : ∀ {p}, ViewHas env view d fs p → p = .dateUnknown ∨ p = .dateNotTime ∨ p = .dateNotJoinable → False := by
    intro p hp h3
    rcases onlyWarnings_not hx h hp with h | h | ⟨_, h⟩ | ⟨_, _, h, _⟩ <;> rcases h3 with rfl | rfl | rfl <;> cases h
  obtain ⟨full, hq⟩ : ∃ full, Qualified view s full := ⟨_, qualified_iff.mpr rfl⟩
  cases hg : env.base.getByName full with
  | error e =>
    exact (no (.dateUnknown hs hne hq (by rcases hl.getByName _ _ hg with rfl | rfl; exacts [.inl hg, .inr hg])) (.inl rfl)).elim
  | ok g =>
    cases hj : env.joinable view with
    | error e =>
      exact (no (.dateNoGraph hs hne hq hg (by rcases hl.joinable _ _ hj with rfl | rfl; exacts [.inl hj, .inr hj])) (.inl rfl)).elim
    | ok vs =>
      refine ⟨full, g, vs, hq, hg, ?_, ?_, rfl, ?_⟩
      · by_contra hc; exact no (.dateNotTime hs hne hq hg (.inl hc)) (.inr (.inl rfl))
      · by_contra hc; exact no (.dateNotTime hs hne hq hg (.inr hc)) (.inr (.inl rfl))
      · by_contra hc
        push Not at hc
        exact no (.dateNotJoinable hs hne hq hg hj hc.1 hc.2) (.inr (.inr rfl))

/-- C63 (i): in a view without errors the identifiers have different proper names and one of the three types, the fields they refer to exist, and a
join leads to a view of the project. -/
theorem C63_clean_identifiers (env : ViewEnv) (hl : ViewLooksUp env) (d : FDef) (view : String) (fs : List FDef) (hx : Examined env d view fs)
    (h : OnlyWarnings env d) :
    ∃ ids, IdentifiersAre d ids ∧
      (∀ i ∈ ids, ∃ name t, Given i "name" (.str name) ∧ ProperName name ∧ Given i "type" (.str t) ∧ t ∈ ["primary", "foreign", "join"] ∧
        (t = "join" → ∃ r, Given i "reference" (.str r) ∧ env.hasView r = true) ∧
        ∀ o n, LookedUp view i o n → ∃ g, env.base.getText n = .ok g) ∧
      ids.Pairwise (fun i j => ∀ n, Given i "name" (.str n) → ¬ Given j "name" (.str n)) := by
  have no : ∀ {p}, ViewHas env view d fs p →
      p = .identifiers ∨ (∃ n q, p = .identifier n q ∧ q ≠ .noBraces) ∨ (∃ n, p = .duplicateIdentifier n) → False := by
    intro p hp h3
    rcases onlyWarnings_not hx h hp with h | h | ⟨_, h⟩ | ⟨_, _, h, _⟩ <;> rcases h3 with rfl | ⟨n, q, rfl, hq⟩ | ⟨n, rfl⟩ <;> cases h
    exact hq rfl
  obtain ⟨ids, hi⟩ : ∃ ids, IdentifiersAre d ids := by
    by_contra hc
    push Not at hc
    exact no (.identifiers hc) (.inl rfl)
  have ham : ∀ i ∈ ids, ¬ AmbiguousId env view i := fun i him ha => no (.ambiguous hi him ha) (.inl rfl)
  have hformed : ∀ i ∈ ids, FormedId i := by
    rcases hi with ⟨-, rfl⟩ | ⟨-, hf⟩
    · simp
    · exact hf
  have hreach : ∀ i ∈ ids, ∃ a b, Reached env view ids a i b := by
    intro i him
    obtain ⟨a, b, e⟩ := List.append_of_mem him
    refine ⟨a, b, e, ?_⟩
    intro j hj
    apply ham
    rw [e]
    rcases List.mem_append.mp hj with hj | hj
    · exact List.mem_append_left _ hj
    · rw [List.mem_singleton.mp hj]; exact List.mem_append_right _ List.mem_cons_self
  have shown : ∀ v, ∃ n, Shown env v n := by
    intro v
    by_cases hv : Text v
    · obtain ⟨n, rfl⟩ := hv; exact ⟨n, .inl rfl⟩
    · exact ⟨_, .inr ⟨hv, rfl⟩⟩
  have noId : ∀ i ∈ ids, ∀ q, IdHas env view i q → q = .noBraces := by
    intro i him q hq
    by_contra hc
    obtain ⟨a, b, hab⟩ := hreach i him
    obtain ⟨v, hv⟩ := (hformed i him).name
    obtain ⟨n, hn⟩ := shown v
    exact no (.identifier hi hab hv hn hq) (.inr (.inl ⟨n, q, rfl, hc⟩))
  refine ⟨ids, hi, ?_, ?_⟩
  · intro i him
    obtain ⟨name, hname⟩ : GivesText i "name" := by
      obtain ⟨v, hv⟩ := (hformed i him).name
      by_contra hc
      cases noId i him _ (.nameKind ⟨v, hv, fun ⟨s, hs⟩ => hc ⟨s, hs ▸ hv⟩⟩)
    obtain ⟨t, ht⟩ : GivesText i "type" := by
      obtain ⟨v, hv⟩ := (hformed i him).type
      by_contra hc
      cases noId i him _ (.typeKind ⟨name, hname⟩ ⟨v, hv, fun ⟨s, hs⟩ => hc ⟨s, hs ▸ hv⟩⟩)
    have htt : t ∈ ["primary", "foreign", "join"] := by
      by_contra hc
      cases noId i him _ (.type ⟨name, hname⟩ ht hc)
    refine ⟨name, t, hname, ?_, ht, htt, ?_, ?_⟩
    · by_contra hc
      cases noId i him _ (.name hname hc)
    · rintro rfl
      obtain ⟨v, hv⟩ := ((hformed i him).join ht).2.2
      obtain ⟨r, hr⟩ : GivesText i "reference" := by
        by_contra hc
        cases noId i him _ (.referenceKind ⟨⟨name, hname⟩, ht, htt⟩ ⟨v, hv, fun ⟨s, hs⟩ => hc ⟨s, hs ▸ hv⟩⟩)
      refine ⟨r, hr, ?_⟩
      cases hh : env.hasView r with
      | true => rfl
      | false => cases noId i him _ (.noView ⟨⟨name, hname⟩, ht, htt⟩ hr hh)
    · intro o n hlk
      cases hg : env.base.getText n with
      | ok g => exact ⟨g, rfl⟩
      | error e =>
        rcases hl.getText _ _ hg with rfl | rfl
        · cases o with
          | none => cases noId i him _ (.fieldUnknown hlk hg)
          | some r => cases noId i him _ (.sqlUnknown hlk hg)
        · exact absurd ⟨o, n, hlk, hg⟩ (ham i him)
  · by_contra hc
    obtain ⟨a, b, i, j, n, e, hj, h1, h2⟩ : ∃ a b i j n, ids = a ++ i :: b ∧ j ∈ a ∧ Given j "name" (.str n) ∧ Given i "name" (.str n) := by
      clear hi ham hformed hreach noId
      induction ids with
      | nil => exact absurd List.Pairwise.nil hc
      | cons f l ih =>
        rw [List.pairwise_cons] at hc
        by_cases h1 : ∀ g ∈ l, ∀ n, Given f "name" (.str n) → ¬ Given g "name" (.str n)
        · obtain ⟨a, b, i, j, n, e, hj, h2⟩ := ih (fun h => hc ⟨h1, h⟩)
          exact ⟨f :: a, b, i, j, n, by rw [e]; rfl, List.mem_cons_of_mem _ hj, h2⟩
        · push Not at h1
          obtain ⟨g, hg, n, h2, h3⟩ := h1
          obtain ⟨b, c, rfl⟩ := List.append_of_mem hg
          exact ⟨f :: b, c, g, f, n, rfl, List.mem_cons_self, h2, h3⟩
    have hr : Reached env view ids a i b := by
      refine ⟨e, ?_⟩
      intro k hk
      apply ham
      rw [e]
      rcases List.mem_append.mp hk with hk | hk
      · exact List.mem_append_left _ hk
      · rw [List.mem_singleton.mp hk]; exact List.mem_append_right _ List.mem_cons_self
    exact no (.duplicate hi hr hj h1 h2 .text (.inl rfl)) (.inr (.inr ⟨n, rfl⟩))

/-- C63 (j): in a view without errors there is a table to read, and every field named by a filter of the view, and every grant it requires,
exists. -/
theorem C63_clean_uses (env : ViewEnv) (hl : ViewLooksUp env) (d : FDef) (view : String) (fs : List FDef) (hx : Examined env d view fs)
    (h : OnlyWarnings env d) :
    (GivesText d "sql_table_name" ∨ ∃ q, Given d "derived_table" (.dict q) ∧ GivesText q "sql") ∧
    (∀ l f, Given d "always_filter" (.list l) → Yaml.dict f ∈ l → ∃ n g, AlwaysOn view f n ∧ env.base.getText n = .ok g) ∧
    (∀ l f, Given d "access_filters" (.list l) → Yaml.dict f ∈ l →
      GivesText f "user_attribute" ∧ ∃ n g, Given f "field" (.str n) ∧ env.base.getText n = .ok g) ∧
    ∀ l v, Given d "required_access_grants" (.list l) → v ∈ l → ∃ g, v = .str g ∧ env.base.grant g = true := by
  have hr := onlyWarnings_returns hl hx h
  have no : ∀ {p}, ViewHas env view d fs p →
      (p ≠ .bothTables ∧ p ≠ .noPrimaryKey ∧ (∀ n q, p ≠ .identifier n q) ∧ ∀ n r, p ≠ .field n r) → False := by
    intro p hp h3
    rcases onlyWarnings_not hx h hp with h | h | ⟨_, h⟩ | ⟨_, _, h, _⟩
    · exact h3.1 h
    · exact h3.2.1 h
    · exact h3.2.2.1 _ _ h
    · exact h3.2.2.2 _ _ h
  have text : ∀ {q : FDef} {k}, HasKey q k → (GivenNot q k Text → False) → GivesText q k := by
    rintro q k ⟨v, hv⟩ hn
    by_contra hc
    exact hn ⟨v, hv, fun ⟨s, hs⟩ => hc ⟨s, hs ▸ hv⟩⟩
  refine ⟨?_, ?_, ?_, ?_⟩
  · by_cases ht : HasKey d "sql_table_name"
    · exact .inl (text ht (fun hg => no (.text (k := "sql_table_name") (by simp) hg) (by simp)))
    · by_cases hd : HasKey d "derived_table"
      · obtain ⟨v, hv⟩ := hd
        have : Dictionary v := by
          by_contra hc
          exact no (.dict (k := "derived_table") (by simp) ⟨v, hv, hc⟩) (by simp)
        obtain ⟨q, rfl⟩ := this
        by_cases hq : HasKey q "sql"
        · exact .inr ⟨q, hv, text hq (fun hg => no (.derivedSql hv hg) (by simp))⟩
        · exact (no (.derivedNoSql hv hq) (by simp)).elim
      · exact (no (.noTable ht hd) (by simp)).elim
  · intro l f hf hm
    by_cases hk : HasKey f "field"
    · obtain ⟨s, hs⟩ := text hk (fun hg => hr (.alwaysKind hf hm hg))
      refine ⟨qualifyRef view s, ?_⟩
      have ho : AlwaysOn view f (qualifyRef view s) := .mk hs (qualified_iff.mpr rfl)
      cases hg : env.base.getText (qualifyRef view s) with
      | ok g => exact ⟨g, ho, rfl⟩
      | error e =>
        rcases hl.getText _ _ hg with rfl | rfl
        · exact (no (.always hf hm (.unknown ho hg)) (by simp)).elim
        · exact absurd (.always hf hm ho hg) hr
    · exact (no (.always hf hm (.noField hk)) (by simp)).elim
  · intro l f hf hm
    constructor
    · by_cases hk : HasKey f "user_attribute"
      · exact text hk (fun hg => no (.access hf hm (.kind hg)) (by simp))
      · exact (no (.access hf hm (.noAttribute hk)) (by simp)).elim
    · by_cases hk : HasKey f "field"
      · obtain ⟨n, hn⟩ := text hk (fun hg => hr (.accessKind hf hm hg))
        refine ⟨n, ?_⟩
        cases hg : env.base.getText n with
        | ok g => exact ⟨g, hn, rfl⟩
        | error e =>
          rcases hl.getText _ _ hg with rfl | rfl
          · exact (no (.access hf hm (.unknown hn hg)) (by simp)).elim
          · exact absurd (.access hf hm hn hg) hr
      · exact (no (.access hf hm (.noField hk)) (by simp)).elim
  · intro l v hv hm
    have : Text v := by
      by_contra hc
      exact no (.grantItem ⟨l, hv, v, hm, hc⟩) (by simp)
    obtain ⟨g, rfl⟩ := this
    refine ⟨g, rfl, ?_⟩
    cases hg : env.base.grant g with
    | true => rfl
    | false => exact (no (.grant hv hm hg) (by simp)).elim

/-- The example in order meets the hypotheses of the four. -/
example : ViewLooksUp vcEnv ∧ Examined vcEnv vcView "orders" [fcGroup, vcPrice, fcSum] ∧ OnlyWarnings vcEnv vcView :=
  ⟨vcEnv_looksUp, ⟨rfl, rfl, rfl⟩, [], by rfl, by simp⟩

/-- C63: which reports are warnings: both a table and a derived table, no primary key, an identifier without braces, and the warnings of fields. -/
theorem C63_warnings (p : ViewProblem) :
    p.isWarning = true ↔ p = .bothTables ∨ p = .noPrimaryKey ∨ (∃ n, p = .identifier n .noBraces) ∨ ∃ n r, p = .field n r ∧ 1 ≤ r.warnings := by
  cases p with
  | identifier n q => cases q <;> simp [ViewProblem.isWarning]
  | field n r => simp [ViewProblem.isWarning, Nat.one_le_iff_ne_zero, Nat.pos_iff_ne_zero]
  | _ => simp [ViewProblem.isWarning]

end ML
