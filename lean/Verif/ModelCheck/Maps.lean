import Verif.ModelCheck.Lemmas
/-
Lemmas for C64: the loop over all mappings, and the reserved mappings that are added to those of the definition.
-/
set_option autoImplicit false
namespace ML
open Spec

/-! ### All mappings -/

/-- The steps of the loop over the mappings. -/
def allSteps (env : ModelCheckEnv) (ms : FDef) : List (Res (List ModelProblem)) :=
  ms.flatMap (fun m => (mapSteps env m.1 m.2).map (modelTagged (.mapping m.1)))

theorem mapReached_nil {env : ModelCheckEnv} {n : String} {v : Yaml} : ¬ MapReached env [] n v := by
  rintro ⟨a, b, e, -⟩; cases a <;> cases e

theorem mapReached_cons {env : ModelCheckEnv} {m : String × Yaml} {ms : FDef} {n : String} {v : Yaml} :
    MapReached env (m :: ms) n v ↔ (n, v) = m ∨ (¬ AmbiguousMap env m.2 ∧ MapReached env ms n v) := by
  constructor
  · rintro ⟨a, b, e, h⟩
    cases a with
    | nil => cases e; exact .inl rfl
    | cons x a =>
      cases e
      exact .inr ⟨h _ (by simp), a, b, rfl, fun y hy => h y (List.mem_cons_of_mem _ hy)⟩
  · rintro (rfl | ⟨h, a, b, rfl, h'⟩)
    · exact ⟨[], ms, rfl, by simp⟩
    · refine ⟨m :: a, b, rfl, fun x hx => ?_⟩
      rcases List.mem_cons.mp hx with rfl | hx
      · exact h
      · exact h' x hx

theorem mapReached_some {env : ModelCheckEnv} {P : String → Yaml → Prop} {m : String × Yaml} {ms : FDef} :
    (∃ n v, MapReached env (m :: ms) n v ∧ P n v) ↔ P m.1 m.2 ∨ (¬ AmbiguousMap env m.2 ∧ ∃ n v, MapReached env ms n v ∧ P n v) := by
  simp only [mapReached_cons]
  constructor
  · rintro ⟨n, v, rfl | ⟨h1, h2⟩, h⟩
    · exact .inl h
    · exact .inr ⟨h1, n, v, h2, h⟩
  · rintro (h | ⟨h1, n, v, h2, h⟩)
    · exact ⟨_, _, .inl rfl, h⟩
    · exact ⟨n, v, .inr ⟨h1, h2⟩, h⟩

theorem mapReached_append {env : ModelCheckEnv} {P : String → Yaml → Prop} {ex : FDef} (hex : ∀ m ∈ ex, ¬ P m.1 m.2) : ∀ {ms : FDef},
    (∃ n v, MapReached env (ms ++ ex) n v ∧ P n v) ↔ ∃ n v, MapReached env ms n v ∧ P n v
  | [] => by
    constructor
    · rintro ⟨n, v, ⟨a, b, e, -⟩, hp⟩
      exact absurd hp (hex (n, v) (by rw [List.nil_append] at e; rw [e]; simp))
    · rintro ⟨n, v, h, -⟩; exact absurd h mapReached_nil
  | m :: ms => by
    rw [List.cons_append, mapReached_some, mapReached_some, mapReached_append hex]

theorem allSteps_facts {env : ModelCheckEnv} (hl : ModelLooksUp env) (ms : FDef) :
    ((∃ e, e ≠ .query ∧ (runUntil (allSteps env ms)).2 = some e) ↔ ∃ n v, MapReached env ms n v ∧ OneRaises env v) ∧
    (((runUntil (allSteps env ms)).2 = none ∨ (runUntil (allSteps env ms)).2 = some .query) →
      ((runUntil (allSteps env ms)).2 = some .query ↔ ∃ m ∈ ms, AmbiguousMap env m.2) ∧
      ∀ p, p ∈ (runUntil (allSteps env ms)).1 ↔ ∃ n v, MapReached env ms n v ∧ ∃ q, OneHas env n v q ∧ p = .mapping n q) := by
  induction ms with
  | nil => simp [allSteps, runUntil, mapReached_nil]
  | cons m ms ih =>
    obtain ⟨i1, i2⟩ := ih
    obtain ⟨m1, m2⟩ := mapSteps_facts hl m.1 m.2
    have e : runUntil (allSteps env (m :: ms)) = match (runUntil (mapSteps env m.1 m.2)).2 with
        | none => ((runUntil (mapSteps env m.1 m.2)).1.map (ModelProblem.mapping m.1) ++ (runUntil (allSteps env ms)).1, (runUntil (allSteps env ms)).2)
        | some e => ((runUntil (mapSteps env m.1 m.2)).1.map (ModelProblem.mapping m.1), some e) := by
      have : allSteps env (m :: ms) = (mapSteps env m.1 m.2).map (modelTagged (.mapping m.1)) ++ allSteps env ms := by
        simp [allSteps]
      rw [this, runUntil_append, runUntil_tagged]
      cases (runUntil (mapSteps env m.1 m.2)).2 <;> rfl
    rw [mapReached_some (P := fun _ v => OneRaises env v)]
    simp only [mapReached_some (P := fun n v => ∃ q, OneHas env n v q ∧ _ = ModelProblem.mapping n q)]
    cases hr : (runUntil (mapSteps env m.1 m.2)).2 with
    | none =>
      obtain ⟨ha, hm⟩ := m2 (.inl hr)
      have hna : ¬ AmbiguousMap env m.2 := by rw [← ha, hr]; simp
      have hnr : ¬ OneRaises env m.2 := by rw [← m1, hr]; simp
      rw [hr] at e
      rw [e]
      simp only [hna, hnr, not_false_eq_true, true_and, false_or, List.mem_cons, exists_eq_or_imp]
      refine ⟨i1, fun ho => ?_⟩
      obtain ⟨j1, j2⟩ := i2 ho
      refine ⟨j1, fun p => ?_⟩
      rw [List.mem_append, j2]
      refine or_congr_left ?_
      simp only [List.mem_map, hm, eq_comm]
    | some x =>
      rw [hr] at e
      rw [e]
      by_cases hx : x = .query
      · subst hx
        obtain ⟨ha, hm⟩ := m2 (.inr hr)
        have hya : AmbiguousMap env m.2 := ha.mp hr
        have hnr : ¬ OneRaises env m.2 := by
          rw [← m1, hr]; rintro ⟨e, h, h'⟩; cases h'; exact h rfl
        refine ⟨?_, fun _ => ⟨?_, fun p => ?_⟩⟩
        · simp only [hnr, hya, not_true_eq_false, false_and, or_false, iff_false]
          rintro ⟨e, h, h'⟩; cases h'; exact h rfl
        · simp only [true_iff]; exact ⟨m, by simp, hya⟩
        · simp only [hya, not_true_eq_false, false_and, or_false, List.mem_map, hm, eq_comm]
      · have hyr : OneRaises env m.2 := by rw [← m1]; exact ⟨x, hx, hr⟩
        refine ⟨?_, ?_⟩
        · simp only [hyr, true_or, iff_true]; exact ⟨x, hx, rfl⟩
        · rintro (h | h)
          · simp at h
          · simp at h; exact absurd h hx

theorem mapHas_iff {env : ModelCheckEnv} {ms : FDef} {n : String} {p : MapProblem} :
    (∃ v, MapReached env ms n v ∧ OneHas env n v p) ↔ MapHas env ms n p := by
  constructor
  · rintro ⟨v, hr, h⟩
    cases h with
    | name h => exact .name hr h
    | kind h => exact .kind hr h
    | text h1 h2 => exact .text hr h1 h2
    | fields h => exact .fields hr h
    | unknown h1 h2 => obtain ⟨a, b, hg, hn⟩ := h1; exact .unknown ⟨_, a, b, hr, hg, hn⟩ h2
    | key h1 h2 h3 => exact .key hr h1 h2 h3
  · intro h
    cases h with
    | name hr h => exact ⟨_, hr, .name h⟩
    | kind hr h => exact ⟨_, hr, .kind h⟩
    | text hr h1 h2 => exact ⟨_, hr, .text h1 h2⟩
    | fields hr h => exact ⟨_, hr, .fields h⟩
    | unknown h1 h2 => obtain ⟨q, a, b, hr, hg, hn⟩ := h1; exact ⟨_, hr, .unknown ⟨a, b, hg, hn⟩ h2⟩
    | key hr h1 h2 h3 => exact ⟨_, hr, .key h1 h2 h3⟩

/-! ### The reserved mappings -/

/-- The fields found among the dates with this timeframe. -/
def datesFor (env : ModelCheckEnv) (w : String) (l : List (Option String)) : List String :=
  ((l.filterMap id).filter (fun x => (env.getText (x ++ "_" ++ w)).toOption.isSome)).map (· ++ "_" ++ w)

theorem mappedDates_ok {env : ModelCheckEnv} (hl : ModelLooksUp env) {w : String} : ∀ {l : List (Option String)},
    (∀ x, some x ∈ l → ¬ Ambiguous (env.getText (x ++ "_" ++ w))) → mappedDates env w l = .ok (datesFor env w l)
  | [], _ => rfl
  | none :: l, h => by
    have := mappedDates_ok hl (l := l) (fun x hx => h x (by simp [hx]))
    simpa [mappedDates, datesFor] using this
  | some x :: l, h => by
    have ih := mappedDates_ok hl (l := l) (fun y hy => h y (by simp [hy]))
    have hx := h x (by simp)
    simp only [mappedDates, fieldExists]
    cases hg : env.getText (x ++ "_" ++ w) with
    | ok f =>
      have hs : (env.getText (x ++ "_" ++ w)).toOption.isSome = true := by rw [hg]; rfl
      simp only [ih]
      simp only [datesFor, List.filterMap_cons, id_eq, List.filter_cons, hs, if_true, List.map_cons]
    | error e =>
      rcases hl.getText _ e hg with rfl | rfl
      · have hs : (env.getText (x ++ "_" ++ w)).toOption.isSome = false := by rw [hg]; rfl
        simp only [ih, datesFor, List.filterMap_cons, id_eq, List.filter_cons, hs]
        rfl
      · exact absurd hg hx

/-- The mapping that is added for a reserved name. -/
def dateMapping (env : ModelCheckEnv) (ds : List (Option String)) (w : String) : Yaml :=
  .dict [("fields", .list ((datesFor env w (dateRanks ds)).map .str)), ("group_label", .str "Dates"),
    ("description", .str (dateDescription w))]

theorem mem_firstDates {x : Option String} : ∀ {l : List (Option String)}, x ∈ firstDates l ↔ x ∈ l
  | [] => by simp [firstDates]
  | y :: l => by
    simp only [firstDates, List.mem_cons, List.mem_filter, mem_firstDates (l := l), bne_iff_ne]
    by_cases h : x = y <;> simp [h]

theorem mem_dateRanks {x : Option String} {l : List (Option String)} : x ∈ dateRanks l ↔ x ∈ l := by
  unfold dateRanks
  rw [List.mem_insertionSort, mem_firstDates]

theorem hasKey_none {d : FDef} {k : String} : ¬ HasKey d k ↔ dictGet d k = none := by
  rw [← isSome_iff_hasKey]; cases dictGet d k <;> simp

theorem dictSet_absent {d : FDef} {k : String} {v : Yaml} : dictGet d k = none → dictSet d k v = d ++ [(k, v)] := by
  induction d with
  | nil => intro _; rfl
  | cons p d ih =>
    intro h
    obtain ⟨a, b⟩ := p
    simp only [dictGet] at h
    split at h
    · cases h
    · rename_i hne
      simp only [dictSet, hne, if_false, List.cons_append]
      rw [ih h]

theorem dictGet_append_one {d : FDef} {k w : String} {v : Yaml} (h : w ≠ k) : dictGet (d ++ [(k, v)]) w = dictGet d w := by
  induction d with
  | nil => simp [dictGet, Ne.symm h]
  | cons p d ih =>
    obtain ⟨a, b⟩ := p
    simp only [List.cons_append, dictGet, ih]

theorem addDates_facts {env : ModelCheckEnv} (hl : ModelLooksUp env) {ds : List (Option String)} (hds : env.dates = .ok ds)
    (hna : ∀ x w, some x ∈ ds → w ∈ reserved → ¬ Ambiguous (env.getText (x ++ "_" ++ w))) : ∀ (ws : List String) (ms : FDef),
    ws.Nodup → (∀ w ∈ ws, w ∈ reserved) →
    ((∃ w ∈ ws, HasKey ms w) → addDates env ws ms = .error .query) ∧
    ((∀ w ∈ ws, ¬ HasKey ms w) → addDates env ws ms = .ok (ms ++ ws.map (fun w => (w, dateMapping env ds w))))
  | [], ms => by intro _ _; simp [addDates]
  | w :: ws, ms => by
    intro hnd hsub
    obtain ⟨hw, hnd'⟩ := List.nodup_cons.mp hnd
    simp only [addDates]
    by_cases hk : HasKey ms w
    · rw [if_pos ((isSome_iff_hasKey _ _).mpr hk)]
      exact ⟨fun _ => rfl, fun h => absurd hk (h w (by simp))⟩
    · have hk' := hasKey_none.mp hk
      rw [if_neg (by rw [hk']; simp), hds]
      simp only
      rw [mappedDates_ok hl (l := dateRanks ds) (fun x hx => hna x w (mem_dateRanks.mp hx) (hsub w (by simp)))]
      simp only
      rw [dictSet_absent hk']
      obtain ⟨j1, j2⟩ := addDates_facts hl hds hna ws (ms ++ [(w, dateMapping env ds w)]) hnd' (fun x hx => hsub x (by simp [hx]))
      have hkey : ∀ x ∈ ws, (HasKey (ms ++ [(w, dateMapping env ds w)]) x ↔ HasKey ms x) := by
        intro x hx
        rw [← isSome_iff_hasKey, ← isSome_iff_hasKey, dictGet_append_one (by rintro rfl; exact hw hx)]
      constructor
      · rintro ⟨x, hx, hxk⟩
        rcases List.mem_cons.mp hx with rfl | hx
        · exact absurd hxk hk
        · exact j1 ⟨x, hx, (hkey x hx).mpr hxk⟩
      · intro h
        have := j2 (fun x hx => by rw [hkey x hx]; exact h x (by simp [hx]))
        rw [List.append_assoc] at this
        exact this

/-- The reserved mappings have no problem. -/
theorem dateMapping_fields {env : ModelCheckEnv} {ds : List (Option String)} {w : String} {v : Yaml} (h : ∃ q, dateMapping env ds w = .dict q ∧ ∃ a b,
    Given q "fields" (.list (a ++ v :: b))) : ∃ s f, v = .str s ∧ env.getText s = .ok f := by
  obtain ⟨q, e, a, b, hg⟩ := h
  cases e
  have hg' : (Yaml.list ((datesFor env w (dateRanks ds)).map .str)) = .list (a ++ v :: b) := by
    have : dictGet [("fields", Yaml.list ((datesFor env w (dateRanks ds)).map .str)), ("group_label", .str "Dates"),
      ("description", .str (dateDescription w))] "fields" = some (.list ((datesFor env w (dateRanks ds)).map .str)) := by simp [dictGet]
    unfold Given at hg
    rw [this] at hg
    exact Option.some.inj hg
  have hv : v ∈ (datesFor env w (dateRanks ds)).map Yaml.str := by
    have := Yaml.list.inj hg'
    rw [this]; simp
  obtain ⟨s, hs, rfl⟩ := List.mem_map.mp hv
  unfold datesFor at hs
  obtain ⟨x, hx, rfl⟩ := List.mem_map.mp hs
  have := (List.mem_filter.mp hx).2
  refine ⟨x ++ "_" ++ w, ?_⟩
  cases hg : env.getText (x ++ "_" ++ w) with
  | ok f => exact ⟨f, rfl, rfl⟩
  | error e => rw [hg] at this; cases this

theorem dateMapping_clean {env : ModelCheckEnv} {ds : List (Option String)} {w : String} (hw : w ∈ reserved) :
    ¬ AmbiguousMap env (dateMapping env ds w) ∧ ¬ OneRaises env (dateMapping env ds w) ∧ ∀ p, ¬ OneHas env w (dateMapping env ds w) p := by
  have hfi : ∀ {q v}, dateMapping env ds w = .dict q → FieldIn env q v → ∃ s f, v = .str s ∧ env.getText s = .ok f := by
    rintro q v e ⟨a, b, hg, -⟩
    exact dateMapping_fields ⟨q, e, a, b, hg⟩
  have hamb : ¬ AmbiguousMap env (dateMapping env ds w) := by
    rintro ⟨q, l, f, e, hg, hf, ha⟩
    obtain ⟨a, b, rfl⟩ := List.append_of_mem hf
    obtain ⟨s, g, hs, hok⟩ := dateMapping_fields ⟨q, e, a, b, hg⟩
    cases hs
    unfold Ambiguous at ha; rw [hok] at ha; cases ha
  have hgiven : ∀ {q k v}, dateMapping env ds w = .dict q → Given q k v →
      (k = "fields" ∧ Listed v) ∨ (k = "group_label" ∧ Text v) ∨ (k = "description" ∧ Text v) := by
    intro q k v e hg
    cases e
    have hg' : dictGet [("fields", Yaml.list ((datesFor env w (dateRanks ds)).map .str)), ("group_label", .str "Dates"),
      ("description", .str (dateDescription w))] k = some v := hg
    simp only [dictGet] at hg'
    split at hg'
    · rename_i h; exact .inl ⟨h.symm, _, (Option.some.inj hg').symm⟩
    · split at hg'
      · rename_i h; exact .inr (.inl ⟨h.symm, _, (Option.some.inj hg').symm⟩)
      · split at hg'
        · rename_i h; exact .inr (.inr ⟨h.symm, _, (Option.some.inj hg').symm⟩)
        · cases hg'
  have hfields : ∀ {q}, dateMapping env ds w = .dict q → HasKey q "fields" := by
    rintro q e
    cases e
    exact ⟨.list ((datesFor env w (dateRanks ds)).map .str), by simp [Given, dictGet]⟩
  refine ⟨hamb, ?_, ?_⟩
  · rintro ⟨q, e, h | ⟨v, hv, hnt⟩⟩
    · exact h (hfields e)
    · obtain ⟨s, f, rfl, -⟩ := hfi e hv; exact hnt ⟨s, rfl⟩
  · intro p h
    generalize hv : dateMapping env ds w = v at h
    cases h with
    | name h =>
      have : ∀ x ∈ reserved, validName x = true := by decide +kernel
      exact h (properName_true.mp (this w hw))
    | kind h => exact h ⟨_, hv.symm⟩
    | text h1 h2 =>
      obtain ⟨x, hx, hn⟩ := h2
      rcases hgiven hv hx with ⟨rfl, -⟩ | ⟨rfl, ht⟩ | ⟨rfl, ht⟩
      · simp at h1
      · exact hn ht
      · exact hn ht
    | fields h =>
      obtain ⟨x, hx, hn⟩ := h
      rcases hgiven hv hx with ⟨-, ht⟩ | ⟨h, ht⟩ | ⟨h, ht⟩
      · exact hn ht
      · simp at h
      · simp at h
    | unknown h1 h2 =>
      obtain ⟨s, g, hs, hok⟩ := hfi hv h1
      cases hs
      unfold Unknown at h2; rw [hok] at h2; cases h2
    | key h1 h2 h3 =>
      obtain ⟨x, hx⟩ := h2
      rcases hgiven hv hx with ⟨rfl, -⟩ | ⟨rfl, -⟩ | ⟨rfl, -⟩ <;> simp at h3

end ML
