import Verif.Dash.Spec
/-
C69: dashboards.
-/
set_option autoImplicit false
namespace ML
open Spec

/-! ### Loops -/

theorem mapDash_ok {α β : Type} (f : α → Res β) : ∀ (l : List α) (out : List β),
    mapDash f l = .ok out ↔ List.Forall₂ (fun x y => f x = .ok y) l out
  | [], out => by
    constructor
    · intro h; simp only [mapDash, Except.ok.injEq] at h; subst h; exact .nil
    · intro h; cases h; rfl
  | x :: xs, out => by
    have ih := mapDash_ok f xs
    simp only [mapDash]
    cases hx : f x with
    | error e =>
      simp only [reduceCtorEq, false_iff]
      intro h; cases h with | cons h _ => rw [hx] at h; cases h
    | ok y =>
      cases hxs : mapDash f xs with
      | error e =>
        simp only [reduceCtorEq, false_iff]
        intro h; cases h with | cons h ht => rw [(ih _).mpr ht] at hxs; cases hxs
      | ok ys =>
        simp only [Except.ok.injEq]
        constructor
        · intro h; subst h; exact .cons hx ((ih ys).mp hxs)
        · intro h
          cases h with
          | cons h ht =>
            rw [hx] at h; cases h
            rw [(ih _).mpr ht] at hxs; cases hxs; rfl

theorem flatDash_ok {α β : Type} (f : α → Res (List β)) : ∀ (l : List α) (out : List β),
    flatDash f l = .ok out ↔ ∃ outs, List.Forall₂ (fun x y => f x = .ok y) l outs ∧ out = outs.flatten
  | [], out => by
    constructor
    · intro h; simp only [flatDash, Except.ok.injEq] at h; subst h; exact ⟨[], .nil, rfl⟩
    · rintro ⟨outs, h, rfl⟩; cases h; rfl
  | x :: xs, out => by
    have ih := flatDash_ok f xs
    simp only [flatDash]
    cases hx : f x with
    | error e =>
      simp only [reduceCtorEq, false_iff]
      rintro ⟨outs, h, -⟩; cases h with | cons h _ => rw [hx] at h; cases h
    | ok y =>
      cases hxs : flatDash f xs with
      | error e =>
        simp only [reduceCtorEq, false_iff]
        rintro ⟨outs, h, -⟩
        cases h with | cons h ht => rw [(ih _).mpr ⟨_, ht, rfl⟩] at hxs; cases hxs
      | ok ys =>
        simp only [Except.ok.injEq]
        constructor
        · intro h; subst h
          obtain ⟨outs, h1, h2⟩ := (ih ys).mp hxs
          exact ⟨y :: outs, .cons hx h1, by rw [h2]; rfl⟩
        · rintro ⟨outs, h, rfl⟩
          cases h with
          | cons h ht =>
            rw [hx] at h; cases h
            rw [(ih _).mpr ⟨_, ht, rfl⟩] at hxs; cases hxs; rfl

theorem forall₂_each {α β : Type} {R : α → β → Prop} {l : List α} {l' : List β} (h : List.Forall₂ R l l') :
    ∀ x ∈ l, ∃ y ∈ l', R x y := by
  induction h with
  | nil => intro x hx; cases hx
  | cons h _ ih =>
    intro x hx
    rcases List.mem_cons.mp hx with rfl | hx
    · exact ⟨_, by simp, h⟩
    · obtain ⟨y, hy, hr⟩ := ih x hx
      exact ⟨y, by simp [hy], hr⟩

theorem forall₂_each_right {α β : Type} {R : α → β → Prop} {l : List α} {l' : List β} (h : List.Forall₂ R l l') :
    ∀ y ∈ l', ∃ x ∈ l, R x y := by
  induction h with
  | nil => intro x hx; cases hx
  | cons h _ ih =>
    intro x hx
    rcases List.mem_cons.mp hx with rfl | hx
    · exact ⟨_, by simp, h⟩
    · obtain ⟨y, hy, hr⟩ := ih x hx
      exact ⟨y, by simp [hy], hr⟩

/-! ### Reading what is written -/

theorem rawFilters_of {d : FDef} {fs : List FDef} (h : FiltersOf d fs) : rawFilters d = .ok (fs.map .dict) := by
  unfold rawFilters
  rcases h with ⟨hd, rfl⟩ | hd
  · rcases hd with hd | hd
    · cases c : dictGet d "filters" with
      | none => rfl
      | some v => exact absurd ⟨v, c⟩ hd
    · rw [show dictGet d "filters" = some Yaml.null from hd]; rfl
  · rw [show dictGet d "filters" = some (Yaml.list (fs.map .dict)) from hd]; rfl

theorem elementInit_ok (e e' : FDef) : elementInit (.dict e) = .ok e' ↔ HasKey e "model" ∧ e' = e := by
  unfold elementInit
  cases c : dictGet e "model" with
  | none => simp [HasKey, Given, c]
  | some v => simp [HasKey, Given, c, eq_comm]

theorem mapDash_init : ∀ (es out : List FDef),
    mapDash elementInit (es.map .dict) = .ok out ↔ (∀ e ∈ es, HasKey e "model") ∧ out = es
  | [], out => by simp [mapDash, eq_comm]
  | e :: es, out => by
    rw [mapDash_ok, List.map_cons, List.forall₂_cons_left_iff]
    constructor
    · rintro ⟨b, u, hb, hu, rfl⟩
      obtain ⟨h1, rfl⟩ := (elementInit_ok _ _).mp hb
      obtain ⟨h2, rfl⟩ := (mapDash_init es u).mp ((mapDash_ok _ _ _).mpr hu)
      exact ⟨by simpa using ⟨h1, h2⟩, rfl⟩
    · rintro ⟨h, rfl⟩
      exact ⟨e, es, (elementInit_ok _ _).mpr ⟨h e (by simp), rfl⟩,
        (mapDash_ok _ _ _).mp ((mapDash_init es es).mpr ⟨fun x hx => h x (by simp [hx]), rfl⟩), rfl⟩

theorem dashElements_of {d : FDef} {es : List FDef} (h : ElementsOf d es) :
    dashElements d = mapDash elementInit (es.map .dict) := by
  unfold dashElements
  rcases h with ⟨hd, rfl⟩ | hd
  · cases c : dictGet d "elements" with
    | none => rfl
    | some v => exact absurd ⟨v, c⟩ hd
  · rw [show dictGet d "elements" = some (Yaml.list (es.map .dict)) from hd]; rfl

theorem find_first {α : Type} (p : α → Bool) : ∀ (l : List α) (x : α), l.find? p = some x →
    p x = true ∧ ∃ before after, l = before ++ x :: after ∧ ∀ y ∈ before, p y = false
  | [], x, h => by simp at h
  | y :: l, x, h => by
    rw [List.find?_cons] at h
    cases c : p y with
    | true =>
      rw [c] at h; simp only [Option.some.injEq] at h; subst h
      exact ⟨c, [], l, rfl, by simp⟩
    | false =>
      rw [c] at h
      obtain ⟨h1, b, a, h2, h3⟩ := find_first p l x h
      exact ⟨h1, y :: b, a, by rw [h2]; rfl, by
        intro z hz
        rcases List.mem_cons.mp hz with rfl | hz
        · exact c
        · exact h3 z hz⟩

theorem find_of_first {α : Type} (p : α → Bool) (x : α) (after : List α) (hx : p x = true) : ∀ (before : List α),
    (∀ y ∈ before, p y = false) → (before ++ x :: after).find? p = some x
  | [], _ => by simp [hx]
  | y :: b, h => by
    rw [List.cons_append, List.find?_cons, h y (by simp)]
    exact find_of_first p x after hx b (fun z hz => h z (by simp [hz]))

theorem elementModel_ok (env : DashEnv) (e : FDef) (m : DModel) : elementModel env e = .ok m ↔ InModel env e m := by
  unfold elementModel InModel
  cases c : dictGet e "model" with
  | none => simp [Given, c, modelNamed]
  | some v =>
    simp only [Option.getD_some, Given, c, Option.some.injEq]
    cases v with
    | str s =>
      simp only [modelNamed, Yaml.str.injEq]
      cases hf : env.models.find? (fun m => m.name = s) with
      | none =>
        simp only [reduceCtorEq, false_iff]
        rintro ⟨rfl, b, a, hm, -⟩
        have := List.find?_eq_none.mp hf m (by rw [hm]; simp)
        simp at this
      | some m' =>
        simp only [Except.ok.injEq]
        constructor
        · rintro rfl
          obtain ⟨h1, b, a, h2, h3⟩ := find_first _ _ _ hf
          have h1 : m'.name = s := by simpa using h1
          exact ⟨h1.symm, b, a, h2, fun y hy => by have := h3 y hy; rw [h1]; simpa using this⟩
        · rintro ⟨rfl, b, a, hm, hb⟩
          rw [hm, find_of_first _ m a (by simp) b (fun y hy => by simpa using hb y hy)] at hf
          simp only [Option.some.injEq] at hf
          exact hf.symm
    | _ => simp [modelNamed]

theorem elementModel_error (env : DashEnv) (e : FDef) (v : Yaml) (hv : Given e "model" v) :
    (∃ er, elementModel env e = .error er) ↔ ∀ m ∈ env.models, v ≠ .str m.name := by
  unfold elementModel
  rw [show dictGet e "model" = some v from hv]
  simp only [Option.getD_some]
  cases v with
  | str s =>
    simp only [modelNamed, ne_eq, Yaml.str.injEq]
    cases hf : env.models.find? (fun m => m.name = s) with
    | none =>
      have := List.find?_eq_none.mp hf
      simp only [Except.error.injEq, exists_eq', true_iff]
      intro m hm h
      exact this m hm (by simp [h])
    | some m' =>
      obtain ⟨h1, b, a, h2, -⟩ := find_first _ _ _ hf
      have h1 : m'.name = s := by simpa using h1
      constructor
      · rintro ⟨er, h⟩; cases h
      · intro h; exact absurd h1.symm (h m' (by rw [h2]; simp))
  | _ => simp [modelNamed]

theorem sharedWeek_common (weeks : List (Option String)) : CommonWeek weeks (sharedWeek weeks) := by
  unfold sharedWeek CommonWeek
  have hm : ∀ x, x ∈ weeks.dedup ↔ x ∈ weeks := fun x => List.mem_dedup
  have hnd := List.nodup_dedup weeks
  generalize weeks.dedup = l at hm hnd
  match l, hm, hnd with
  | [], hm, _ =>
    right
    refine ⟨rfl, ?_⟩
    rintro ⟨x, h, -⟩
    exact h (List.eq_nil_iff_forall_not_mem.mpr (fun a ha => by simpa using (hm a).mpr ha))
  | [w], hm, _ =>
    left
    refine ⟨?_, fun x hx => by simpa using (hm x).mpr hx⟩
    rintro rfl
    simpa using (hm w).mp (by simp)
  | a :: b :: l, hm, hnd =>
    right
    refine ⟨rfl, ?_⟩
    rintro ⟨x, -, h⟩
    have ha := h a ((hm a).mp (by simp))
    have hb := h b ((hm b).mp (by simp))
    rw [List.nodup_cons] at hnd
    exact hnd.1 (by rw [ha, hb]; simp)

theorem common_unique {weeks : List (Option String)} {w w' : Option String} (h : CommonWeek weeks w) (h' : CommonWeek weeks w') : w = w' := by
  rcases h with ⟨h1, h2⟩ | ⟨rfl, h2⟩
  · rcases h' with ⟨-, h4⟩ | ⟨rfl, h4⟩
    · obtain ⟨x, hx⟩ := List.exists_mem_of_ne_nil _ h1
      rw [← h2 x hx, h4 x hx]
    · exact absurd ⟨w, h1, h2⟩ h4
  · rcases h' with ⟨h3, h4⟩ | ⟨rfl, h4⟩
    · exact absurd ⟨w', h3, h4⟩ h2
    · rfl

theorem withInfo_kept (env : DashEnv) (w : Option String) (f : FDef) : KeptBut env w f (withInfo env w f) := by
  unfold withInfo KeptBut Given
  refine ⟨by rw [dictGet_set]; simp, by rw [dictGet_set, dictGet_set]; simp, fun k h1 h2 => ?_⟩
  rw [dictGet_set, dictGet_set, if_neg (Ne.symm h1), if_neg (Ne.symm h2)]

theorem runFilter_ok (env : DashEnv) (w : Option String) (f : FDef) (out : List DFilter)
    (h : runRaw env w (.dict f) = .ok out) : ReadAs env w f out := by
  change runFilter env w (withInfo env w f) = .ok out at h
  unfold runFilter at h
  have kept := withInfo_kept env w f
  rw [kept.2.2 "field" (by decide) (by decide), kept.2.2 "value" (by decide) (by decide)] at h
  generalize withInfo env w f = d at kept h
  cases c : dictGet f "field" with
  | none => rw [c] at h; cases h
  | some fld =>
    rw [c] at h
    cases cv : dictGet f "value" with
    | none => rw [cv] at h; cases h
    | some v =>
      rw [cv] at h
      simp only at h
      refine ⟨⟨fld, c⟩, ?_, v, cv, ?_⟩
      · by_cases hv : filterValue v = .str []
        · rw [hv] at h; simp only [Except.ok.injEq] at h; subst h
          intro o ho; rw [List.mem_singleton.mp ho]; exact kept
        · split at h
          · exact absurd (by assumption) hv
          · cases hc : (filterDict env.num env.now w (filterValue v) defaultWeek).1 with
            | error er => rw [hc] at h; cases h
            | ok cs =>
              rw [hc] at h; simp only [Except.ok.injEq] at h; subst h
              intro o ho
              obtain ⟨x, -, rfl⟩ := List.mem_map.mp ho
              exact kept
      · by_cases hv : filterValue v = .str []
        · left
          rw [hv] at h; simp only [Except.ok.injEq] at h; subst h
          refine ⟨?_, rfl⟩
          cases v with
          | str s => simp only [filterValue, FVal.str.injEq] at hv; rw [String.toList_eq_nil_iff.mp hv]
          | float q => simp only [filterValue] at hv; split at hv <;> try split at hv
                       all_goals cases hv
          | _ => cases hv
        · right
          refine ⟨by rintro rfl; exact hv rfl, ?_⟩
          split at h
          · exact absurd (by assumption) hv
          · cases hc : (filterDict env.num env.now w (filterValue v) defaultWeek).1 with
            | error er => rw [hc] at h; cases h
            | ok cs =>
              rw [hc] at h; simp only [Except.ok.injEq] at h; subst h
              exact ⟨cs, hc, by simp [Function.comp_def]⟩

theorem runFilter_can (env : DashEnv) (w : Option String) (f : FDef) (out : List DFilter) (h : ReadAs env w f out) :
    ∃ out', runRaw env w (.dict f) = .ok out' := by
  change ∃ out', runFilter env w (withInfo env w f) = .ok out'
  unfold runFilter
  have kept := withInfo_kept env w f
  rw [kept.2.2 "field" (by decide) (by decide), kept.2.2 "value" (by decide) (by decide)]
  obtain ⟨⟨fld, c⟩, -, v, cv, hh⟩ := h
  rw [show dictGet f "field" = some fld from c, show dictGet f "value" = some v from cv]
  simp only
  rcases hh with ⟨rfl, -⟩ | ⟨hv, cs, hc, -⟩
  · exact ⟨_, rfl⟩
  · split
    · exact ⟨_, rfl⟩
    · rw [show (filterDict env.num env.now w (filterValue v) defaultWeek).1 = .ok cs from hc]
      exact ⟨_, rfl⟩

theorem runAll_ok (env : DashEnv) (w : Option String) (fs : List FDef) (out : List DFilter)
    (h : flatDash (runRaw env w) (fs.map .dict) = .ok out) :
    ∃ outs, List.Forall₂ (ReadAs env w) fs outs ∧ out = outs.flatten := by
  obtain ⟨outs, h1, h2⟩ := (flatDash_ok _ _ _).mp h
  refine ⟨outs, ?_, h2⟩
  rw [List.forall₂_map_left_iff] at h1
  exact h1.imp (fun f o => runFilter_ok env w f o)

theorem runAll_can (env : DashEnv) (w : Option String) (fs : List FDef) (outs : List (List DFilter))
    (h : List.Forall₂ (ReadAs env w) fs outs) : ∃ out, flatDash (runRaw env w) (fs.map .dict) = .ok out := by
  suffices ∃ outs', List.Forall₂ (fun x y => runRaw env w x = .ok y) (fs.map Yaml.dict) outs' by
    obtain ⟨outs', h'⟩ := this
    exact ⟨_, (flatDash_ok _ _ _).mpr ⟨outs', h', rfl⟩⟩
  induction h with
  | nil => exact ⟨[], .nil⟩
  | cons h1 _ ih =>
    obtain ⟨o, ho⟩ := runFilter_can env w _ _ h1
    obtain ⟨os, hos⟩ := ih
    exact ⟨o :: os, .cons ho hos⟩

/-! ### The claim -/

/-- C69 (a): the filters of a dashboard, when they are read: each is read in the order written, where weeks begin on the day all elements' models
agree on, and on Monday if they agree on none or there are no elements; nothing is left out. -/
theorem C69_filters (env : DashEnv) (d : FDef) (fs es : List FDef) (hf : FiltersOf d fs) (he : ElementsOf d es) (out : List DFilter)
    (h : dashFilters env d = .ok out) :
    ∃ ms, List.Forall₂ (InModel env) es ms ∧ ∃ w, CommonWeek (ms.map (·.week)) w ∧
      ∃ outs, List.Forall₂ (ReadAs env w) fs outs ∧ out = outs.flatten := by
  unfold dashFilters at h
  rw [dashElements_of he, rawFilters_of hf] at h
  cases c : mapDash elementInit (es.map .dict) with
  | error e => rw [c] at h; cases h
  | ok es' =>
    rw [c] at h; simp only at h
    obtain ⟨-, rfl⟩ := (mapDash_init es es').mp c
    cases cm : mapDash (elementModel env) es' with
    | error e => rw [cm] at h; cases h
    | ok ms =>
      rw [cm] at h; simp only at h
      exact ⟨ms, ((mapDash_ok _ _ _).mp cm).imp (fun e m => (elementModel_ok env e m).mp), _, sharedWeek_common _,
        runAll_ok _ _ _ _ h⟩

/-- C69 (b): they are read whenever every element names a model of the project and every filter has a field and a value that means
something. -/
theorem C69_filters_read (env : DashEnv) (d : FDef) (fs es : List FDef) (hf : FiltersOf d fs) (he : ElementsOf d es)
    (ms : List DModel) (hm : List.Forall₂ (InModel env) es ms) (w : Option String) (hw : CommonWeek (ms.map (·.week)) w)
    (outs : List (List DFilter)) (ho : List.Forall₂ (ReadAs env w) fs outs) : ∃ out, dashFilters env d = .ok out := by
  unfold dashFilters
  have h1 : mapDash elementInit (es.map .dict) = .ok es := by
    refine (mapDash_init es es).mpr ⟨?_, rfl⟩
    intro e hmem
    obtain ⟨m, -, h⟩ := forall₂_each hm e hmem
    exact ⟨_, h.1⟩
  rw [dashElements_of he, rawFilters_of hf, h1]
  simp only
  rw [(mapDash_ok _ _ _).mpr (hm.imp (fun e m => (elementModel_ok env e m).mpr))]
  simp only
  rw [common_unique (sharedWeek_common _) hw]
  exact runAll_can _ _ _ _ ho

/-- C69 (c): the filters of an element are read where weeks begin on its own model's day. -/
theorem C69_element_filters (env : DashEnv) (e : FDef) (fs : List FDef) (hf : FiltersOf e fs) (out : List DFilter)
    (h : elementFilters env e = .ok out) :
    ∃ m, InModel env e m ∧ ∃ outs, List.Forall₂ (ReadAs env m.week) fs outs ∧ out = outs.flatten := by
  unfold elementFilters at h
  rw [rawFilters_of hf] at h
  cases cm : elementModel env e with
  | error er => rw [cm] at h; cases h
  | ok m =>
    rw [cm] at h
    exact ⟨m, (elementModel_ok env e m).mp cm, runAll_ok _ _ _ _ h⟩

/-- C69 (c), the other way round. -/
theorem C69_element_filters_read (env : DashEnv) (e : FDef) (fs : List FDef) (hf : FiltersOf e fs) (m : DModel) (hm : InModel env e m)
    (outs : List (List DFilter)) (ho : List.Forall₂ (ReadAs env m.week) fs outs) : ∃ out, elementFilters env e = .ok out := by
  unfold elementFilters
  rw [rawFilters_of hf, (elementModel_ok env e m).mpr hm]
  exact runAll_can _ _ _ _ ho

/-- C69 (d): the dictionary of a dashboard has the elements written, in order, each with its metrics as a list and its filters as read, and
the dashboard's own filters as read. -/
theorem C69_dict (env : DashEnv) (d : FDef) (es : List FDef) (he : ElementsOf d es) (out : DashDict) (h : dashDict env d = .ok out) :
    out.defn = d ∧ dashFilters env d = .ok out.filters ∧
    List.Forall₂ (fun e (o : ElementDict) => o.defn = e ∧ o.metrics = elementMetrics e ∧ elementFilters env e = .ok o.filters) es out.elements := by
  unfold dashDict at h
  rw [dashElements_of he] at h
  cases c : mapDash elementInit (es.map .dict) with
  | error er => rw [c] at h; cases h
  | ok es' =>
    rw [c] at h; simp only at h
    obtain ⟨-, rfl⟩ := (mapDash_init es es').mp c
    cases cd : mapDash (elementDict env) es' with
    | error er => rw [cd] at h; cases h
    | ok ds =>
      rw [cd] at h; simp only at h
      cases cf : dashFilters env d with
      | error er => rw [cf] at h; cases h
      | ok fs =>
        rw [cf] at h; simp only [Except.ok.injEq] at h; subst h
        refine ⟨rfl, rfl, ((mapDash_ok _ _ _).mp cd).imp (fun e o ho => ?_)⟩
        unfold elementDict at ho
        cases ce : elementFilters env e with
        | error er => rw [ce] at ho; cases ho
        | ok f => rw [ce] at ho; simp only [Except.ok.injEq] at ho; subst ho; exact ⟨rfl, rfl, rfl⟩

/-! ### What validation reports -/

theorem checkField_mem (env : DashEnv) (p : Yaml → DashProblem) (v : Yaml) (q : DashProblem) :
    q ∈ checkField env p v ↔ q = p v ∧ NotFound env v := by
  unfold checkField NotFound
  cases env.getField v with
  | ok u => simp
  | error e => simp

theorem shows_mem (e : FDef) (hs : Shaped e) :
    ∃ ms, iterate (elementMetrics e) = .ok ms ∧ ∀ x, x ∈ ms ↔ ShowsMetric e x := by
  have go : ∀ v, Text v ∨ Listed v → ∃ ms, iterate (match v with | .str s => .list [.str s] | v => v) = .ok ms ∧
      ∀ x, x ∈ ms ↔ OneOrMany v x := by
    rintro v (⟨s, rfl⟩ | ⟨l, rfl⟩)
    · refine ⟨[.str s], rfl, fun x => ?_⟩
      constructor
      · intro h; left; rw [List.mem_singleton.mp h]; exact ⟨rfl, s, rfl⟩
      · rintro (⟨rfl, -⟩ | ⟨l, h, -⟩)
        · simp
        · cases h
    · refine ⟨l, rfl, fun x => ?_⟩
      constructor
      · intro h; right; exact ⟨l, rfl, h⟩
      · rintro (⟨rfl, s, h⟩ | ⟨l', h, hx⟩)
        · cases h
        · cases h; exact hx
  unfold elementMetrics ShowsMetric
  cases cm : dictGet e "metric" with
  | some v =>
    obtain ⟨ms, h1, h2⟩ := go v (hs.1 v cm)
    refine ⟨ms, h1, fun x => (h2 x).trans ?_⟩
    simp [Given, HasKey, cm]
  | none =>
    cases cn : dictGet e "metrics" with
    | some v =>
      obtain ⟨ms, h1, h2⟩ := go v (hs.2.1 v cn)
      refine ⟨ms, h1, fun x => (h2 x).trans ?_⟩
      simp [Given, HasKey, cm, cn]
    | none =>
      refine ⟨[], rfl, fun x => ?_⟩
      simp [Given, HasKey, cm, cn]

theorem slices_mem (e : FDef) (hs : Shaped e) :
    ∃ ms, iterate (elementSlices e) = .ok ms ∧ ∀ x, x ∈ ms ↔ ∃ l, Given e "slice_by" (.list l) ∧ x ∈ l := by
  unfold elementSlices
  cases c : dictGet e "slice_by" with
  | none => exact ⟨[], rfl, by simp [Given, c]⟩
  | some v =>
    obtain ⟨l, rfl⟩ := hs.2.2.1 v c
    exact ⟨l, rfl, by simp [Given, c]⟩

theorem elementFilter_all (env : DashEnv) (gs : List FDef) :
    ∃ ps, flatDash (checkElementFilter env) (gs.map .dict) = .ok ps ∧
      ∀ p, p ∈ ps ↔ ∃ f ∈ gs, ∃ v, p = .elementFilter v ∧ (Given f "field" v ∨ (¬ HasKey f "field" ∧ v = .null)) ∧ NotFound env v := by
  induction gs with
  | nil => exact ⟨[], rfl, by simp⟩
  | cons f gs ih =>
    obtain ⟨ps, h1, h2⟩ := ih
    refine ⟨checkField env .elementFilter ((dictGet f "field").getD .null) ++ ps, by simp only [List.map_cons, flatDash, checkElementFilter, h1], ?_⟩
    intro p
    rw [List.mem_append, checkField_mem, h2]
    have one : (p = DashProblem.elementFilter ((dictGet f "field").getD .null) ∧ NotFound env ((dictGet f "field").getD .null)) ↔
        ∃ v, p = .elementFilter v ∧ (Given f "field" v ∨ (¬ HasKey f "field" ∧ v = .null)) ∧ NotFound env v := by
      cases c : dictGet f "field" with
      | none =>
        simp only [Option.getD_none, Given, HasKey, c]
        constructor
        · rintro ⟨rfl, h⟩; exact ⟨.null, rfl, .inr ⟨by simp, rfl⟩, h⟩
        · rintro ⟨v, rfl, h | ⟨-, rfl⟩, hn⟩
          · cases h
          · exact ⟨rfl, hn⟩
      | some w =>
        simp only [Option.getD_some, Given, HasKey, c]
        constructor
        · rintro ⟨rfl, h⟩; exact ⟨w, rfl, .inl rfl, h⟩
        · rintro ⟨v, rfl, h | ⟨h, -⟩, hn⟩
          · simp only [Option.some.injEq] at h; subst h; exact ⟨rfl, hn⟩
          · exact absurd ⟨w, rfl⟩ h
    rw [one]
    simp only [List.mem_cons, exists_eq_or_imp]

theorem dashFilter_all (env : DashEnv) (fs : List FDef) (hf : ∀ f ∈ fs, HasKey f "field") :
    ∃ ps, flatDash (checkDashFilter env) (fs.map .dict) = .ok ps ∧
      ∀ p, p ∈ ps ↔ ∃ f ∈ fs, ∃ v, p = .filter v ∧ Given f "field" v ∧ NotFound env v := by
  induction fs with
  | nil => exact ⟨[], rfl, by simp⟩
  | cons f gs ih =>
    obtain ⟨ps, h1, h2⟩ := ih (fun x hx => hf x (by simp [hx]))
    obtain ⟨w, hw⟩ := hf f (by simp)
    refine ⟨checkField env .filter w ++ ps, by simp only [List.map_cons, flatDash, checkDashFilter, h1, show dictGet f "field" = some w from hw], ?_⟩
    intro p
    rw [List.mem_append, checkField_mem, h2]
    have one : (p = DashProblem.filter w ∧ NotFound env w) ↔ ∃ v, p = .filter v ∧ Given f "field" v ∧ NotFound env v := by
      constructor
      · rintro ⟨rfl, h⟩; exact ⟨w, rfl, hw, h⟩
      · rintro ⟨v, rfl, h, hn⟩
        rw [Given, show dictGet f "field" = some w from hw] at h
        simp only [Option.some.injEq] at h; subst h; exact ⟨rfl, hn⟩
    rw [one]
    simp only [List.mem_cons, exists_eq_or_imp]

theorem filtersOf_unique {e : FDef} {gs gs' : List FDef} (h : FiltersOf e gs) (h' : FiltersOf e gs') : gs = gs' := by
  have h1 := rawFilters_of h
  rw [rawFilters_of h'] at h1
  simp only [Except.ok.injEq] at h1
  exact (List.map_injective_iff.mpr (fun a b hab => by cases hab; rfl) h1).symm

theorem elementErrors_ok (env : DashEnv) (e : FDef) (hs : Shaped e) (hm : HasKey e "model") :
    ∃ ps, elementErrors env true e = .ok ps ∧ ∀ p, p ∈ ps ↔ DashWrong env [] [e] p := by
  obtain ⟨ms, hms, hmm⟩ := shows_mem e hs
  obtain ⟨ss, hss, hsm⟩ := slices_mem e hs
  obtain ⟨gs, hgs⟩ := hs.2.2.2
  obtain ⟨ps, hps, hpm⟩ := elementFilter_all env gs
  obtain ⟨v, hv⟩ := hm
  obtain ⟨qs, hq, hqm⟩ : ∃ qs, checkModel env true e = .ok qs ∧ ∀ p, p ∈ qs ↔ p = .model v ∧ ∀ m ∈ env.models, v ≠ .str m.name := by
    unfold checkModel
    have := elementModel_error env e v hv
    cases c : elementModel env e with
    | ok m =>
      refine ⟨[], rfl, fun p => ?_⟩
      have hno : ¬ ∀ m ∈ env.models, v ≠ .str m.name := by
        intro h; obtain ⟨er, h'⟩ := this.mpr h; rw [c] at h'; cases h'
      simp only [List.not_mem_nil, false_iff]
      exact fun h => hno h.2
    | error er =>
      have hyes := this.mp ⟨er, c⟩
      refine ⟨[.model v], by simp [show dictGet e "model" = some v from hv], fun p => ?_⟩
      simp only [List.mem_singleton]
      exact ⟨fun h => ⟨h, hyes⟩, fun h => h.1⟩
  refine ⟨qs ++ ms.flatMap (checkField env .metric) ++ ss.flatMap (checkField env .slice) ++ ps,
    by unfold elementErrors; simp only [hq, hms, hss, rawFilters_of hgs, hps], fun p => ?_⟩
  simp only [List.mem_append, List.mem_flatMap, hqm, hpm, checkField_mem, hmm, hsm]
  constructor
  · rintro (((⟨rfl, h⟩ | ⟨x, hx, rfl, hn⟩) | ⟨x, ⟨l, hl, hx⟩, rfl, hn⟩) | ⟨f, hf, x, rfl, hx, hn⟩)
    · exact .model e v (by simp) hv h
    · exact .metric e x (by simp) hx hn
    · exact .slice e l x (by simp) hl hx hn
    · exact .elementFilter e gs f x (by simp) hgs hf hx hn
  · intro h
    cases h with
    | filter f v hf => cases hf
    | model e' v' he h hn =>
      rw [List.mem_singleton.mp he, Given, show dictGet e "model" = some v from hv] at h
      simp only [Option.some.injEq] at h; subst h
      exact .inl (.inl (.inl ⟨rfl, hn⟩))
    | metric e' v' he h hn =>
      rw [List.mem_singleton.mp he] at h
      exact .inl (.inl (.inr ⟨_, h, rfl, hn⟩))
    | slice e' l v' he h hv' hn =>
      rw [List.mem_singleton.mp he] at h
      exact .inl (.inr ⟨_, ⟨l, h, hv'⟩, rfl, hn⟩)
    | elementFilter e' gs' f v' he hg hf h hn =>
      rw [List.mem_singleton.mp he] at hg
      rw [filtersOf_unique hg hgs] at hf
      exact .inr ⟨f, hf, _, rfl, h, hn⟩

theorem wrong_cons (env : DashEnv) (fs es : List FDef) (p : DashProblem) :
    DashWrong env fs es p ↔ (∃ f ∈ fs, ∃ v, p = .filter v ∧ Given f "field" v ∧ NotFound env v) ∨ ∃ e ∈ es, DashWrong env [] [e] p := by
  constructor
  · intro h
    cases h with
    | filter f v hf h hn => exact .inl ⟨f, hf, v, rfl, h, hn⟩
    | model e v he h hn => exact .inr ⟨e, he, .model e v (by simp) h hn⟩
    | metric e v he h hn => exact .inr ⟨e, he, .metric e v (by simp) h hn⟩
    | slice e l v he h hv hn => exact .inr ⟨e, he, .slice e l v (by simp) h hv hn⟩
    | elementFilter e gs f v he hg hf h hn => exact .inr ⟨e, he, .elementFilter e gs f v (by simp) hg hf h hn⟩
  · rintro (⟨f, hf, v, rfl, h, hn⟩ | ⟨e, he, h⟩)
    · exact .filter f v hf h hn
    · cases h with
      | filter f v hf h hn => cases hf
      | model e' v he' h hn => rw [List.mem_singleton.mp he'] at h; exact .model e v he h hn
      | metric e' v he' h hn => rw [List.mem_singleton.mp he'] at h; exact .metric e v he h hn
      | slice e' l v he' h hv hn => rw [List.mem_singleton.mp he'] at h; exact .slice e l v he h hv hn
      | elementFilter e' gs f v he' hg hf h hn =>
        rw [List.mem_singleton.mp he'] at hg; exact .elementFilter e gs f v he hg hf h hn

theorem elements_all (env : DashEnv) (es : List FDef) (hs : ∀ e ∈ es, Shaped e) (hm : ∀ e ∈ es, HasKey e "model") :
    ∃ ps, flatDash (elementErrors env true) es = .ok ps ∧ ∀ p, p ∈ ps ↔ ∃ e ∈ es, DashWrong env [] [e] p := by
  induction es with
  | nil => exact ⟨[], rfl, by simp⟩
  | cons e es ih =>
    obtain ⟨qs, h1, h2⟩ := elementErrors_ok env e (hs e (by simp)) (hm e (by simp))
    obtain ⟨ps, h3, h4⟩ := ih (fun x hx => hs x (by simp [hx])) (fun x hx => hm x (by simp [hx]))
    refine ⟨qs ++ ps, by simp only [flatDash, h1, h3], fun p => ?_⟩
    rw [List.mem_append, h2, h4]
    simp only [List.mem_cons, exists_eq_or_imp]

/-- C69 (e): validating a dashboard reports exactly the models that do not exist and the fields that cannot be looked up, wherever they are
referred to: in its filters, and in the metrics, slices and filters of its elements. -/
theorem C69_errors (env : DashEnv) (d : FDef) (fs es : List FDef) (hf : FiltersOf d fs) (he : ElementsOf d es)
    (hn : GivesText d "name") (hs : ∀ e ∈ es, Shaped e) (hk : ∀ f ∈ fs, HasKey f "field") (hm : ∀ e ∈ es, HasKey e "model") :
    ∃ ps, dashErrors env d = .ok ps ∧ ∀ p, p ∈ ps ↔ DashWrong env fs es p := by
  obtain ⟨ps, h1, h2⟩ := dashFilter_all env fs hk
  obtain ⟨qs, h3, h4⟩ := elements_all env es hs hm
  obtain ⟨s, hn⟩ := hn
  have hnamed : isNamed d = true := by unfold isNamed; rw [show dictGet d "name" = some (Yaml.str s) from hn]
  refine ⟨ps ++ qs, ?_, fun p => by rw [List.mem_append, h2, h4, wrong_cons]⟩
  unfold dashErrors
  rw [rawFilters_of hf]
  simp only [h1]
  rw [dashElements_of he, (mapDash_init es es).mpr ⟨hm, rfl⟩]
  simp only [hnamed, h3]

/-- C69 (f): otherwise nothing is reported at all: a filter of the dashboard without a field ends the validation in a KeyError, and
an element without a model in a query error, whatever else is wrong. -/
theorem C69_errors_lost (env : DashEnv) (d : FDef) (fs es : List FDef) (hf : FiltersOf d fs) (he : ElementsOf d es) :
    ((∃ f ∈ fs, ¬ HasKey f "field") → dashErrors env d = .error .keyError) ∧
    ((∀ f ∈ fs, HasKey f "field") → (∃ e ∈ es, ¬ HasKey e "model") → dashErrors env d = .error .query) := by
  have miss : ∀ fs : List FDef, (∃ f ∈ fs, ¬ HasKey f "field") → flatDash (checkDashFilter env) (fs.map .dict) = .error .keyError := by
    intro fs
    induction fs with
    | nil => rintro ⟨f, hf, -⟩; cases hf
    | cons f fs ih =>
      rintro ⟨g, hg, hk⟩
      simp only [List.map_cons, flatDash, checkDashFilter]
      cases c : dictGet f "field" with
      | none => rfl
      | some v =>
        rcases List.mem_cons.mp hg with rfl | hg
        · exact absurd ⟨v, c⟩ hk
        · simp only [ih ⟨g, hg, hk⟩]
  have missE : ∀ es : List FDef, (∃ e ∈ es, ¬ HasKey e "model") → mapDash elementInit (es.map .dict) = .error .query := by
    intro es
    induction es with
    | nil => rintro ⟨f, hf, -⟩; cases hf
    | cons f fs ih =>
      rintro ⟨g, hg, hk⟩
      simp only [List.map_cons, mapDash, elementInit]
      cases c : dictGet f "model" with
      | none => rfl
      | some v =>
        rcases List.mem_cons.mp hg with rfl | hg
        · exact absurd ⟨v, c⟩ hk
        · simp only [ih ⟨g, hg, hk⟩]
  constructor
  · intro h
    unfold dashErrors
    rw [rawFilters_of hf]
    simp only [miss fs h]
  · intro h h'
    obtain ⟨ps, h1, -⟩ := dashFilter_all env fs h
    unfold dashErrors
    rw [rawFilters_of hf]
    simp only [h1]
    rw [dashElements_of he, missE es h']

end ML
