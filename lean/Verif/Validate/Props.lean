import Verif.Validate.Lemmas
/-
C47 Validation reports each distinct problem once and stops only when nothing else can be checked.
-/
set_option autoImplicit false
namespace ML
open Spec

/-- C47 (a): when models, graph and references can be collected, validation returns exactly the
problems of the project, one report per message. -/
theorem C47_exact_partial (p : VProject) (hb : Buildable p) (hr : RefsCollectable p) :
    ∃ out, validate p = .ok out ∧ (out.map (·.message)).Nodup ∧
      ∀ m, (∃ r ∈ out, r.message = m) ↔ Problem p m := by
  obtain ⟨hms, gs, hg⟩ := hb
  obtain ⟨ms, hm1, hm2⟩ := modelErrors_ok hms
  obtain ⟨vs, hv1, hv2⟩ := viewErrors_sound p.required p.views hr none
  have hv3 := viewErrors_complete p.required p.views none vs hv1
  obtain ⟨c1, c2, -, c4⟩ := cleanErrors_spec (ms ++ gs ++ tagErrors p.tags ++ vs
          ++ p.dashboards.flatMap (·.errors) ++ dashNameErrors (p.dashboards.map (·.name))) []
  refine ⟨_, by simp only [validate, hm1, hg, hv1], c2, ?_⟩
  intro m
  rw [firstOfEach_messages ⟨c1, c2, fun pre r post h1 h2 => c4 pre r post h1 (by simp) h2⟩]
  simp only [List.mem_append, mem_dashNameErrors, List.mem_flatMap]
  constructor
  · rintro ⟨r, (((((h | h) | h) | h) | ⟨d, hd, h⟩) | ⟨n, hn, rfl⟩), rfl⟩
    · obtain ⟨es, h1, h2⟩ := (hm2 r).mp h; exact .model h1 h2
    · exact .graph hg h
    · simp only [tagErrors, List.mem_filterMap, Option.map_eq_some_iff] at h
      obtain ⟨t, ht, e, he, rfl⟩ := h
      subst he
      exact .tag ht
    · obtain ⟨v, hv, h⟩ := hv2 r h
      rcases h with h | ⟨e, he, rfl⟩ | ⟨bs, b, hbs, hb, rfl⟩ | h
      · rcases (mem_accessErrors p.required v r.message).mp ⟨r, h, rfl⟩ with
          ⟨a, ha, he, hm⟩ | ⟨a, ha, he, hn, hm⟩
        · rw [hm]; exact .noAccessFilter hv ha he
        · rw [hm]; exact .missingAccessFilter hv ha he hn
      · exact .table hv he
      · cases hp : b.personal with
        | false => rw [(refReport_message v b).1 hp]; exact .ref hv hbs hb hp
        | true => rw [(refReport_message v b).2 hp]; exact .personalRef hv hbs hb hp
      · exact .view hv h
    · exact .dash hd h
    · exact .dashName hn
  · intro h
    cases h with
    | @model es r h1 h2 => exact ⟨r, by simp [(hm2 r).mpr ⟨es, h1, h2⟩], rfl⟩
    | @graph es r h1 h2 => rw [hg] at h1; cases h1; exact ⟨r, by simp [h2], rfl⟩
    | @tag e h =>
      refine ⟨{ message := m }, .inl (.inl (.inl (.inr ?_))), rfl⟩
      simp only [tagErrors, List.mem_filterMap]
      exact ⟨_, h, rfl⟩
    | @noAccessFilter v a hv ha he =>
      obtain ⟨r, h1, h2⟩ := (mem_accessErrors p.required v _).mpr (.inl ⟨a, ha, he, rfl⟩)
      exact ⟨r, by simp [(hv3 v hv).1 r h1], h2⟩
    | @missingAccessFilter v a hv ha he hn =>
      obtain ⟨r, h1, h2⟩ := (mem_accessErrors p.required v _).mpr (.inr ⟨a, ha, he, hn, rfl⟩)
      exact ⟨r, by simp [(hv3 v hv).1 r h1], h2⟩
    | @table v e hv he => exact ⟨inView e v, by simp [(hv3 v hv).2.1 e he], rfl⟩
    | @refsRaise v e hv he => exact ⟨inView e v, by simp [(hv3 v hv).2.2.1 e he], rfl⟩
    | @ref v bs b hv hbs hb hp =>
      exact ⟨refReport v b, by simp [(hv3 v hv).2.2.2.1 bs hbs b hb], (refReport_message v b).1 hp⟩
    | @personalRef v bs b hv hbs hb hp =>
      exact ⟨refReport v b, by simp [(hv3 v hv).2.2.2.1 bs hbs b hb], (refReport_message v b).2 hp⟩
    | @view v r hv h => exact ⟨r, by simp [(hv3 v hv).2.2.2.2 r h], rfl⟩
    | @dash d r hd h => exact ⟨r, .inl (.inr ⟨d, hd, h⟩), rfl⟩
    | @dashName n hn => exact ⟨_, .inr ⟨n, hn, rfl⟩, rfl⟩

/-- C47 (b): whenever validation of a buildable project returns, no problem is missing and no
message is repeated, even when the references of some view cannot be collected. -/
theorem C47_nothing_missed (p : VProject) (hb : Buildable p) (out : List Report)
    (h : validate p = .ok out) :
    (out.map (·.message)).Nodup ∧ ∀ m, Problem p m → ∃ r ∈ out, r.message = m := by
  obtain ⟨hms, gs, hg⟩ := hb
  obtain ⟨ms, hm1, hm2⟩ := modelErrors_ok hms
  simp only [validate, hm1, hg] at h
  cases hv1 : viewErrors p.required none p.views with
  | error x => rw [hv1] at h; cases h
  | ok vs =>
    rw [hv1] at h
    simp only [Except.ok.injEq] at h
    subst h
    have hv3 := viewErrors_complete p.required p.views none vs hv1
    obtain ⟨c1, c2, -, c4⟩ := cleanErrors_spec (ms ++ gs ++ tagErrors p.tags ++ vs
            ++ p.dashboards.flatMap (·.errors) ++ dashNameErrors (p.dashboards.map (·.name))) []
    refine ⟨c2, ?_⟩
    intro m hp
    rw [firstOfEach_messages ⟨c1, c2, fun pre r post h1 h2 => c4 pre r post h1 (by simp) h2⟩]
    simp only [List.mem_append, mem_dashNameErrors, List.mem_flatMap]
    cases hp with
    | @model es r h1 h2 => exact ⟨r, by simp [(hm2 r).mpr ⟨es, h1, h2⟩], rfl⟩
    | @graph es r h1 h2 => rw [hg] at h1; cases h1; exact ⟨r, by simp [h2], rfl⟩
    | @tag e h =>
      refine ⟨{ message := m }, .inl (.inl (.inl (.inr ?_))), rfl⟩
      simp only [tagErrors, List.mem_filterMap]
      exact ⟨_, h, rfl⟩
    | @noAccessFilter v a hv ha he =>
      obtain ⟨r, h1, h2⟩ := (mem_accessErrors p.required v _).mpr (.inl ⟨a, ha, he, rfl⟩)
      exact ⟨r, by simp [(hv3 v hv).1 r h1], h2⟩
    | @missingAccessFilter v a hv ha he hn =>
      obtain ⟨r, h1, h2⟩ := (mem_accessErrors p.required v _).mpr (.inr ⟨a, ha, he, hn, rfl⟩)
      exact ⟨r, by simp [(hv3 v hv).1 r h1], h2⟩
    | @table v e hv he => exact ⟨inView e v, by simp [(hv3 v hv).2.1 e he], rfl⟩
    | @refsRaise v e hv he => exact ⟨inView e v, by simp [(hv3 v hv).2.2.1 e he], rfl⟩
    | @ref v bs b hv hbs hb hp =>
      exact ⟨refReport v b, by simp [(hv3 v hv).2.2.2.1 bs hbs b hb], (refReport_message v b).1 hp⟩
    | @personalRef v bs b hv hbs hb hp =>
      exact ⟨refReport v b, by simp [(hv3 v hv).2.2.2.1 bs hbs b hb], (refReport_message v b).2 hp⟩
    | @view v r hv h => exact ⟨r, by simp [(hv3 v hv).2.2.2.2 r h], rfl⟩
    | @dash d r hd h => exact ⟨r, .inl (.inr ⟨d, hd, h⟩), rfl⟩
    | @dashName n hn => exact ⟨_, .inr ⟨n, hn, rfl⟩, rfl⟩

/-- C47 (c): the reports come in the order the problems were found: the result is the first report
of each message of the models, the graph, the tags, the views, the dashboards and the repeated
dashboard names, in that order. -/
theorem C47_order (p : VProject) (ms : List (List Report)) (gs vs : List Report)
    (hm : p.models = ms.map .ok) (hg : p.graph = .ok gs)
    (hv : viewErrors p.required none p.views = .ok vs) :
    ∃ out, validate p = .ok out ∧ FirstOfEach (ms.flatten ++ gs ++ tagErrors p.tags ++ vs
      ++ p.dashboards.flatMap (·.errors) ++ dashNameErrors (p.dashboards.map (·.name))) out := by
  have h1 : modelErrors p.models = .ok ms.flatten := by
    rw [hm]
    clear hm
    induction ms with
    | nil => rfl
    | cons x xs ih => simp only [List.map_cons, modelErrors, ih, List.flatten_cons]
  refine ⟨_, by simp only [validate, h1, hg, hv]; rfl, ?_⟩
  obtain ⟨c1, c2, -, c4⟩ := cleanErrors_spec (ms.flatten ++ gs ++ tagErrors p.tags ++ vs
          ++ p.dashboards.flatMap (·.errors) ++ dashNameErrors (p.dashboards.map (·.name))) []
  exact ⟨c1, c2, fun pre r post h1 h2 => c4 pre r post h1 (by simp) h2⟩

/-- C47 (d): validation stops early only for a model or join graph that cannot be built, and then
reports exactly that error: the first such model, or the graph. -/
theorem C47_early_stop (p : VProject) :
    (∀ pre e post, p.models = List.map Except.ok pre ++ .error e :: post →
      validate p = .ok [{ message := e }]) ∧
    (∀ e, (∀ m ∈ p.models, ∃ es, m = .ok es) → p.graph = .error e →
      validate p = .ok [{ message := e }]) := by
  refine ⟨fun pre e post h => ?_, fun e hm hg => ?_⟩
  · simp only [validate, h, modelErrors_first]
  · obtain ⟨ms, h1, -⟩ := modelErrors_ok hm
    simp only [validate, h1, hg]

/-- C47 (e): every repeated dashboard name is reported with its count, and no other. -/
theorem C47_dashboard_names (names : List String) (r : Report) :
    r ∈ dashNameErrors names ↔ ∃ n, 2 ≤ names.count n ∧
      r = { message := "Dashboard name " ++ n ++ " appears " ++ toString (names.count n)
              ++ " times, make sure dashboard names are unique" } :=
  mem_dashNameErrors names r

/-- C47 (f): validation itself fails exactly when the project is buildable and the references of
its first view cannot be collected. -/
theorem C47_crash_iff (p : VProject) :
    (∃ x, validate p = .error x) ↔ Buildable p ∧
      ∃ v vs e, p.views = v :: vs ∧ v.references = .error e := by
  constructor
  · rintro ⟨x, h⟩
    simp only [validate] at h
    cases hm : modelErrors p.models with
    | error e => rw [hm] at h; cases h
    | ok ms =>
      rw [hm] at h
      simp only at h
      cases hg : p.graph with
      | error e => rw [hg] at h; cases h
      | ok gs =>
        rw [hg] at h
        simp only at h
        refine ⟨⟨?_, gs, hg⟩, ?_⟩
        · intro m hmem
          cases m with
          | ok es => exact ⟨es, rfl⟩
          | error e =>
            exfalso
            clear h hg
            generalize p.models = l at hm hmem
            induction l generalizing ms with
            | nil => cases hmem
            | cons y ys ih =>
              cases y with
              | error e' => cases hm
              | ok es =>
                simp only [modelErrors] at hm
                simp only [List.mem_cons] at hmem
                rcases hmem with h' | hmem
                · cases h'
                · cases hy : modelErrors ys with
                  | error _ => rw [hy] at hm; cases hm
                  | ok o => exact ih o hy hmem
        · cases hvs : p.views with
          | nil => rw [hvs] at h; cases h
          | cons v vs =>
            rw [hvs] at h
            cases hr : v.references with
            | error e => exact ⟨v, vs, e, rfl, hr⟩
            | ok new =>
              obtain ⟨o, ho⟩ := viewErrors_bound p.required vs new
              simp only [viewErrors, hr, ho] at h
              cases h
  · rintro ⟨⟨hms, gs, hg⟩, v, vs, e, hvs, hr⟩
    obtain ⟨ms, h1, -⟩ := modelErrors_ok hms
    exact ⟨.unboundLocal, by simp only [validate, h1, hg, hvs, viewErrors, hr]⟩

/-- C47 (g): the hypothesis on references is needed: after a view whose references cannot be
collected, a problem of the previous view is reported for this view, where it does not exist. -/
theorem C47_stale_references :
    ∃ (p : VProject) (out : List Report) (m : String), Buildable p ∧ validate p = .ok out ∧
      (∃ r ∈ out, r.message = m) ∧ ¬ Problem p m := by
  refine ⟨{ views := [⟨"a", [], none, .ok [⟨"f", "x", false⟩], []⟩,
                      ⟨"b", [], none, .error "boom", []⟩] },
    [{ message := "Could not locate reference x in field f in view a", viewName := some "a",
       fieldName := some "f" },
     { message := "boom in the view b", viewName := some "b" },
     { message := "Could not locate reference x in field f in view b", viewName := some "b",
       fieldName := some "f" }],
    "Could not locate reference x in field f in view b", ⟨by simp, [], rfl⟩, by decide, ?_, ?_⟩
  · exact ⟨_, List.mem_cons_of_mem _ (List.mem_cons_of_mem _ List.mem_cons_self), rfl⟩
  · intro h
    generalize hm : "Could not locate reference x in field f in view b" = m at h
    cases h with
    | model h => simp at h
    | graph h h' => simp only [Except.ok.injEq] at h; subst h; cases h'
    | tag h => simp at h
    | noAccessFilter _ h => simp at h
    | missingAccessFilter _ h => simp at h
    | table hv h => simp at hv; rcases hv with rfl | rfl <;> cases h
    | refsRaise hv h =>
      simp at hv
      rcases hv with rfl | rfl
      · cases h
      · cases h; revert hm; decide
    | ref hv h hb =>
      simp at hv
      rcases hv with rfl | rfl
      · cases h; simp at hb; subst hb; revert hm; decide
      · cases h
    | personalRef hv h hb hp =>
      simp at hv
      rcases hv with rfl | rfl
      · cases h; simp at hb; subst hb; cases hp
      · cases h
    | view hv h => simp at hv; rcases hv with rfl | rfl <;> cases h
    | dash h => simp at h
    | dashName h => simp at h

/-! ### Concrete case -/
namespace ValidateExample
def proj : VProject :=
  { models := [.ok [{ message := "m1" }, { message := "dup" }]]
    graph := .ok [{ message := "dup" }]
    tags := [none, some "two customers"]
    required := ["region"]
    views := [⟨"orders", ["region"], none, .ok [⟨"total", "orders.nope", false⟩], []⟩,
              ⟨"users", [], some "no table", .ok [], []⟩]
    dashboards := [⟨"d1", []⟩, ⟨"d2", []⟩, ⟨"d1", []⟩, ⟨"d3", []⟩, ⟨"d2", []⟩] }
example : Buildable proj ∧ RefsCollectable proj := by
  refine ⟨⟨?_, _, rfl⟩, ?_⟩
  · intro m hm; simp [proj] at hm; exact ⟨_, hm⟩
  · intro v hv; simp [proj] at hv; rcases hv with rfl | rfl <;> exact ⟨_, rfl⟩
example : (validate proj).map (List.map (·.message)) = .ok
    ["m1", "dup", "two customers", "Could not locate reference orders.nope in field total in view orders",
     "View users does not have any access filters, but an access filter with user attribute region is required.",
     "no table in the view users", "Dashboard name d1 appears 2 times, make sure dashboard names are unique",
     "Dashboard name d2 appears 2 times, make sure dashboard names are unique"] := by decide
end ValidateExample

end ML
