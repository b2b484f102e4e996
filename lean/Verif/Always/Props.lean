import Verif.Always.Spec
import Mathlib.Data.List.Basic
/-
C42: the filters that views always apply.
-/
set_option autoImplicit false
namespace ML
open Spec

theorem qualify_field (view : String) (f : AFilter) :
    (qualify view f).field = f.field.map (fun n => if '.' ∈ n.toList then n else view ++ "." ++ n) := by
  obtain ⟨fld, rest⟩ := f
  unfold qualify
  cases fld with
  | none => rfl
  | some n =>
    simp only [Option.map_some]
    split <;> rfl

theorem expandView_ok {env : AlwaysEnv} {v : String} : ∀ {fs : List AFilter},
    (∀ a ∈ fs, ∃ n cs, a.field = some n ∧
      env.expand (if '.' ∈ n.toList then n else v ++ "." ++ n) a.rest = .ok cs) →
    ∃ cs, expandView env v fs = .ok cs ∧ ∀ c, c ∈ cs ↔ ∃ a ∈ fs, ∃ n ds, a.field = some n ∧
      env.expand (if '.' ∈ n.toList then n else v ++ "." ++ n) a.rest = .ok ds ∧ c ∈ ds
  | [], _ => ⟨[], rfl, by simp⟩
  | f :: fs, h => by
    obtain ⟨n, cs, h1, h2⟩ := h f (by simp)
    obtain ⟨ds, h3, h4⟩ := expandView_ok (fun a ha => h a (List.mem_cons_of_mem _ ha)) (fs := fs)
    refine ⟨cs ++ ds, ?_, ?_⟩
    · unfold expandView
      rw [qualify_field, h1]
      simp only [Option.map_some, h2, h3]
    · intro c
      rw [List.mem_append, h4]
      constructor
      · rintro (h | ⟨a, ha, h⟩)
        · exact ⟨f, by simp, n, cs, h1, h2, h⟩
        · exact ⟨a, by simp [ha], h⟩
      · rintro ⟨a, ha, n', ds', h5, h6, h7⟩
        rcases List.mem_cons.mp ha with rfl | ha
        · left
          rw [h1] at h5
          cases h5
          rw [h2] at h6
          cases h6
          exact h7
        · exact .inr ⟨a, ha, n', ds', h5, h6, h7⟩

theorem mem_collect {env : AlwaysEnv} : ∀ {fields : List String}, ReadableAlways env fields →
    ∀ c, c ∈ collectAlways env fields ↔ Required env fields c
  | [], _, c => by simp [collectAlways, Required]
  | f :: fs, h, c => by
    unfold collectAlways
    have ih := mem_collect (fun f hf => h f (List.mem_cons_of_mem _ hf)) (fields := fs) c
    rw [List.mem_append, ih]
    have key : c ∈ (match env.view f with
        | .error _ => []
        | .ok v => match expandView env v.name v.filters with
          | .error _ => []
          | .ok cs => cs) ↔ Required env [f] c := by
      cases hv : env.view f with
      | error e =>
        simp only [List.not_mem_nil, false_iff]
        rintro ⟨g, hg, v, h1, -⟩
        rw [List.mem_singleton.mp hg, hv] at h1
        cases h1
      | ok v =>
        obtain ⟨cs, h1, h2⟩ := expandView_ok (h f (by simp) v hv)
        simp only [h1, h2]
        constructor
        · intro h3
          exact ⟨f, by simp, v, hv, h3⟩
        · rintro ⟨g, hg, v', h3, h4⟩
          rw [List.mem_singleton.mp hg, hv] at h3
          cases h3
          exact h4
    refine Iff.trans (or_congr_left key) ?_
    constructor
    · rintro (⟨g, hg, h1⟩ | ⟨g, hg, h1⟩)
      · exact ⟨g, by simp only [List.mem_singleton] at hg; simp [hg], h1⟩
      · exact ⟨g, by simp [hg], h1⟩
    · rintro ⟨g, hg, h1⟩
      rcases List.mem_cons.mp hg with rfl | hg
      · exact .inl ⟨g, by simp, h1⟩
      · exact .inr ⟨g, hg, h1⟩

theorem mem_dedupItems {c : Items} : ∀ {seen l : List Items},
    c ∈ dedupItems seen l ↔ c ∈ l ∧ c ∉ seen
  | _, [] => by simp [dedupItems]
  | seen, f :: fs => by
    unfold dedupItems
    split
    · rename_i hf
      rw [mem_dedupItems]
      simp only [List.mem_cons]
      constructor
      · rintro ⟨h1, h2⟩
        exact ⟨.inr h1, h2⟩
      · rintro ⟨rfl | h1, h2⟩
        · exact absurd hf h2
        · exact ⟨h1, h2⟩
    · rename_i hf
      rw [List.mem_cons, mem_dedupItems]
      simp only [List.mem_append, List.mem_cons, List.not_mem_nil, or_false, not_or]
      constructor
      · rintro (rfl | ⟨h1, h2, h3⟩)
        · exact ⟨.inl rfl, hf⟩
        · exact ⟨.inr h1, h2⟩
      · rintro ⟨rfl | h1, h2⟩
        · exact .inl rfl
        · by_cases hc : c = f
          · exact .inl hc
          · exact .inr ⟨h1, h2, hc⟩

theorem dedupItems_nodup : ∀ {seen l : List Items}, (dedupItems seen l).Nodup
  | _, [] => by simp [dedupItems]
  | seen, f :: fs => by
    unfold dedupItems
    split
    · exact dedupItems_nodup
    · rw [List.nodup_cons]
      refine ⟨?_, dedupItems_nodup⟩
      rw [mem_dedupItems]
      simp

theorem cleanList_append (a b : List WEntry) : cleanList (a ++ b) = cleanList a ++ cleanList b := by
  induction a with
  | nil => simp [cleanList]
  | cons x xs ih => simp [cleanList, ih]

theorem cleanList_conds (l : List Items) : cleanList (l.map .cond) = l.map .cond := by
  induction l with
  | nil => simp [cleanList]
  | cons x xs ih => simp [cleanList, WEntry.clean, ih]

mutual
theorem clean_eq : ∀ (e : WEntry), NoWrap e → e.clean = e
  | .cond _, _ => by simp only [WEntry.clean]
  | .wrapped _ _, h => absurd h (by simp [NoWrap])
  | .group cs i, h => by simp only [WEntry.clean, cleanList_eq cs h]
theorem cleanList_eq : ∀ (es : List WEntry), NoWrapList es → cleanList es = es
  | [], _ => by simp only [cleanList]
  | e :: es, h => by simp only [cleanList, clean_eq e h.1, cleanList_eq es h.2]
end

/-- C42 (a): with well-formed always filters, the filters of the query are the user's filters, as
they were given and in their order, followed by the conditions of the always filters of all the
views of the requested metrics and dimensions: each exactly once, and no others. Missing for the
full statement: views with a malformed always filter (`C42_swallowed`), filters given as text or as
a single dict (`C42_text`), and lists of filters used for several queries (`C42_reused`). -/
theorem C42_added_partial (env : AlwaysEnv) (metrics dimensions : List String) (user : List WEntry)
    (huser : NoWrapList user) (h : ReadableAlways env (metrics ++ dimensions)) :
    ∃ added : List Items, addAlways (.list user) (alwaysWhere env (metrics ++ dimensions)) =
        .ok (.list (user ++ added.map .cond)) ∧
      added.Nodup ∧ ∀ c, c ∈ added ↔ Required env (metrics ++ dimensions) c := by
  refine ⟨alwaysWhere env (metrics ++ dimensions), ?_, dedupItems_nodup, ?_⟩
  · unfold addAlways
    simp only
    rw [cleanList_append, cleanList_eq user huser, cleanList_conds]
  · intro c
    unfold alwaysWhere
    rw [mem_dedupItems, mem_collect h]
    simp

/-- C42 (b): the same without user filters. -/
theorem C42_no_user_filters (env : AlwaysEnv) (metrics dimensions : List String)
    (h : ReadableAlways env (metrics ++ dimensions)) :
    ∃ added : List Items, addAlways .none (alwaysWhere env (metrics ++ dimensions)) =
        .ok (.list (added.map .cond)) ∧
      added.Nodup ∧ ∀ c, c ∈ added ↔ Required env (metrics ++ dimensions) c := by
  refine ⟨alwaysWhere env (metrics ++ dimensions), ?_, dedupItems_nodup, ?_⟩
  · unfold addAlways
    simp only
    rw [cleanList_conds]
  · intro c
    unfold alwaysWhere
    rw [mem_dedupItems, mem_collect h]
    simp

mutual
theorem clean_unwraps : ∀ e : WEntry, UnwrapsTo e e.clean
  | .cond i => by simp only [WEntry.clean]; exact .cond i
  | .wrapped e i => by simp only [WEntry.clean]; exact .wrapped e i
  | .group cs i => by simp only [WEntry.clean]; exact .group _ _ _ (cleanList_unwraps cs)
theorem cleanList_unwraps : ∀ es : List WEntry, UnwrapsAll es (cleanList es)
  | [] => by simp only [cleanList]; exact .nil
  | e :: es => by simp only [cleanList]; exact .cons _ _ _ _ (clean_unwraps e) (cleanList_unwraps es)
end

/-- C42 (c): user filters are kept whatever the views are: the query's list starts with them, only
"conditional_filter_logic" wrappers being removed. -/
theorem C42_user_kept (env : AlwaysEnv) (fields : List String) (user : List WEntry) :
    ∃ (kept : List WEntry) (added : List Items), addAlways (.list user) (alwaysWhere env fields) =
      .ok (.list (kept ++ added.map .cond)) ∧ UnwrapsAll user kept := by
  refine ⟨cleanList user, alwaysWhere env fields, ?_, cleanList_unwraps user⟩
  unfold addAlways
  simp only
  rw [cleanList_append, cleanList_conds]

example : addAlways (.list [.group [.wrapped (.cond [("field", .one "x")]) []] []]) [] = .ok (.list [.group [.cond [("field", .one "x")]] []]) := by
  simp [addAlways, cleanList, WEntry.clean]

/-- C42 (d): writing the view's name in front of the field, which the code does in the definition of
the view itself, changes nothing for later queries. -/
theorem C42_repeatable (env : AlwaysEnv) (v : String) (fs : List AFilter) :
    expandView env v (fs.map (qualify v)) = expandView env v fs := by
  have hq : ∀ f, (qualify v (qualify v f)).field = (qualify v f).field := by
    intro f
    rw [qualify_field, qualify_field]
    cases f.field with
    | none => rfl
    | some n =>
      simp only [Option.map_some, Option.some.injEq]
      by_cases h : '.' ∈ n.toList
      · simp [h]
      · simp [h]
  have hr : ∀ f, (qualify v f).rest = f.rest := by
    intro f
    obtain ⟨fld, rest⟩ := f
    unfold qualify
    cases fld with
    | none => rfl
    | some n => simp only; split <;> rfl
  induction fs with
  | nil => rfl
  | cons f fs ih => simp only [List.map_cons, expandView, hq, hr, ih]

/-- A project for the examples: two fields of one view and one of another, which share a condition. -/
def alwaysEx : AlwaysEnv where
  view f := if f = "orders.total" ∨ f = "orders.region" then
      .ok ⟨"orders", [⟨some "deleted", [("value", .one "no")]⟩, ⟨some "shops.open", [("value", .one "yes")]⟩]⟩
    else if f = "shops.name" then .ok ⟨"shops", [⟨some "open", [("value", .one "yes")]⟩]⟩
    else .error .accessDenied
  expand n items := .ok [("field", .one n) :: items]

example : ReadableAlways alwaysEx (["orders.total"] ++ ["orders.region", "shops.name", "some_mapping"]) ∧
    alwaysWhere alwaysEx ["orders.total", "orders.region", "shops.name", "some_mapping"] =
      [[("field", .one "orders.deleted"), ("value", .one "no")],
       [("field", .one "shops.open"), ("value", .one "yes")]] := by
  refine ⟨?_, by decide +kernel⟩
  intro f _ v _ a ha
  have hall : ∀ f v, alwaysEx.view f = .ok v → ∀ a ∈ v.filters, a.field.isSome = true := by
    intro f v hv a ha
    simp only [alwaysEx] at hv
    split at hv
    · cases hv
      simp only [List.mem_cons, List.not_mem_nil, or_false] at ha
      rcases ha with rfl | rfl <;> rfl
    · split at hv
      · cases hv
        simp only [List.mem_cons, List.not_mem_nil, or_false] at ha
        subst ha
        rfl
      · cases hv
  obtain ⟨n, hn⟩ := Option.isSome_iff_exists.mp (hall f v ‹_› a ha)
  exact ⟨n, _, hn, rfl⟩

/-- C42 (e), against the full statement: one malformed always filter switches off all the always
filters of its view, and the query still runs. -/
theorem C42_swallowed :
    ∃ (env : AlwaysEnv) (v : AView) (good : AFilter), env.view "orders.total" = .ok v ∧
      good ∈ v.filters ∧ good.field = some "orders.deleted" ∧
      env.expand "orders.deleted" good.rest = .ok [[("field", .one "orders.deleted")]] ∧
      addAlways (.list []) (alwaysWhere env ["orders.total"]) = .ok (.list []) := by
  refine ⟨⟨fun _ => .ok ⟨"orders", [⟨some "orders.deleted", [("value", .one "no")]⟩, ⟨some "x", []⟩]⟩,
      fun n items => if items.isEmpty then .error .query else .ok [[("field", .one n)]]⟩,
    _, ⟨some "orders.deleted", [("value", .one "no")]⟩, rfl, by simp, rfl, by decide, ?_⟩
  have : alwaysWhere ⟨fun _ => .ok ⟨"orders", [⟨some "orders.deleted", [("value", .one "no")]⟩,
      ⟨some "x", []⟩]⟩, fun n items => if items.isEmpty then .error .query
        else .ok [[("field", .one n)]]⟩ ["orders.total"] = [] := by decide +kernel
  rw [this]
  rfl

/-- C42 (f), against the full statement: with an always filter, a query whose filters are text or a
single dict raises AttributeError. -/
theorem C42_text (s : String) (hs : s ≠ "") (e : WEntry) (always : List Items) (ha : always ≠ []) :
    addAlways (.text s) always = .error .attributeError ∧
    addAlways (.dict e) always = .error .attributeError := by
  have : always.isEmpty = false := by cases always <;> simp_all
  simp [addAlways, hs, this]

/-- C42 (g), against the full statement: the caller's own list is extended, so the same list used for
a second query brings the always filters twice. -/
theorem C42_reused (user : List WEntry) (hne : user ≠ []) (always : List Items)
    (huser : NoWrapList user) :
    addAlways (.list (callerList user always)) always =
      .ok (.list (user ++ always.map .cond ++ always.map .cond)) := by
  have h : user.isEmpty = false := by cases user <;> simp_all
  unfold callerList addAlways
  simp only [h, Bool.false_eq_true, if_false]
  rw [cleanList_append, cleanList_append, cleanList_eq user huser, cleanList_conds]

end ML
