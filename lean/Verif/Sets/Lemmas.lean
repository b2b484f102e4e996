import Verif.Sets.Spec
import Verif.Names.Props
/-
Helper lemmas for C30.
-/
set_option autoImplicit false
namespace ML
open Spec

/-- The text of an entry without its signs. -/
def Spec.SetItem.bare (i : SetItem) : String := match i.view with | some v => v ++ "." ++ i.name | none => i.name

theorem bare_plain (i : SetItem) (h : i.Ok) (c : Char) (hc : c = '*' ∨ c = '-') : c ∉ i.bare.toList := by
  have hn : c ∉ i.name.toList := by rcases hc with rfl | rfl; exacts [h.name.2.1, h.name.2.2]
  unfold SetItem.bare
  cases hv : i.view with
  | none => exact hn
  | some v =>
    have h2 : c ∉ v.toList := by
      obtain ⟨⟨_, a, b⟩, _⟩ := h.view v hv
      rcases hc with rfl | rfl
      exacts [a, b]
    have hd : c ≠ '.' := by rcases hc with rfl | rfl <;> decide
    simp [hn, h2, hd]

theorem text_toList (i : SetItem) : i.text.toList =
    (if i.minus then ['-'] else []) ++ i.bare.toList ++ (if i.star then ['*'] else []) := by
  unfold SetItem.text SetItem.bare
  cases i.minus <;> cases i.star <;> simp <;> rfl

theorem filter_self (c : Char) (l : List Char) (h : c ∉ l) : l.filter (· ≠ c) = l :=
  List.filter_eq_self.mpr (fun x hx => by simp; rintro rfl; exact h hx)

theorem bare_parts (i : SetItem) (h : i.Ok) : fieldNameParts i.bare = (none, i.view, i.name) := by
  unfold SetItem.bare
  cases hv : i.view with
  | none => exact C06_split_other _ (.inl (List.count_eq_zero.mpr h.name.1))
  | some v => exact C06_split_two v i.name (h.view v hv).1.1 h.name.1

/-- What an entry refers to, before it is added or excluded. -/
def entrySource (env : SetEnv) (expand : SetDef → Res (List String)) (s : SetDef) (i : SetItem) : Res (List String) :=
  if i.star then setReference env expand s i.bare
  else match setFieldName s i.bare with | .error e => .error e | .ok f => .ok [f]

theorem setEntry_text (env : SetEnv) (expand : SetDef → Res (List String)) (s : SetDef) (i : SetItem) (h : i.Ok) :
    setEntry env expand s i.text =
      (entrySource env expand s i).map (fun l => if i.minus then ([], l) else (l, [])) := by
  have h1 := bare_plain i h '*' (.inl rfl)
  have h2 := bare_plain i h '-' (.inr rfl)
  have hw : ∀ (c : Char) (t u : String), t.toList.filter (· ≠ c) = u.toList → without c t = u := by
    intro c t u e
    unfold without
    rw [e]; exact String.ofList_toList
  have ht := text_toList i
  unfold setEntry entrySource
  rw [ht]
  cases hm : i.minus <;> cases hs : i.star <;> rw [hm, hs] at ht
  · have e : i.text = i.bare := String.toList_inj.mp (by rw [ht]; simp)
    simp [h1, h2, e]
    cases setFieldName s i.bare <;> rfl
  · have e : without '*' i.text = i.bare := hw _ _ _ (by rw [ht]; simp; rintro a ha rfl; exact h1 ha)
    simp [h2, e]
    cases setReference env expand s i.bare <;> rfl
  · have e : without '-' i.text = i.bare := hw _ _ _ (by rw [ht]; simp; rintro a ha rfl; exact h2 ha)
    simp [h1, e]
    cases setFieldName s i.bare <;> rfl
  · have e : without '-' (without '*' i.text) = i.bare := by
      apply hw
      unfold without
      rw [String.toList_ofList, ht]
      simp
      intro a ha
      exact ⟨by rintro rfl; exact h2 ha, by rintro rfl; exact h1 ha⟩
    simp [e]
    cases setReference env expand s i.bare <;> rfl

theorem getSet_iff (env : SetEnv) (i : SetItem) (h : i.Ok) (t : SetDef) :
    env.getSet i.name i.view = some t ↔ NamedSet env i t := by
  unfold SetEnv.getSet SetEnv.sets NamedSet
  cases hv : i.view with
  | none => simp
  | some v =>
    simp only [(h.view v hv).2, if_false]
    cases env.views.find? (fun x => x.1 = v) with
    | none => simp
    | some x => simp

theorem namedSet_mem (env : SetEnv) (s₀ : SetDef) (i : SetItem) (t : SetDef) (h : NamedSet env i t) :
    t ∈ setsAround env s₀ := by
  unfold NamedSet at h
  unfold setsAround
  right
  cases hv : i.view with
  | none => rw [hv] at h; exact List.mem_of_find?_eq_some h
  | some v =>
    rw [hv] at h
    obtain ⟨x, h1, h2⟩ := h
    exact List.mem_flatMap.mpr ⟨x, List.mem_of_find?_eq_some h1, List.mem_of_find?_eq_some h2⟩

theorem bare_allFields (i : SetItem) (_h : i.Ok) : i.bare = "ALL_FIELDS" ↔ i.view = none ∧ i.name = "ALL_FIELDS" := by
  constructor
  · intro e
    cases hv : i.view with
    | none => unfold SetItem.bare at e; rw [hv] at e; exact ⟨rfl, e⟩
    | some v =>
      exfalso
      unfold SetItem.bare at e; rw [hv] at e
      have : '.' ∈ (v ++ "." ++ i.name).toList := by simp
      have e : v ++ "." ++ i.name = "ALL_FIELDS" := e
      rw [e] at this
      exact absurd this (by decide)
  · rintro ⟨h1, h2⟩
    unfold SetItem.bare; rw [h1]; exact h2

/-- What the source of an entry holds. -/
theorem source_means (env : SetEnv) (expand : SetDef → Res (List String)) (M : SetDef → String → Prop) (s : SetDef)
    (i : SetItem) (h : i.Ok)
    (hM : i.star = true → ∀ t, NamedSet env i t → ∀ out, expand t = .ok out → ∀ f, f ∈ out ↔ M t f)
    (l : List String) (hl : entrySource env expand s i = .ok l) (f : String) : f ∈ l ↔ Means env M s i f := by
  unfold entrySource at hl
  unfold Means
  cases hs : i.star with
  | true =>
    rw [hs] at hl
    simp only [if_true] at hl ⊢
    unfold setReference at hl
    by_cases ha : i.view = none ∧ i.name = "ALL_FIELDS"
    · rw [if_pos ((bare_allFields i h).mpr ha)] at hl
      rw [if_pos ha, hl]
      simp
    · rw [if_neg (fun c => ha ((bare_allFields i h).mp c)), bare_parts i h] at hl
      rw [if_neg ha]
      cases hg : env.getSet i.name i.view with
      | none =>
        rw [hg] at hl; injection hl with hl; subst hl
        simp only [List.not_mem_nil, false_iff]
        rintro ⟨t, ht, _⟩
        rw [← getSet_iff env i h t, hg] at ht
        cases ht
      | some t =>
        rw [hg] at hl
        have ht := (getSet_iff env i h t).mp hg
        rw [hM hs t ht l hl f]
        constructor
        · intro hm; exact ⟨t, ht, hm⟩
        · rintro ⟨t', ht', hm⟩
          rw [← getSet_iff env i h t', hg] at ht'
          injection ht' with ht'; rw [ht']; exact hm
  | false =>
    rw [hs] at hl
    have hl : (match setFieldName s i.bare with | .error e => .error e | .ok f => .ok [f] : Res (List String)) = .ok l := hl
    unfold setFieldName at hl
    rw [bare_parts i h] at hl
    simp only [Bool.false_eq_true, if_false] at hl ⊢
    unfold setViewName at hl
    cases hv : i.view with
    | some v =>
      rw [hv] at hl
      simp only [ne_eq, (h.view v hv).2, not_false_eq_true, if_true] at hl
      injection hl with hl; subst hl
      simp
    | none =>
      rw [hv] at hl
      simp only at hl
      cases hn : s.viewName with
      | none => rw [hn] at hl; cases hl
      | some v =>
        rw [hn] at hl
        by_cases he : v = ""
        · simp [he] at hl
        · simp only [ne_eq, he, not_false_eq_true, if_true] at hl
          injection hl with hl; subst hl
          simp

theorem setEntries_spec (env : SetEnv) (expand : SetDef → Res (List String)) (s : SetDef)
    (items : List SetItem) (hok : ∀ i ∈ items, i.Ok) (all excl : List String)
    (h : setEntries env expand s (items.map SetItem.text) = .ok (all, excl)) :
    ∃ src : SetItem → List String, (∀ i ∈ items, entrySource env expand s i = .ok (src i)) ∧
      all = items.flatMap (fun i => if i.minus then [] else src i) ∧
      excl = items.flatMap (fun i => if i.minus then src i else []) := by
  refine ⟨fun i => match entrySource env expand s i with | .ok l => l | .error _ => [], ?_⟩
  induction items generalizing all excl with
  | nil =>
    simp only [List.map_nil, setEntries, Except.ok.injEq, Prod.mk.injEq] at h
    obtain ⟨rfl, rfl⟩ := h
    simp
  | cons i is ih =>
    simp only [List.map_cons, setEntries, setEntry_text env expand s i (hok i (by simp))] at h
    cases hs : entrySource env expand s i with
    | error e => rw [hs] at h; cases h
    | ok l =>
      rw [hs] at h
      simp only [Except.map] at h
      cases hr : setEntries env expand s (is.map SetItem.text) with
      | error e => rw [hr] at h; split at h <;> simp_all
      | ok r =>
        obtain ⟨as, xs⟩ := r
        obtain ⟨i1, i2, i3⟩ := ih (fun j hj => hok j (by simp [hj])) as xs hr
        rw [hr] at h
        refine ⟨?_, ?_, ?_⟩
        · intro j hj
          rcases List.mem_cons.mp hj with rfl | hj
          · simp only [hs]
          · exact i1 j hj
        · cases hm : i.minus <;> rw [hm] at h <;> simp at h <;> simp [hm, hs, ← i2, ← h.1]
        · cases hm : i.minus <;> rw [hm] at h <;> simp at h <;> simp [hm, hs, ← i3, ← h.2]

theorem mem_setResult (all excl : List String) (f : String) : f ∈ setResult all excl ↔ f ∈ all ∧ f ∉ excl := by
  unfold setResult
  rw [List.mem_insertionSort, List.mem_dedup]
  simp

theorem nodup_setResult (all excl : List String) : (setResult all excl).Nodup := by
  unfold setResult
  exact (List.perm_insertionSort _ _).nodup_iff.mpr (List.nodup_dedup _)

theorem sorted_setResult (all excl : List String) :
    (setResult all excl).Pairwise (fun a b => all.idxOf a < all.idxOf b) := by
  have h1 : (setResult all excl).Pairwise (fun a b => all.idxOf a ≤ all.idxOf b) := by
    unfold setResult
    exact List.pairwise_insertionSort _ _
  have h2 := nodup_setResult all excl
  rw [List.Nodup] at h2
  have h3 : ∀ f ∈ setResult all excl, f ∈ all := fun f hf => ((mem_setResult all excl f).mp hf).1
  have h4 := h1.and h2
  refine List.Pairwise.imp_of_mem ?_ h4
  rintro a b ha hb ⟨hle, hne⟩
  refine lt_of_le_of_ne hle (fun e => hne ?_)
  exact (List.idxOf_inj (h3 a ha)).mp e

theorem setEntries_mono (env : SetEnv) (e1 e2 : SetDef → Res (List String))
    (he : ∀ t l, e1 t = .ok l → e2 t = .ok l) (s : SetDef) (fs : List String) (r : List String × List String)
    (h : setEntries env e1 s fs = .ok r) : setEntries env e2 s fs = .ok r := by
  have href : ∀ n l, setReference env e1 s n = .ok l → setReference env e2 s n = .ok l := by
    intro n l
    unfold setReference
    split
    · exact id
    · split
      · exact id
      · exact he _ _
  have hent : ∀ f r, setEntry env e1 s f = .ok r → setEntry env e2 s f = .ok r := by
    intro f r
    unfold setEntry
    split
    · intro h
      cases hr : setReference env e1 s (without '-' (without '*' f)) with
      | error e => rw [hr] at h; cases h
      | ok l => rw [href _ _ hr]; rw [hr] at h; exact h
    · split
      · intro h
        cases hr : setReference env e1 s (without '*' f) with
        | error e => rw [hr] at h; cases h
        | ok l => rw [href _ _ hr]; rw [hr] at h; exact h
      · exact id
  induction fs generalizing r with
  | nil => exact h
  | cons f fs ih =>
    simp only [setEntries] at h ⊢
    cases hf : setEntry env e1 s f with
    | error e => rw [hf] at h; cases h
    | ok a =>
      rw [hent f a hf]
      rw [hf] at h
      cases hr : setEntries env e1 s fs with
      | error e => rw [hr] at h; cases h
      | ok b => rw [ih b hr]; rw [hr] at h; exact h

theorem setFieldNames_mono (env : SetEnv) (n : ℕ) (s : SetDef) (out : List String)
    (h : setFieldNames env n s = .ok out) : setFieldNames env (n + 1) s = .ok out := by
  induction n generalizing s out with
  | zero => cases h
  | succ n ih =>
    simp only [setFieldNames] at h
    rw [setFieldNames]
    cases he : setEntries env (setFieldNames env n) s s.fields with
    | error e => rw [he] at h; cases h
    | ok r =>
      rw [setEntries_mono env _ (setFieldNames env (n + 1)) ih s _ r he]
      rw [he] at h
      exact h

theorem setFieldNames_mono_le (env : SetEnv) (n m : ℕ) (hnm : n ≤ m) (s : SetDef) (out : List String)
    (h : setFieldNames env n s = .ok out) : setFieldNames env m s = .ok out := by
  induction m, hnm using Nat.le_induction with
  | base => exact h
  | succ m _ ih => exact setFieldNames_mono env m s out ih

end ML
