import Verif.Usable.Spec
import Verif.JoinGraph.Props
/-
Lemmas for C58 and C59.
-/
set_option autoImplicit false
namespace ML
open Spec

theorem neededLoop_mem {get : UGet} {deep : UField → Res (List String)} {view : String} :
    ∀ {ns : List String} {ws : List String}, neededLoop get deep view ns = .ok ws →
      ∀ w, w ∈ ws ↔ ∃ n ∈ ns, n ≠ "TABLE" ∧ ∃ g vs, get view n = .ok g ∧ deep g = .ok vs ∧ w ∈ vs
  | [], ws, h, w => by cases h; simp
  | n :: ns, ws, h, w => by
    unfold neededLoop at h
    by_cases ht : n = "TABLE"
    · rw [if_pos ht] at h
      rw [neededLoop_mem h w]
      constructor
      · rintro ⟨m, hm, r⟩; exact ⟨m, List.mem_cons_of_mem _ hm, r⟩
      · rintro ⟨m, hm, hne, r⟩
        rcases List.mem_cons.mp hm with rfl | hm
        · exact absurd ht hne
        · exact ⟨m, hm, hne, r⟩
    · rw [if_neg ht] at h
      cases hg : get view n with
      | error e => rw [hg] at h; cases h
      | ok g =>
        rw [hg] at h; simp only at h
        cases hd : deep g with
        | error e => rw [hd] at h; cases h
        | ok vs =>
          rw [hd] at h; simp only at h
          cases hl : neededLoop get deep view ns with
          | error e => rw [hl] at h; cases h
          | ok us =>
            rw [hl] at h; simp only at h
            cases h
            rw [List.mem_append, neededLoop_mem hl w]
            constructor
            · rintro (hw | ⟨m, hm, r⟩)
              · exact ⟨n, List.mem_cons_self, ht, g, vs, hg, hd, hw⟩
              · exact ⟨m, List.mem_cons_of_mem _ hm, r⟩
            · rintro ⟨m, hm, hne, g', vs', hg', hd', hw⟩
              rcases List.mem_cons.mp hm with rfl | hm
              · rw [hg] at hg'; cases hg'; rw [hd] at hd'; cases hd'; exact .inl hw
              · exact .inr ⟨m, hm, hne, g', vs', hg', hd', hw⟩

theorem needs_iff {get : UGet} {f : UField} {w : String} :
    Needs get f w ↔ w = f.view ∨ ∃ g, RefersTo get f g ∧ Needs get g w := by
  constructor
  · intro h
    cases h with
    | own => exact .inl rfl
    | ref hr hn => exact .inr ⟨_, hr, hn⟩
  · rintro (rfl | ⟨g, hr, hn⟩)
    · exact .own f
    · exact .ref hr hn

theorem requiredViews_spec {get : UGet} : ∀ {n : ℕ} {f : UField} {ws : List String},
    requiredViews get n f = .ok ws → ws.Nodup ∧ ∀ w, w ∈ ws ↔ Needs get f w
  | 0, f, ws, h => by cases h
  | n + 1, f, ws, h => by
    have key : ∀ (ns : List String) (us : List String),
        neededLoop get (requiredViews get n) f.view ns = .ok us →
        ∀ w, w ∈ us ↔ ∃ m ∈ ns, m ≠ "TABLE" ∧ ∃ g, get f.view m = .ok g ∧ Needs get g w := by
      intro ns us hl w
      rw [neededLoop_mem hl w]
      constructor
      · rintro ⟨m, hm, hne, g, vs, hg, hd, hw⟩
        exact ⟨m, hm, hne, g, hg, ((requiredViews_spec hd).2 w).mp hw⟩
      · rintro ⟨m, hm, hne, g, hg, hn⟩
        -- the loop ran through, so the deep call answered
        have : ∃ vs, requiredViews get n g = .ok vs := by
          clear w hn
          induction ns generalizing us with
          | nil => cases hm
          | cons a ns ih =>
            unfold neededLoop at hl
            by_cases ht : a = "TABLE"
            · rw [if_pos ht] at hl
              rcases List.mem_cons.mp hm with rfl | hm
              · exact absurd ht hne
              · exact ih _ hl hm
            · rw [if_neg ht] at hl
              cases hga : get f.view a with
              | error e => rw [hga] at hl; cases hl
              | ok ga =>
                rw [hga] at hl; simp only at hl
                cases hd : requiredViews get n ga with
                | error e => rw [hd] at hl; cases hl
                | ok vs =>
                  rw [hd] at hl; simp only at hl
                  cases hl' : neededLoop get (requiredViews get n) f.view ns with
                  | error e => rw [hl'] at hl; cases hl
                  | ok us' =>
                    rcases List.mem_cons.mp hm with rfl | hm
                    · rw [hga] at hg; cases hg; exact ⟨vs, hd⟩
                    · exact ih _ hl' hm
        obtain ⟨vs, hvs⟩ := this
        exact ⟨m, hm, hne, g, vs, hg, hvs, ((requiredViews_spec hvs).2 w).mpr hn⟩
    unfold requiredViews at h
    cases hs : f.sql with
    | some s =>
      rw [hs] at h; simp only at h
      cases hl : neededLoop get (requiredViews get n) f.view s.names with
      | error e => rw [hl] at h; cases h
      | ok vs =>
        rw [hl] at h; simp only at h
        cases h
        refine ⟨List.nodup_dedup _, fun w => ?_⟩
        rw [List.mem_dedup, List.mem_cons, key _ _ hl w, needs_iff]
        have e : sqlNamesOf f = s.names := by unfold sqlNamesOf; rw [hs]
        unfold RefersTo
        rw [e]
        constructor
        · rintro (h | ⟨m, hm, hne, g, hg, hn⟩)
          · exact .inl h
          · exact .inr ⟨g, ⟨m, hm, hne, hg⟩, hn⟩
        · rintro (h | ⟨g, ⟨m, hm, hne, hg⟩, hn⟩)
          · exact .inl h
          · exact .inr ⟨m, hm, hne, g, hg, hn⟩
    | none =>
      rw [hs] at h; simp only at h
      cases h1 : f.sqlStart with
      | none =>
        rw [h1] at h; simp only at h
        cases h
        refine ⟨by simp, fun w => ?_⟩
        rw [List.mem_singleton, needs_iff]
        have e : sqlNamesOf f = [] := by unfold sqlNamesOf; rw [hs, h1]
        unfold RefersTo
        rw [e]
        simp
      | some s =>
        cases h2 : f.sqlEnd with
        | none =>
          rw [h1, h2] at h; simp only at h
          cases h
          refine ⟨by simp, fun w => ?_⟩
          rw [List.mem_singleton, needs_iff]
          have e : sqlNamesOf f = [] := by unfold sqlNamesOf; rw [hs, h1, h2]
          unfold RefersTo
          rw [e]
          simp
        | some t =>
          rw [h1, h2] at h; simp only at h
          cases hl : neededLoop get (requiredViews get n) f.view s.names with
          | error e => rw [hl] at h; cases h
          | ok vs =>
            rw [hl] at h; simp only at h
            cases hl' : neededLoop get (requiredViews get n) f.view t.names with
            | error e => rw [hl'] at h; cases h
            | ok vs' =>
              rw [hl'] at h; simp only at h
              cases h
              refine ⟨List.nodup_dedup _, fun w => ?_⟩
              rw [List.mem_dedup, List.mem_cons, List.mem_append, key _ _ hl w, key _ _ hl' w, needs_iff]
              have e : sqlNamesOf f = s.names ++ t.names := by unfold sqlNamesOf; rw [hs, h1, h2]
              unfold RefersTo
              rw [e]
              constructor
              · rintro (h | ⟨m, hm, hne, g, hg, hn⟩ | ⟨m, hm, hne, g, hg, hn⟩)
                · exact .inl h
                · exact .inr ⟨g, ⟨m, List.mem_append_left _ hm, hne, hg⟩, hn⟩
                · exact .inr ⟨g, ⟨m, List.mem_append_right _ hm, hne, hg⟩, hn⟩
              · rintro (h | ⟨g, ⟨m, hm, hne, hg⟩, hn⟩)
                · exact .inl h
                · rcases List.mem_append.mp hm with hm | hm
                  · exact .inr (.inl ⟨m, hm, hne, g, hg, hn⟩)
                  · exact .inr (.inr ⟨m, hm, hne, g, hg, hn⟩)

/-- What the loop over the references of a text collects. -/
theorem refsLoop_mem {get : UGet} {deep : UField → Res (Option (List URef))} {view : String} :
    ∀ {ns : List String} {rs : List URef}, refsLoop get deep view ns = .ok rs →
      ∀ h, URef.field h ∈ rs ↔ ∃ n ∈ ns, n ≠ "TABLE" ∧ ∃ g, get view n = .ok g ∧
        ((g.type ≠ "number" ∧ h = g) ∨ (g.type = "number" ∧ ∃ l, deep g = .ok (some l) ∧ URef.field h ∈ l))
  | [], rs, hr, h => by cases hr; simp
  | n :: ns, rs, hr, h => by
    have step : (∃ m ∈ n :: ns, m ≠ "TABLE" ∧ ∃ g, get view m = .ok g ∧
        ((g.type ≠ "number" ∧ h = g) ∨ (g.type = "number" ∧ ∃ l, deep g = .ok (some l) ∧ URef.field h ∈ l))) ↔
        (n ≠ "TABLE" ∧ ∃ g, get view n = .ok g ∧
        ((g.type ≠ "number" ∧ h = g) ∨ (g.type = "number" ∧ ∃ l, deep g = .ok (some l) ∧ URef.field h ∈ l))) ∨
        (∃ m ∈ ns, m ≠ "TABLE" ∧ ∃ g, get view m = .ok g ∧
        ((g.type ≠ "number" ∧ h = g) ∨ (g.type = "number" ∧ ∃ l, deep g = .ok (some l) ∧ URef.field h ∈ l))) := by
      constructor
      · rintro ⟨m, hm, r⟩
        rcases List.mem_cons.mp hm with rfl | hm
        · exact .inl r
        · exact .inr ⟨m, hm, r⟩
      · rintro (r | ⟨m, hm, r⟩)
        · exact ⟨n, List.mem_cons_self, r⟩
        · exact ⟨m, List.mem_cons_of_mem _ hm, r⟩
    rw [step]
    unfold refsLoop at hr
    by_cases ht : n = "TABLE"
    · rw [if_pos ht] at hr
      rw [refsLoop_mem hr h]
      exact ⟨.inr, fun c => c.resolve_left (fun ⟨hne, _⟩ => hne ht)⟩
    · rw [if_neg ht] at hr
      cases hg : get view n with
      | error e =>
        rw [hg] at hr
        have : ∃ us, refsLoop get deep view ns = .ok us ∧ rs = .text n :: us := by
          cases hl : refsLoop get deep view ns with
          | error e' => cases e <;> simp [hl] at hr
          | ok us => cases e <;> simp [hl] at hr; exact ⟨us, rfl, hr.symm⟩
        obtain ⟨us, hl, rfl⟩ := this
        simp only [List.mem_cons, reduceCtorEq, false_or, refsLoop_mem hl h, false_and, exists_false, and_false]
      | ok g =>
        rw [hg] at hr; simp only at hr
        by_cases hn : g.type = "number"
        · rw [if_pos hn] at hr
          cases hd : deep g with
          | error e => rw [hd] at hr; cases hr
          | ok r =>
            rw [hd] at hr; simp only at hr
            cases hl : refsLoop get deep view ns with
            | error e => rw [hl] at hr; cases hr
            | ok us =>
              rw [hl] at hr; simp only at hr
              cases hr
              rw [List.mem_append, refsLoop_mem hl h]
              refine or_congr_left ?_
              constructor
              · intro hm
                cases r with
                | none => cases hm
                | some l => exact ⟨ht, g, rfl, .inr ⟨hn, l, hd, hm⟩⟩
              · rintro ⟨-, g', hg', ⟨hne, -⟩ | ⟨-, l, hl', hm⟩⟩
                · cases hg'; exact absurd hn hne
                · cases hg'; rw [hd] at hl'; cases hl'; exact hm
        · rw [if_neg hn] at hr
          cases hl : refsLoop get deep view ns with
          | error e => rw [hl] at hr; cases hr
          | ok us =>
            rw [hl] at hr; simp only at hr
            cases hr
            rw [List.mem_cons, refsLoop_mem hl h]
            refine or_congr_left ?_
            constructor
            · intro hm; cases hm; exact ⟨ht, _, rfl, .inl ⟨hn, rfl⟩⟩
            · rintro ⟨-, g', hg', ⟨-, rfl⟩ | ⟨hne, -⟩⟩
              · cases hg'; rfl
              · cases hg'; exact absurd hne hn

/-- When the loop ran through, so did the call for every numeric field met. -/
theorem refsLoop_deep {get : UGet} {deep : UField → Res (Option (List URef))} {view : String} :
    ∀ {ns : List String} {rs : List URef}, refsLoop get deep view ns = .ok rs →
      ∀ n ∈ ns, n ≠ "TABLE" → ∀ g, get view n = .ok g → g.type = "number" → ∃ r, deep g = .ok r
  | [], rs, hr, n, hn => by cases hn
  | m :: ns, rs, hr, n, hn => by
    intro hne g hg hnum
    unfold refsLoop at hr
    by_cases ht : m = "TABLE"
    · rw [if_pos ht] at hr
      rcases List.mem_cons.mp hn with rfl | hn
      · exact absurd ht hne
      · exact refsLoop_deep hr n hn hne g hg hnum
    · rw [if_neg ht] at hr
      cases hgm : get view m with
      | error e =>
        rw [hgm] at hr
        have : ∃ us, refsLoop get deep view ns = .ok us := by
          cases hl : refsLoop get deep view ns with
          | error e' => cases e <;> simp [hl] at hr
          | ok us => exact ⟨us, rfl⟩
        obtain ⟨us, hl⟩ := this
        rcases List.mem_cons.mp hn with rfl | hn
        · rw [hgm] at hg; cases hg
        · exact refsLoop_deep hl n hn hne g hg hnum
      | ok gm =>
        rw [hgm] at hr; simp only at hr
        by_cases hnm : gm.type = "number"
        · rw [if_pos hnm] at hr
          cases hd : deep gm with
          | error e => rw [hd] at hr; cases hr
          | ok r =>
            rw [hd] at hr; simp only at hr
            cases hl : refsLoop get deep view ns with
            | error e => rw [hl] at hr; cases hr
            | ok us =>
              rcases List.mem_cons.mp hn with rfl | hn
              · rw [hgm] at hg; cases hg; exact ⟨r, hd⟩
              · exact refsLoop_deep hl n hn hne g hg hnum
        · rw [if_neg hnm] at hr
          cases hl : refsLoop get deep view ns with
          | error e => rw [hl] at hr; cases hr
          | ok us =>
            rcases List.mem_cons.mp hn with rfl | hn
            · rw [hgm] at hg; cases hg; exact absurd hnum hnm
            · exact refsLoop_deep hl n hn hne g hg hnum

theorem refsLoop_append {get : UGet} {deep : UField → Res (Option (List URef))} {view : String} :
    ∀ {ns ms : List String} {rs us : List URef}, refsLoop get deep view ns = .ok rs →
      refsLoop get deep view ms = .ok us → refsLoop get deep view (ns ++ ms) = .ok (rs ++ us)
  | [], ms, rs, us, h, h' => by cases h; exact h'
  | n :: ns, ms, rs, us, h, h' => by
    rw [List.cons_append]
    unfold refsLoop at h ⊢
    by_cases ht : n = "TABLE"
    · rw [if_pos ht] at h ⊢
      exact refsLoop_append h h'
    · rw [if_neg ht] at h ⊢
      cases hg : get view n with
      | error e =>
        rw [hg] at h
        cases hl : refsLoop get deep view ns with
        | error e' => cases e <;> simp [hl] at h
        | ok vs => cases e <;> simp [hl] at h; rw [refsLoop_append hl h', ← h]; rfl
      | ok g =>
        rw [hg] at h; simp only at h ⊢
        by_cases hn : g.type = "number"
        · rw [if_pos hn] at h ⊢
          cases hd : deep g with
          | error e => rw [hd] at h; cases h
          | ok r =>
            rw [hd] at h; simp only at h ⊢
            cases hl : refsLoop get deep view ns with
            | error e => rw [hl] at h; cases h
            | ok vs =>
              rw [hl] at h; simp only at h
              cases h
              rw [refsLoop_append hl h']
              simp
        · rw [if_neg hn] at h ⊢
          cases hl : refsLoop get deep view ns with
          | error e => rw [hl] at h; cases h
          | ok vs =>
            rw [hl] at h; simp only at h
            cases h
            rw [refsLoop_append hl h']
            simp

/-- For an ordinary field the references are found by one loop over the names of its SQL. -/
theorem fieldRefs_loop {get : UGet} {n : ℕ} {f : UField} (hf : Formed f) (hc : f.type ≠ "cumulative")
    {r : Option (List URef)} (h : fieldRefs get (n + 1) f = .ok r) :
    ∃ rs, r = some rs ∧ refsLoop get (fieldRefs get n) f.view (sqlNamesOf f) = .ok rs := by
  unfold fieldRefs at h
  have ht : (f.sql.map (·.template)).getD false = false := by
    cases hs : f.sql with
    | none => rfl
    | some s => exact hf.plain s hs
  rw [if_neg (by rw [ht]; exact Bool.false_ne_true), if_neg hc] at h
  by_cases hd : f.type = "duration" ∧ f.sqlStart.isSome = true ∧ f.sqlEnd.isSome = true
  · rw [if_pos hd] at h
    have hs := hf.duration hd.1
    obtain ⟨s, h1⟩ := Option.isSome_iff_exists.mp hd.2.1
    obtain ⟨t, h2⟩ := Option.isSome_iff_exists.mp hd.2.2
    have e : sqlNamesOf f = s.names ++ t.names := by unfold sqlNamesOf; rw [hs, h1, h2]
    rw [h1, h2] at h
    simp only [namesOf] at h
    cases ha : refsLoop get (fieldRefs get n) f.view s.names with
    | error e => rw [ha] at h; cases h
    | ok us =>
      rw [ha] at h; simp only at h
      cases hb : refsLoop get (fieldRefs get n) f.view t.names with
      | error e => rw [hb] at h; cases h
      | ok vs =>
        rw [hb] at h; simp only at h
        cases h
        exact ⟨_, rfl, by rw [e]; exact refsLoop_append ha hb⟩
  · rw [if_neg hd] at h
    have e : sqlNamesOf f = namesOf f.sql := by
      unfold sqlNamesOf
      cases hs : f.sql with
      | some s => rfl
      | none =>
        cases h1 : f.sqlStart with
        | none => rfl
        | some s =>
          cases h2 : f.sqlEnd with
          | none => rfl
          | some t =>
            by_cases hdu : f.type = "duration"
            · exact absurd ⟨hdu, by rw [h1]; rfl, by rw [h2]; rfl⟩ hd
            · rcases hf.other hdu with h | h
              · rw [h1] at h; cases h
              · rw [h2] at h; cases h
    rw [e]
    cases ha : refsLoop get (fieldRefs get n) f.view (namesOf f.sql) with
    | error e => rw [ha] at h; cases h
    | ok us => rw [ha] at h; simp only at h; cases h; exact ⟨us, rfl, rfl⟩

theorem number_not_cumulative {f : UField} (h : f.type = "number") : f.type ≠ "cumulative" := by
  rw [h]; decide

/-- The fields found are those the SQL mentions. -/
theorem fieldRefs_mentions {get : UGet} (hget : ∀ v n g, get v n = .ok g → Formed g) :
    ∀ {n : ℕ} {f : UField} {r : Option (List URef)}, Formed f → f.type ≠ "cumulative" →
      fieldRefs get n f = .ok r → ∃ rs, r = some rs ∧ ∀ h, URef.field h ∈ rs ↔ Mentions get f h
  | 0, f, r, _, _, h => by cases h
  | n + 1, f, r, hf, hc, h => by
    obtain ⟨rs, rfl, hl⟩ := fieldRefs_loop hf hc h
    refine ⟨rs, rfl, fun x => ?_⟩
    rw [refsLoop_mem hl x]
    constructor
    · rintro ⟨m, hm, hne, g, hg, ⟨hnum, rfl⟩ | ⟨hnum, l, hd, hx⟩⟩
      · exact .direct ⟨m, hm, hne, hg⟩ hnum
      · obtain ⟨l', e, hmem⟩ := fieldRefs_mentions hget (hget _ _ _ hg) (number_not_cumulative hnum) hd
        cases e
        exact .through ⟨m, hm, hne, hg⟩ hnum ((hmem x).mp hx)
    · intro hm
      cases hm with
      | direct hr hnum =>
        obtain ⟨m, hm, hne, hg⟩ := hr
        exact ⟨m, hm, hne, x, hg, .inl ⟨hnum, rfl⟩⟩
      | through hr hnum hmen =>
        rename_i g
        obtain ⟨m, hm, hne, hg⟩ := hr
        obtain ⟨r', hr'⟩ := refsLoop_deep hl m hm hne g hg hnum
        obtain ⟨l, rfl, hmem⟩ := fieldRefs_mentions hget (hget _ _ _ hg) (number_not_cumulative hnum) hr'
        exact ⟨m, hm, hne, g, hg, .inr ⟨hnum, l, hr', (hmem x).mpr hmen⟩⟩

theorem mentions_needs {get : UGet} {f h : UField} (hm : Mentions get f h) : Needs get f h.view := by
  induction hm with
  | direct hr _ => exact .ref hr (.own _)
  | through hr _ _ ih => exact .ref hr ih

theorem mem_countedViews {f : UField} {rs : List URef} {w : String} :
    w ∈ countedViews f (some rs) ↔ w = f.view ∨ ∃ h, URef.field h ∈ rs ∧ h.view = w := by
  simp only [countedViews, List.mem_cons, List.mem_filterMap]
  refine or_congr_right ?_
  constructor
  · rintro ⟨r, hr, e⟩
    cases r with
    | field g => exact ⟨g, hr, by simpa using e⟩
    | text s => cases e
    | nothing => cases e
  · rintro ⟨g, hg, rfl⟩
    exact ⟨_, hg, rfl⟩

/-- The intersection of the graph names of some views. -/
theorem mem_baseGraphs {weak : String → List String} {v : String} {vs : List String} {n : String} :
    n ∈ baseGraphs weak (v :: vs) ↔ ∀ w ∈ v :: vs, n ∈ weak w := by
  simp [baseGraphs, List.all_eq_true]

/-- A name is shared by some views exactly when one view of that join graph reaches them all. -/
theorem served_iff {g : Graph} (hw : WF g) {comps : List (List String)} (hs : IsScc g comps) {n v : String} {vs : List String} :
    n ∈ baseGraphs (weakHashes g comps) (v :: vs) ↔ ServedBy g comps n (· ∈ v :: vs) := by
  rw [mem_baseGraphs]
  constructor
  · intro h
    obtain ⟨u, hu, hr⟩ := (C16_usable_iff g hw comps hs v n).mp (h v List.mem_cons_self)
    refine ⟨u, hu, fun w hwm => ?_⟩
    obtain ⟨u', hu', hr'⟩ := (C16_usable_iff g hw comps hs w n).mp (h w hwm)
    have := (C16_same_name_iff g comps hs u u' n n hu hu').mp rfl
    exact this.1.trans hr'
  · rintro ⟨u, hu, hr⟩ w hwm
    exact (C16_usable_iff g hw comps hs w n).mpr ⟨u, hu, hr w hwm⟩

end ML
