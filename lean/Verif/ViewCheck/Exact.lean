import Verif.ViewCheck.Loop
import Verif.FieldCheck.Props
/-
Helper lemmas for C63: the fields of a view, and all checks together.
-/
set_option autoImplicit false
namespace ML
open Spec

theorem marks_iff {f : FDef} {p : FieldProblem} {w : ℕ} :
    Marks f p w ↔ w = (if p.isWarning then 1 else 0) + (if truthyOpt (dictGet f "is_personal_field") then 1 else 0) := by
  have h1 : (p = .caseDeprecated ∨ p = .noDate) ↔ p.isWarning = true := by
    cases p <;> simp [FieldProblem.isWarning]
  unfold Marks
  rw [h1, ← truthyOpt_iff]
  by_cases a : p.isWarning = true <;> by_cases b : truthyOpt (dictGet f "is_personal_field") = true <;> simp [a, b]

theorem collect_mem {env : CheckEnv} {f : FDef} {name : String} (hn : Given f "name" (.str name)) {rs : List FieldReport}
    (h : collectErrors env f = .ok rs) (r : FieldReport) :
    r ∈ rs ↔ HasProblem env name ((textAt f "field_type").getD "") f r.problem ∧ Marks f r.problem r.warnings := by
  have hex := C62_exact env f name hn rs h r.problem
  rw [← hex, marks_iff]
  unfold collectErrors at h
  cases hf : fieldProblems env f with
  | error e => rw [hf] at h; cases h
  | ok ps =>
    rw [hf] at h; cases h
    constructor
    · intro hr
      refine ⟨⟨r, hr, rfl⟩, ?_⟩
      obtain ⟨p, -, rfl⟩ := List.mem_map.mp hr
      rfl
    · rintro ⟨⟨r', hr', he⟩, hw⟩
      obtain ⟨p, hp, rfl⟩ := List.mem_map.mp hr'
      simp only at he
      subst he
      refine List.mem_map.mpr ⟨_, hp, ?_⟩
      rw [← hw]

theorem fieldReports_says {env : ViewEnv} {view : String} {d f : FDef} (hok : ∃ ps, fieldReports env view d f = .ok ps) {p : ViewProblem} :
    Says (fieldReports env view d f) p ↔ ∃ n q w, Given f "name" (.str n) ∧
      HasProblem (fieldEnv env view d) n ((textAt f "field_type").getD "") f q ∧ Marks f q w ∧ p = .field n ⟨w, q⟩ := by
  unfold fieldReports at *
  rw [tagged_ok] at hok
  obtain ⟨rs, hrs⟩ := hok
  rw [tagged_says]
  have hn : GivesText f "name" := by
    by_contra hc
    obtain ⟨e, he⟩ := C62_raises_name (fieldEnv env view d) f hc
    rw [hrs] at he; cases he
  obtain ⟨n, hn⟩ := hn
  have htx : (textAt f "name").getD "" = n := by rw [(textAt_iff _ _ _).mpr hn]; rfl
  rw [hrs, htx]
  simp only [says_ok, collect_mem hn hrs]
  constructor
  · rintro ⟨⟨w, q⟩, ⟨h1, h2⟩, rfl⟩; exact ⟨n, q, w, hn, h1, h2, rfl⟩
  · rintro ⟨m, q, w, hm, h1, h2, rfl⟩
    have := given_unique hm hn
    cases this
    exact ⟨⟨w, q⟩, ⟨h1, h2⟩, rfl⟩

theorem fieldReports_fails {env : ViewEnv} {view : String} {d f : FDef} :
    Fails (fieldReports env view d f) ↔ ∃ e, collectErrors (fieldEnv env view d) f = .error e := by
  unfold fieldReports
  rw [tagged_fails]; rfl

theorem distinct_two {l : List String} : l.dedup.length > 1 ↔ ∃ a ∈ l, ∃ b ∈ l, a ≠ b := by
  constructor
  · intro h
    have hnd := l.nodup_dedup
    match hd : l.dedup, h with
    | a :: b :: r, _ =>
      rw [hd] at hnd
      have ha : a ∈ l := List.mem_dedup.mp (by rw [hd]; simp)
      have hb : b ∈ l := List.mem_dedup.mp (by rw [hd]; simp)
      simp only [List.nodup_cons, List.mem_cons, not_or] at hnd
      exact ⟨a, ha, b, hb, hnd.1.1⟩
  · rintro ⟨a, ha, b, hb, hab⟩
    by_contra hc
    rw [← List.mem_dedup] at ha hb
    match hd : l.dedup, hc with
    | [], _ => rw [hd] at ha; simp at ha
    | [x], _ => rw [hd] at ha hb; simp at ha hb; exact hab (ha.trans hb.symm)
    | _ :: _ :: _, hc => exact hc (by simp)

theorem keyNames_mem {fs : List FDef} {n : String} : n ∈ (keyNames fs).filterMap Yaml.text? ↔ ∃ f ∈ fs, KeyField f n := by
  unfold keyNames KeyField
  simp only [List.mem_filterMap, List.mem_map, List.mem_filter, Bool.and_eq_true, truthyOpt_iff, decide_eq_true_eq]
  have tx : ∀ {v : Yaml}, v.text? = some n ↔ v = .str n := by intro v; cases v <;> simp [Yaml.text?]
  constructor
  · rintro ⟨v, ⟨f, ⟨hf, hk, hm⟩, rfl⟩, ht⟩
    refine ⟨f, hf, hk, fun hc => hm ((textAt_iff _ _ _).mpr hc), ?_⟩
    rw [tx] at ht
    unfold nameOf at ht
    cases h : dictGet f "name" with
    | none => rw [h] at ht; cases ht
    | some v => rw [h] at ht; simp only [Option.getD_some] at ht; subst ht; exact h
  · rintro ⟨f, hf, hk, hm, hn⟩
    exact ⟨nameOf f, ⟨f, ⟨hf, hk, fun hc => hm ((textAt_iff _ _ _).mp hc)⟩, rfl⟩, by rw [tx, nameOf_given hn]⟩

theorem manyKeys_iff {fs : List FDef} {p : ViewProblem} :
    p ∈ (if ((keyNames fs).filterMap Yaml.text?).dedup.length > 1 then [.manyKeys] else [] : List ViewProblem) ↔
      p = .manyKeys ∧ ∃ f ∈ fs, ∃ g ∈ fs, ∃ n m, KeyField f n ∧ KeyField g m ∧ n ≠ m := by
  have key : ((keyNames fs).filterMap Yaml.text?).dedup.length > 1 ↔ ∃ f ∈ fs, ∃ g ∈ fs, ∃ n m, KeyField f n ∧ KeyField g m ∧ n ≠ m := by
    rw [distinct_two]
    simp only [keyNames_mem]
    constructor
    · rintro ⟨a, ⟨f, hf, ha⟩, b, ⟨g, hg, hb⟩, hab⟩; exact ⟨f, hf, g, hg, a, b, ha, hb, hab⟩
    · rintro ⟨f, hf, g, hg, a, b, ha, hb, hab⟩; exact ⟨a, ⟨f, hf, ha⟩, b, ⟨g, hg, hb⟩, hab⟩
  rw [← key]
  split
  · rename_i h; simp [h]
  · rename_i h; simp [h]

theorem twice_iff {α : Type} {h : α → Option String} : ∀ {l : List α},
    ¬ (l.filterMap h).Nodup ↔ ∃ a f b g c n, l = a ++ f :: b ++ g :: c ∧ h f = some n ∧ h g = some n
  | [] => by simp
  | x :: l => by
    have ih := twice_iff (h := h) (l := l)
    rw [List.filterMap_cons]
    have back : (∃ a f b g c n, l = a ++ f :: b ++ g :: c ∧ h f = some n ∧ h g = some n) →
        ∃ a f b g c n, x :: l = a ++ f :: b ++ g :: c ∧ h f = some n ∧ h g = some n := by
      rintro ⟨a, f, b, g, c, n, rfl, h1, h2⟩
      exact ⟨x :: a, f, b, g, c, n, rfl, h1, h2⟩
    cases hx : h x with
    | none =>
      simp only
      rw [ih]
      refine ⟨back, ?_⟩
      rintro ⟨a, f, b, g, c, n, he, h1, h2⟩
      cases a with
      | nil =>
        simp only [List.nil_append, List.cons_append, List.cons.injEq] at he
        rw [← he.1, hx] at h1; cases h1
      | cons y a =>
        simp only [List.cons_append, List.cons.injEq] at he
        exact ⟨a, f, b, g, c, n, he.2, h1, h2⟩
    | some n =>
      simp only
      rw [List.nodup_cons, not_and_or, ih, not_not]
      constructor
      · rintro (hm | hr)
        · obtain ⟨g, hg, hn⟩ := List.mem_filterMap.mp hm
          obtain ⟨b, c, rfl⟩ := List.append_of_mem hg
          exact ⟨[], x, b, g, c, n, rfl, hx, hn⟩
        · exact back hr
      · rintro ⟨a, f, b, g, c, m, he, h1, h2⟩
        cases a with
        | nil =>
          simp only [List.nil_append, List.cons_append, List.cons.injEq] at he
          obtain ⟨rfl, rfl⟩ := he
          rw [hx] at h1; cases h1
          exact .inl (List.mem_filterMap.mpr ⟨g, by simp, h2⟩)
        | cons y a =>
          simp only [List.cons_append, List.cons.injEq] at he
          exact .inr ⟨a, f, b, g, c, m, he.2, h1, h2⟩

theorem duplicate_iff {fs : List FDef} {p : ViewProblem} :
    p ∈ (if (fs.filterMap (textAt · "name")).Nodup then [] else [.duplicateFields] : List ViewProblem) ↔
      p = .duplicateFields ∧ ∃ a f b g c n, fs = a ++ f :: b ++ g :: c ∧ Given f "name" (.str n) ∧ Given g "name" (.str n) := by
  have key := twice_iff (h := (textAt · "name")) (l := fs)
  simp only [textAt_iff] at key
  rw [← key]
  split
  · rename_i h; simp [h]
  · rename_i h; simp [h]

theorem fields_says {env : ViewEnv} {view : String} {d : FDef} {fs : List FDef} (hok : ∀ c ∈ fieldsChecks env view d fs, ∃ ps, c = .ok ps)
    {p : ViewProblem} : (∃ c ∈ fieldsChecks env view d fs, Says c p) ↔
      (∃ f ∈ fs, ∃ n q w, Given f "name" (.str n) ∧ HasProblem (fieldEnv env view d) n ((textAt f "field_type").getD "") f q ∧
        Marks f q w ∧ p = .field n ⟨w, q⟩) ∨
      (p = .manyKeys ∧ ∃ f ∈ fs, ∃ g ∈ fs, ∃ n m, KeyField f n ∧ KeyField g m ∧ n ≠ m) ∨
      (p = .duplicateFields ∧ ∃ a f b g c n, fs = a ++ f :: b ++ g :: c ∧ Given f "name" (.str n) ∧ Given g "name" (.str n)) := by
  unfold fieldsChecks at *
  rw [show (∃ c ∈ fs.map (fieldReports env view d) ++
      [.ok (if ((keyNames fs).filterMap Yaml.text?).dedup.length > 1 then [.manyKeys] else []),
       .ok (if (fs.filterMap (textAt · "name")).Nodup then [] else [.duplicateFields])], Says c p) ↔
      (∃ f ∈ fs, Says (fieldReports env view d f) p) ∨
      p ∈ (if ((keyNames fs).filterMap Yaml.text?).dedup.length > 1 then [.manyKeys] else [] : List ViewProblem) ∨
      p ∈ (if (fs.filterMap (textAt · "name")).Nodup then [] else [.duplicateFields] : List ViewProblem) by
    simp only [List.mem_append, or_and_right, exists_or, List.mem_map, List.mem_cons, List.not_mem_nil, or_false, exists_eq_left, says_ok]
    refine or_congr ?_ Iff.rfl
    constructor
    · rintro ⟨c, ⟨f, hf, rfl⟩, h⟩; exact ⟨f, hf, h⟩
    · rintro ⟨f, hf, h⟩; exact ⟨_, ⟨f, hf, rfl⟩, h⟩]
  rw [manyKeys_iff, duplicate_iff]
  refine or_congr ?_ Iff.rfl
  refine exists_congr fun f => and_congr_right fun hf => ?_
  exact fieldReports_says (hok _ (List.mem_append_left _ (List.mem_map.mpr ⟨f, hf, rfl⟩)))

theorem fields_fails {env : ViewEnv} {view : String} {d : FDef} {fs : List FDef} :
    (∃ c ∈ fieldsChecks env view d fs, Fails c) ↔ ∃ f ∈ fs, ∃ e, collectErrors (fieldEnv env view d) f = .error e := by
  unfold fieldsChecks
  simp only [List.mem_append, or_and_right, exists_or, List.mem_map, List.mem_cons, List.not_mem_nil, or_false, exists_eq_left, fails_ok]
  constructor
  · rintro ⟨c, ⟨f, hf, rfl⟩, h⟩; exact ⟨f, hf, fieldReports_fails.mp h⟩
  · rintro ⟨f, hf, h⟩; exact ⟨_, ⟨f, hf, rfl⟩, fieldReports_fails.mpr h⟩

theorem formedOf {d : FDef} {ids : List FDef} (h : IdentifiersAre d ids) {i : FDef} (hi : i ∈ ids) : FormedId i := by
  rcases h with ⟨-, rfl⟩ | ⟨-, h⟩
  · simp at hi
  · exact h i hi

/-! ### All checks -/

theorem noKey_iff {fs : List FDef} {p : ViewProblem} :
    p ∈ (if fs.any (fun f => truthyOpt (dictGet f "primary_key")) then [] else [.noPrimaryKey] : List ViewProblem) ↔
      p = .noPrimaryKey ∧ ∀ f ∈ fs, ¬ IsSet f "primary_key" := by
  simp only [← truthyOpt_iff]
  by_cases h : fs.any (fun f => truthyOpt (dictGet f "primary_key")) = true
  · rw [if_pos h]
    simp only [List.any_eq_true] at h
    obtain ⟨f, hf, ht⟩ := h
    simp only [List.not_mem_nil, false_iff]
    rintro ⟨-, h⟩; exact h f hf ht
  · rw [if_neg h]
    simp only [List.any_eq_true, not_exists, not_and] at h
    simp only [List.mem_singleton]
    exact ⟨fun hp => ⟨hp, h⟩, fun hp => hp.1⟩

theorem name_mem {name : String} {p : ViewProblem} :
    p ∈ (if validName name then [] else [.badName] : List ViewProblem) ↔ p = .badName ∧ ¬ ProperName name := by
  rw [← properName_iff]
  cases h : validName name <;> simp

/-- All checks but those on the table, the fields and the identifiers. -/
theorem viewChecks_iff {P : Res (List ViewProblem) → Prop} {env : ViewEnv} {view : String} {d : FDef} {fs : List FDef} :
    (∃ c ∈ .ok (if validName view then [] else [.badName]) :: viewChecks env view d fs, P c) ↔
      P (.ok (if validName view then [] else [.badName])) ∨ P (.ok (viewPlain d)) ∨ (∃ c ∈ tableChecks env d, P c) ∨
      P (.ok (derivedChecks d)) ∨ P (defaultDateChecks env view d) ∨ P (.ok (wants d "row_label" Yaml.isStr (.wrongKind "row_label"))) ∨
      P (.ok (wants d "extra" Yaml.isDict (.wrongKind "extra"))) ∨ P (setsChecks env view d) ∨ P (alwaysChecks env view d) ∨
      P (.ok (if fs.any (fun f => truthyOpt (dictGet f "primary_key")) then [] else [.noPrimaryKey])) ∨ P (accessFilterChecks env d) ∨
      P (.ok ((grantChecks env.base d).map .grant)) ∨ P (eventChecks env view d) ∨
      P (.ok (wants d "event_name" Yaml.isStr (.wrongKind "event_name"))) ∨
      P (.ok (wants d "fields_for_analysis" Yaml.isList (.wrongKind "fields_for_analysis"))) ∨ P (identifiersChecks env view d) ∨
      (∃ c ∈ fieldsChecks env view d fs, P c) ∨
      P (.ok (unknownKeys (viewKeys ++ ["model", "field_prefix", "_file_path"]) .unknownKey d)) := by
  unfold viewChecks
  simp only [List.mem_cons, List.mem_append, List.not_mem_nil, or_false, or_and_right, exists_or, exists_eq_left, or_assoc]

theorem viewChecks_says {env : ViewEnv} {view : String} {d : FDef} {fs : List FDef}
    (hok : ∃ ps, seqChecks (.ok (if validName view then [] else [.badName]) :: viewChecks env view d fs) = .ok ps) {p : ViewProblem} :
    Says (seqChecks (.ok (if validName view then [] else [.badName]) :: viewChecks env view d fs)) p ↔ ViewHas env view d fs p := by
  have nof : ¬ ∃ c ∈ .ok (if validName view then [] else [.badName]) :: viewChecks env view d fs, Fails c := by
    rw [← fails_seq, not_fails]; exact hok
  rw [viewChecks_iff] at nof
  simp only [not_or, not_exists, not_and] at nof
  obtain ⟨-, -, ntable, -, ndate, -, -, nsets, nalways, -, naccess, -, nevent, -, -, nids, nfields, -⟩ := nof
  rw [says_seq hok, viewChecks_iff (P := fun c => Says c p)]
  simp only [says_ok, name_mem, viewPlain_mem, derivedChecks_mem, wants_kind isStr_iff, wants_kind isDict_iff, wants_kind isList_iff,
    noKey_iff, unknownKeys_mem, List.mem_map, grantChecks_mem]
  rw [tableChecks_says (fun c hc => not_fails.mp (ntable c hc)), defaultDate_says (not_fails.mp ndate), setsChecks_says (not_fails.mp nsets),
    alwaysChecks_says (not_fails.mp nalways), accessFilters_says (not_fails.mp naccess), eventChecks_says,
    identifiers_says (not_fails.mp nids), fields_says (fun c hc => not_fails.mp (nfields c hc))]
  constructor
  · rintro (⟨rfl, h⟩ | (⟨rfl, h⟩ | ⟨rfl, h⟩ | ⟨rfl, s, h, h'⟩ | ⟨rfl, h⟩) | (⟨rfl, h, h'⟩ | ⟨rfl, h, h'⟩ | ⟨rfl, h⟩) |
      (⟨rfl, h⟩ | ⟨rfl, q, h, h'⟩ | ⟨rfl, q, h, h'⟩) |
      (⟨rfl, h⟩ | ⟨n, ⟨s, h1, h2, h3⟩, ⟨rfl, h4⟩ | ⟨g, hg, ⟨rfl, h4⟩ | ⟨rfl, vs, h4, h5, h6⟩ | ⟨rfl, h4⟩⟩⟩) |
      ⟨rfl, h⟩ | ⟨rfl, h⟩ | (⟨rfl, h⟩ | ⟨rfl, h⟩ | ⟨l, s, q, h1, h2, h3, rfl⟩) | (⟨rfl, h⟩ | ⟨rfl, h⟩ | ⟨l, s, q, h1, h2, h3, rfl⟩) |
      ⟨rfl, h⟩ | (⟨rfl, h⟩ | ⟨rfl, h⟩ | ⟨l, f, h1, h2, h3⟩) |
      ⟨a, (⟨rfl, h⟩ | ⟨rfl, h⟩ | ⟨l, g, h1, h2, h3, rfl⟩), rfl⟩ | (⟨rfl, h⟩ | ⟨rfl, n, h1, h2⟩) | ⟨rfl, h⟩ | ⟨rfl, h⟩ |
      (⟨rfl, h⟩ | ⟨ids, hi, ⟨rfl, i, h1, h2⟩ | ⟨before, i, after, hr, ⟨q, h1, rfl⟩ | ⟨rfl, j, h1, h2⟩ | ⟨l, q, h1, h2, h3, rfl⟩⟩⟩) |
      (⟨f, hf, n, q, w, h1, h2, h3, rfl⟩ | ⟨rfl, f, hf, g, hg, n, m, h1, h2, h3⟩ | ⟨rfl, a, f, b, g, c, n, h1, h2, h3⟩) |
      ⟨k, h1, h2, rfl⟩)
    · exact .name h
    · exact .text (by decide) h
    · exact .text (by decide) h
    · exact .long h h'
    · exact .hidden h
    · exact .both h h'
    · exact .noTable h h'
    · exact .text (by decide) h
    · exact .dict (by decide) h
    · exact .derivedNoSql h h'
    · exact .derivedSql h h'
    · exact .text (by decide) h
    · exact .dateUnknown h1 h2 h3 h4
    · exact .dateNotTime h1 h2 h3 hg h4
    · exact .dateNotJoinable h1 h2 h3 hg h4 h5 h6
    · exact .dateNoGraph h1 h2 h3 hg h4
    · exact .text (by decide) h
    · exact .dict (by decide) h
    · exact .list (by decide) h
    · exact .setItem h
    · exact .set h1 h2 h3
    · exact .list (by decide) h
    · exact .alwaysItem h
    · exact .always h1 h2 h3
    · exact .noPrimaryKey h
    · exact .list (by decide) h
    · exact .accessItem h
    · exact .access h1 h2 h3
    · exact .grantKind h
    · exact .grantItem h
    · exact .grant h1 h2 h3
    · exact .text (by decide) h
    · exact .event h1 h2
    · exact .text (by decide) h
    · exact .list (by decide) h
    · exact .identifiers h
    · exact .ambiguous hi h1 h2
    · have hf := formedOf hi (reached_ambiguous hr)
      exact .identifier hi hr (given_nameOf hf.name) (shown_iff.mpr rfl) h1
    · have hf := formedOf hi (reached_ambiguous hr)
      have hj := formedOf hi (i := j) (by rw [hr.1]; simp [h1])
      exact .duplicate hi hr h1 (given_nameOf hj.name) (given_nameOf hf.name) h2 (shown_iff.mpr rfl)
    · have hf := formedOf hi (reached_ambiguous hr)
      obtain ⟨l', hl', hq⟩ := hf.parts _ h1
      cases hl'
      obtain ⟨q', hq', hn⟩ := hq _ h2
      cases hq'
      exact .part hi hr h1 h2 (given_nameOf hn) (fun j hj u hu => by rw [← nameOf_given hu]; exact h3 j hj) (given_nameOf hf.name)
        (shown_iff.mpr rfl) (shown_iff.mpr rfl)
    · exact .field hf h1 h2 h3
    · exact .manyKeys hf hg h1 h2 h3
    · exact .duplicateFields h1 h2 h3
    · exact .key h1 (by simpa [viewKeys] using h2)
  · intro h
    cases h with
    | name h => exact .inl (⟨rfl, h⟩)
    | hidden h => exact .inr (.inl (.inr (.inr (.inr (⟨rfl, h⟩)))))
    | long h h' => exact .inr (.inl (.inr (.inr (.inl (⟨rfl, _, h, h'⟩)))))
    | both h h' => exact .inr (.inr (.inl (.inl (⟨rfl, h, h'⟩))))
    | noTable h h' => exact .inr (.inr (.inl (.inr (.inl (⟨rfl, h, h'⟩)))))
    | derivedNoSql h h' => exact .inr (.inr (.inr (.inl (.inr (.inl (⟨rfl, _, h, h'⟩))))))
    | derivedSql h h' => exact .inr (.inr (.inr (.inl (.inr (.inr (⟨rfl, _, h, h'⟩))))))
    | dateUnknown h1 h2 h3 h4 => exact .inr (.inr (.inr (.inr (.inl (.inr ⟨_, ⟨_, h1, h2, h3⟩, .inl ⟨rfl, h4⟩⟩)))))
    | dateNotTime h1 h2 h3 hg h4 => exact .inr (.inr (.inr (.inr (.inl (.inr ⟨_, ⟨_, h1, h2, h3⟩, .inr ⟨_, hg, .inl ⟨rfl, h4⟩⟩⟩)))))
    | dateNotJoinable h1 h2 h3 hg h4 h5 h6 => exact .inr (.inr (.inr (.inr (.inl (.inr ⟨_, ⟨_, h1, h2, h3⟩, .inr ⟨_, hg, .inr (.inl ⟨rfl, _, h4, h5, h6⟩)⟩⟩)))))
    | dateNoGraph h1 h2 h3 hg h4 => exact .inr (.inr (.inr (.inr (.inl (.inr ⟨_, ⟨_, h1, h2, h3⟩, .inr ⟨_, hg, .inr (.inr ⟨rfl, h4⟩)⟩⟩)))))
    | setItem h => exact .inr (.inr (.inr (.inr (.inr (.inr (.inr (.inl (.inr (.inl (⟨rfl, h⟩))))))))))
    | set h1 h2 h3 => exact .inr (.inr (.inr (.inr (.inr (.inr (.inr (.inl (.inr (.inr (⟨_, _, _, h1, h2, h3, rfl⟩))))))))))
    | alwaysItem h => exact .inr (.inr (.inr (.inr (.inr (.inr (.inr (.inr (.inl (.inr (.inl (⟨rfl, h⟩)))))))))))
    | always h1 h2 h3 => exact .inr (.inr (.inr (.inr (.inr (.inr (.inr (.inr (.inl (.inr (.inr (⟨_, _, _, h1, h2, h3, rfl⟩)))))))))))
    | noPrimaryKey h => exact .inr (.inr (.inr (.inr (.inr (.inr (.inr (.inr (.inr (.inl (⟨rfl, h⟩))))))))))
    | accessItem h => exact .inr (.inr (.inr (.inr (.inr (.inr (.inr (.inr (.inr (.inr (.inl (.inr (.inl (⟨rfl, h⟩)))))))))))))
    | access h1 h2 h3 => exact .inr (.inr (.inr (.inr (.inr (.inr (.inr (.inr (.inr (.inr (.inl (.inr (.inr (⟨_, _, h1, h2, h3⟩)))))))))))))
    | grantKind h => exact .inr (.inr (.inr (.inr (.inr (.inr (.inr (.inr (.inr (.inr (.inr (.inl (⟨_, .inl ⟨rfl, h⟩, rfl⟩))))))))))))
    | grantItem h => exact .inr (.inr (.inr (.inr (.inr (.inr (.inr (.inr (.inr (.inr (.inr (.inl (⟨_, .inr (.inl ⟨rfl, h⟩), rfl⟩))))))))))))
    | grant h1 h2 h3 => exact .inr (.inr (.inr (.inr (.inr (.inr (.inr (.inr (.inr (.inr (.inr (.inl (⟨_, .inr (.inr ⟨_, _, h1, h2, h3, rfl⟩), rfl⟩))))))))))))
    | event h1 h2 => exact .inr (.inr (.inr (.inr (.inr (.inr (.inr (.inr (.inr (.inr (.inr (.inr (.inl (.inr ⟨rfl, _, h1, h2⟩)))))))))))))
    | identifiers h => exact .inr (.inr (.inr (.inr (.inr (.inr (.inr (.inr (.inr (.inr (.inr (.inr (.inr (.inr (.inr (.inl (.inl ⟨rfl, h⟩))))))))))))))))
    | ambiguous hi h1 h2 => exact .inr (.inr (.inr (.inr (.inr (.inr (.inr (.inr (.inr (.inr (.inr (.inr (.inr (.inr (.inr (.inl (.inr ⟨_, hi, .inl ⟨rfl, _, h1, h2⟩⟩))))))))))))))))
    | field hf h1 h2 h3 => exact .inr (.inr (.inr (.inr (.inr (.inr (.inr (.inr (.inr (.inr (.inr (.inr (.inr (.inr (.inr (.inr (.inl (.inl ⟨_, hf, _, _, _, h1, h2, h3, rfl⟩)))))))))))))))))
    | manyKeys hf hg h1 h2 h3 => exact .inr (.inr (.inr (.inr (.inr (.inr (.inr (.inr (.inr (.inr (.inr (.inr (.inr (.inr (.inr (.inr (.inl (.inr (.inl ⟨rfl, _, hf, _, hg, _, _, h1, h2, h3⟩))))))))))))))))))
    | duplicateFields h1 h2 h3 => exact .inr (.inr (.inr (.inr (.inr (.inr (.inr (.inr (.inr (.inr (.inr (.inr (.inr (.inr (.inr (.inr (.inl (.inr (.inr ⟨rfl, _, _, _, _, _, _, h1, h2, h3⟩))))))))))))))))))
    | key h1 h2 => exact .inr (.inr (.inr (.inr (.inr (.inr (.inr (.inr (.inr (.inr (.inr (.inr (.inr (.inr (.inr (.inr (.inr (⟨_, h1, by simpa [viewKeys] using h2, rfl⟩)))))))))))))))))
    | text hk h =>
      simp only [List.mem_cons, List.not_mem_nil, or_false] at hk
      rcases hk with rfl | rfl | rfl | rfl | rfl | rfl | rfl
      · exact .inr (.inl (.inl (⟨rfl, h⟩)))
      · exact .inr (.inl (.inr (.inl (⟨rfl, h⟩))))
      · exact .inr (.inr (.inr (.inr (.inr (.inl (⟨rfl, h⟩))))))
      · exact .inr (.inr (.inr (.inr (.inr (.inr (.inr (.inr (.inr (.inr (.inr (.inr (.inr (.inl (⟨rfl, h⟩))))))))))))))
      · exact .inr (.inr (.inl (.inr (.inr (⟨rfl, h⟩)))))
      · exact .inr (.inr (.inr (.inr (.inl (.inl ⟨rfl, h⟩)))))
      · exact .inr (.inr (.inr (.inr (.inr (.inr (.inr (.inr (.inr (.inr (.inr (.inr (.inl (.inl ⟨rfl, h⟩)))))))))))))
    | dict hk h =>
      simp only [List.mem_cons, List.not_mem_nil, or_false] at hk
      rcases hk with rfl | rfl
      · exact .inr (.inr (.inr (.inl (.inl ⟨rfl, h⟩))))
      · exact .inr (.inr (.inr (.inr (.inr (.inr (.inl (⟨rfl, h⟩)))))))
    | list hk h =>
      simp only [List.mem_cons, List.not_mem_nil, or_false] at hk
      rcases hk with rfl | rfl | rfl | rfl
      · exact .inr (.inr (.inr (.inr (.inr (.inr (.inr (.inl (.inl ⟨rfl, h⟩))))))))
      · exact .inr (.inr (.inr (.inr (.inr (.inr (.inr (.inr (.inl (.inl ⟨rfl, h⟩)))))))))
      · exact .inr (.inr (.inr (.inr (.inr (.inr (.inr (.inr (.inr (.inr (.inl (.inl ⟨rfl, h⟩)))))))))))
      · exact .inr (.inr (.inr (.inr (.inr (.inr (.inr (.inr (.inr (.inr (.inr (.inr (.inr (.inr (.inl (⟨rfl, h⟩)))))))))))))))
    | identifier hi hr h1 h2 h3 =>
      have e := shown_iff.mp h2
      rw [← nameOf_given h1] at e
      subst e
      exact .inr (.inr (.inr (.inr (.inr (.inr (.inr (.inr (.inr (.inr (.inr (.inr (.inr (.inr (.inr (.inl (.inr ⟨_, hi, .inr ⟨_, _, _, hr, .inl ⟨_, h3, rfl⟩⟩⟩))))))))))))))))
    | duplicate hi hr h1 h2 h3 h4 h5 =>
      have e := shown_iff.mp h5
      rw [← nameOf_given h3] at e h4
      rw [← nameOf_given h2] at h4
      subst e
      exact .inr (.inr (.inr (.inr (.inr (.inr (.inr (.inr (.inr (.inr (.inr (.inr (.inr (.inr (.inr (.inl (.inr ⟨_, hi, .inr ⟨_, _, _, hr, .inr (.inl ⟨rfl, _, h1, h4⟩)⟩⟩))))))))))))))))
    | part hi hr h1 h2 h3 h4 h5 h6 h7 =>
      have e1 := shown_iff.mp h6
      have e2 := shown_iff.mp h7
      rw [← nameOf_given h5] at e1
      rw [← nameOf_given h3] at e2
      subst e1
      subst e2
      refine .inr (.inr (.inr (.inr (.inr (.inr (.inr (.inr (.inr (.inr (.inr (.inr (.inr (.inr (.inr (.inl (.inr ⟨_, hi, .inr ⟨_, _, _, hr, .inr (.inr ⟨_, _, h1, h2, fun j hj => ?_, rfl⟩)⟩⟩))))))))))))))))
      have hj' := given_nameOf (formedOf hi hj).name
      rw [nameOf_given h3]
      exact h4 j hj _ hj'

theorem viewChecks_fails {env : ViewEnv} (hl : ViewLooksUp env) {view : String} {d : FDef} {fs : List FDef} :
    Fails (seqChecks (.ok (if validName view then [] else [.badName]) :: viewChecks env view d fs)) ↔ ViewRaises env view d fs := by
  rw [fails_seq, viewChecks_iff]
  simp only [fails_ok, false_or, or_false]
  rw [tableChecks_fails, setsChecks_fails, alwaysChecks_fails hl, accessFilters_fails hl, eventChecks_fails hl, identifiers_fails hl,
    fields_fails]
  simp only [defaultDate_fails hl, false_or]
  constructor
  · rintro (⟨v, s, e, h1, h2, h3, h4⟩ | ⟨l, s, h1, h2, h3, h4⟩ | ⟨l, f, h1, h2, h3 | ⟨n, h3, h4⟩⟩ | ⟨l, f, h1, h2, h3 | ⟨n, h3, h4⟩⟩ |
      (⟨s, h1, h2, h3⟩ | ⟨n, h1, h2⟩) | ⟨ids, before, i, after, h1, h2, h3⟩ | ⟨f, hf, e, he⟩)
    · exact .table h1 h2 h3 h4
    · exact .setName h1 h2 h3 h4
    · exact .alwaysKind h1 h2 h3
    · exact .always h1 h2 h3 h4
    · exact .accessKind h1 h2 h3
    · exact .access h1 h2 h3 h4
    · exact .noDate h1 h2 h3
    · exact .event h1 h2
    · exact .identifier h1 h2 h3
    · exact .field hf he
  · intro h
    cases h with
    | table h1 h2 h3 h4 => exact .inl ⟨_, _, _, h1, h2, h3, h4⟩
    | setName h1 h2 h3 h4 => exact .inr (.inl ⟨_, _, h1, h2, h3, h4⟩)
    | alwaysKind h1 h2 h3 => exact .inr (.inr (.inl ⟨_, _, h1, h2, .inl h3⟩))
    | always h1 h2 h3 h4 => exact .inr (.inr (.inl ⟨_, _, h1, h2, .inr ⟨_, h3, h4⟩⟩))
    | accessKind h1 h2 h3 => exact .inr (.inr (.inr (.inl ⟨_, _, h1, h2, .inl h3⟩)))
    | access h1 h2 h3 h4 => exact .inr (.inr (.inr (.inl ⟨_, _, h1, h2, .inr ⟨_, h3, h4⟩⟩)))
    | noDate h1 h2 h3 => exact .inr (.inr (.inr (.inr (.inl (.inl ⟨_, h1, h2, h3⟩)))))
    | event h1 h2 => exact .inr (.inr (.inr (.inr (.inl (.inr ⟨_, h1, h2⟩)))))
    | identifier h1 h2 h3 => exact .inr (.inr (.inr (.inr (.inr (.inl ⟨_, _, _, _, h1, h2, h3⟩)))))
    | field hf he => exact .inr (.inr (.inr (.inr (.inr (.inr ⟨_, hf, _, he⟩)))))

end ML
