import Verif.Seed.Spec
import Mathlib.Data.List.Forall2

/-!
# C68: what seeding makes of a database
-/

set_option autoImplicit false

namespace ML
open Spec

theorem mapM_pairs {A B : Type} {f : A → Res B} : ∀ {l : List A} {m : List B}, l.mapM f = .ok m → List.Forall₂ (fun a b => f a = .ok b) l m := by
  intro l
  induction l with
  | nil => intro m h; cases h; exact .nil
  | cons a l ih =>
    intro m h
    rw [List.mapM_cons] at h
    cases ha : f a with
    | error e => rw [ha] at h; cases h
    | ok b =>
      rw [ha] at h
      cases hl : l.mapM f with
      | error e => rw [hl] at h; cases h
      | ok bs => rw [hl] at h; cases h; exact .cons ha (ih hl)

theorem dictGet_absent {V : Type} (l : List (String × V)) (k : String) (h : k ∉ l.map (·.1)) : dictGet l k = none := by
  induction l with
  | nil => rfl
  | cons x l ih =>
    obtain ⟨a, v⟩ := x
    simp only [List.map_cons, List.mem_cons, not_or] at h
    unfold dictGet
    rw [if_neg (Ne.symm h.1)]
    exact ih h.2

/-- The type a column is given, as the lists of the specification say it. -/
theorem layerType_spec (w : Wh) (hw : w ≠ .unknown) (d : String) :
    layerType w d = .ok ((dictGet (timeTypes w) d).getD (plainType w d)) := by
  have key : ∀ (l : List (String × String)), typesOf w = some l →
      (∀ k ∈ l.map (·.1), (dictGet l k).getD "string" = (dictGet (timeTypes w) k).getD (plainType w k)) →
      (∀ k ∈ (timeTypes w).map (·.1), k ∈ l.map (·.1)) → (∀ k ∈ numberTypes w, k ∈ l.map (·.1)) → yesnoType w ∈ l.map (·.1) →
      layerType w d = .ok ((dictGet (timeTypes w) d).getD (plainType w d)) := by
    intro l h1 h2 h3 h4 h5
    unfold layerType
    rw [h1]
    by_cases hd : d ∈ l.map (·.1)
    · simp only; rw [h2 d hd]
    · simp only
      rw [dictGet_absent l d hd, dictGet_absent (timeTypes w) d (fun h => hd (h3 d h))]
      unfold plainType
      rw [if_neg (fun h => hd (h4 d h)), if_neg (fun h => hd (by rw [h]; exact h5))]

  cases w with
  | unknown => exact absurd rfl hw
  | _ => exact key _ rfl (by decide +kernel) (by decide +kernel) (by decide +kernel) (by decide +kernel)

theorem timeType_values (w : Wh) (d t : String) (h : dictGet (timeTypes w) d = some t) : t = "timestamp" ∨ t = "date" ∨ t = "datetime" := by
  have := dictGet_mem h
  revert this
  have all : ∀ w, ∀ p ∈ timeTypes w, p.2 = "timestamp" ∨ p.2 = "date" ∨ p.2 = "datetime" := by
    intro w
    cases w <;> decide +kernel
  exact fun hm => all w _ hm

theorem plainType_values (w : Wh) (d : String) : plainType w d ≠ "timestamp" ∧ plainType w d ≠ "date" ∧ plainType w d ≠ "datetime" := by
  unfold plainType
  split_ifs <;> decide

theorem columnText_spec (w : Wh) (hw : w ≠ .unknown) (c : String) : columnText w c = columnIn w c := by
  unfold columnText columnIn
  cases w <;> first | exact absurd rfl hw | simp [quotesColumns]

/-- C68. **A field says what there is to say of its column**: its SQL is that column, its type is that of the warehouse's data type, a string when the
type is not known, and a time is a group with nine timeframes. -/
theorem C68_field (w : Wh) (hw : w ≠ .unknown) (r : ColRow) : ∃ f, seedField w r = .ok f ∧ SeededAs w r f ∧ f.searchable = none := by
  unfold seedField
  rw [layerType_spec w hw]
  refine ⟨_, rfl, ?_, ?_⟩
  · have hd : (if hasComments w then r.comment else none) = (if w = .snowflake ∨ w = .databricks then r.comment else none) := by
      cases w <;> simp [hasComments]
    unfold SeededAs
    cases ht : dictGet (timeTypes w) r.dtype with
    | some t =>
      simp only [Option.getD_some]
      rw [if_pos (timeType_values w _ t ht)]
      exact ⟨rfl, by rw [columnText_spec w hw], hd, rfl, rfl, rfl, rfl⟩
    | none =>
      simp only [Option.getD_none]
      obtain ⟨h1, h2, h3⟩ := plainType_values w r.dtype
      rw [if_neg (by simp [h1, h2, h3])]
      exact ⟨rfl, by rw [columnText_spec w hw], hd, rfl, rfl, rfl, rfl⟩
  · simp only
    split_ifs <;> rfl

theorem seededAs_mark (w : Wh) (r : ColRow) (f : SeedField) (x : Option Bool) (h : SeededAs w r f) : SeededAs w r { f with searchable := x } := h

theorem markField_eq (w : Wh) (few : List String) (r : ColRow) (f : SeedField) : ∃ x, markField w few r f = { f with searchable := x } := by
  unfold markField
  split_ifs
  · exact ⟨_, rfl⟩
  · exact ⟨_, rfl⟩
  · exact ⟨f.searchable, rfl⟩

theorem forall₂_zip {A B C : Type} {R : A → B → Prop} {S : A → C → Prop} (g : A × B → C) {l : List A} {m : List B} (h : List.Forall₂ R l m)
    (hg : ∀ a b, R a b → S a (g (a, b))) : List.Forall₂ S l ((l.zip m).map g) := by
  induction h with
  | nil => exact .nil
  | cons hab _ ih => exact .cons (hg _ _ hab) ih

/-- The fields of a table, one for each of its rows, in order. -/
theorem seedFields_spec (s : Seeder) (hw : s.wh ≠ .unknown) (count : String → Res (List (String × Nat))) (auto : Bool) (schema table : String)
    (rows : List ColRow) (fields : List SeedField) (h : seedFields s count auto schema table rows = .ok fields) :
    List.Forall₂ (SeededAs s.wh) rows fields := by
  unfold seedFields at h
  cases hm : rows.mapM (seedField s.wh) with
  | error e => rw [hm] at h; cases h
  | ok fs =>
    rw [hm] at h
    have hp : List.Forall₂ (SeededAs s.wh) rows fs := by
      refine (mapM_pairs hm).imp ?_
      intro r f hf
      obtain ⟨f', h1, h2, _⟩ := C68_field s.wh hw r
      rw [h1] at hf
      cases hf
      exact h2
    change (if _ then _ else _ : Res (List SeedField)) = _ at h
    split_ifs at h with hc
    · cases hq : cardinalityQuery s (seedCandidates s.wh rows) schema table with
      | error e => rw [hq] at h; cases h
      | ok q =>
        rw [hq] at h
        change (count q).map _ = _ at h
        cases hcard : count q with
        | error e => rw [hcard] at h; cases h
        | ok cards =>
          rw [hcard] at h
          cases h
          refine forall₂_zip _ hp ?_
          intro r f hf
          obtain ⟨x, hx⟩ := markField_eq s.wh (fewValues cards) r f
          show SeededAs s.wh r (markField s.wh (fewValues cards) r f)
          rw [hx]
          exact hf
    · cases h
      exact hp

theorem firstDate_spec (fields : List SeedField) :
    FirstDate fields ((fields.find? fun f => f.fieldType = "dimension_group").map (·.name)) := by
  cases h : fields.find? fun f => f.fieldType = "dimension_group" with
  | none =>
    intro f hf he
    have := List.find?_eq_none.mp h f hf
    simp [he] at this
  | some f =>
    obtain ⟨h1, pre, post, h2, h3⟩ := List.find?_eq_some_iff_append.mp h
    refine ⟨pre, f, post, h2, by simpa using h1, rfl, ?_⟩
    intro g hg he
    have := h3 g hg
    simp [he] at this

theorem tableText_spec (s : Seeder) (hw : s.wh ≠ .unknown) (schema table : String) : tableText s schema table = .ok (tableIn s schema table) := by
  unfold tableText tableIn
  cases h : s.wh <;> first | exact absurd h hw | (cases hn : s.notDefault <;> simp [String.append_assoc])

theorem given_some? (o : Option String) : given? o = o.filter (· ≠ "") := rfl

theorem given_all (o : Option String) (x : String) :
    (given? o).all (fun c => sameName x c) = decide (∀ c, o = some c → c ≠ "" → lower x = lower c) := by
  cases o with
  | none => simp [given?]
  | some c =>
    by_cases hc : c = ""
    · simp [given?, hc]
    · simp [given?, Option.filter, hc, sameName]

theorem choice_spec (s : Seeder) (rows : List ColRow) : rows.filter (fun r => seedChosen s r.schema r.table) = inChoice s.schema s.table rows := by
  unfold inChoice
  congr 1
  funext r
  unfold seedChosen
  rw [given_all, given_all, Bool.decide_and]

theorem tabChoice_spec (s : Seeder) (tabs : List TabRow) : tabs.filter (fun r => seedChosen s r.schema r.table) = tabsInChoice s.schema s.table tabs := by
  unfold tabsInChoice
  congr 1
  funext r
  unfold seedChosen
  rw [given_all, given_all, Bool.decide_and]

theorem firstOnes_mem (l : List String) (x : String) : x ∈ firstOnes l ↔ x ∈ l := by
  induction l with
  | nil => simp [firstOnes]
  | cons a l ih =>
    unfold firstOnes
    simp only [List.mem_cons, List.mem_filter, ih]
    by_cases hx : x = a <;> simp [hx]

theorem firstOnes_spec (l : List String) : FirstOf l (firstOnes l) := by
  refine ⟨?_, firstOnes_mem l, ?_⟩
  · induction l with
    | nil => simp [firstOnes]
    | cons a l ih =>
      unfold firstOnes
      rw [List.nodup_cons]
      exact ⟨by simp, ih.filter _⟩
  · induction l with
    | nil => intro x y h; simp [firstOnes] at h
    | cons a l ih =>
      intro x y hx hy
      have hfil : ∀ (u : List String) (x y : String), x ≠ a → y ≠ a → x ∈ u → y ∈ u →
          ((u.filter (· ≠ a)).idxOf x ≤ (u.filter (· ≠ a)).idxOf y ↔ u.idxOf x ≤ u.idxOf y) := by
        intro u
        induction u with
        | nil => intro x y _ _ h; cases h
        | cons b u ihu =>
          intro x y hxa hya hxu hyu
          by_cases hb : b = a
          · subst hb
            rw [List.filter_cons_of_neg (by simp)]
            have hx' : x ∈ u := by
              rcases List.mem_cons.mp hxu with h | h
              · exact absurd h hxa
              · exact h
            have hy' : y ∈ u := by
              rcases List.mem_cons.mp hyu with h | h
              · exact absurd h hya
              · exact h
            rw [ihu x y hxa hya hx' hy', List.idxOf_cons_ne _ (Ne.symm hxa), List.idxOf_cons_ne _ (Ne.symm hya)]
            omega
          · rw [List.filter_cons_of_pos (by simpa using hb)]
            by_cases hxb : x = b
            · subst hxb; simp
            · have hx' : x ∈ u := by
                rcases List.mem_cons.mp hxu with h | h
                · exact absurd h hxb
                · exact h
              by_cases hyb : y = b
              · subst hyb
                rw [List.idxOf_cons_ne _ (Ne.symm hxb), List.idxOf_cons_ne _ (Ne.symm hxb), List.idxOf_cons_self, List.idxOf_cons_self]
                omega
              · have hy' : y ∈ u := by
                  rcases List.mem_cons.mp hyu with h | h
                  · exact absurd h hyb
                  · exact h
                rw [List.idxOf_cons_ne _ (Ne.symm hxb), List.idxOf_cons_ne _ (Ne.symm hxb), List.idxOf_cons_ne _ (Ne.symm hyb),
                  List.idxOf_cons_ne _ (Ne.symm hyb)]
                have := ihu x y hxa hya hx' hy'
                omega
      unfold firstOnes at hx hy ⊢
      by_cases hxa : x = a
      · subst hxa; simp
      · by_cases hya : y = a
        · subst hya
          rw [List.idxOf_cons_ne _ (Ne.symm hxa), List.idxOf_cons_ne _ (Ne.symm hxa), List.idxOf_cons_self, List.idxOf_cons_self]
          omega
        · have hx' : x ∈ firstOnes l := by
            rcases List.mem_cons.mp hx with h | h
            · exact absurd h hxa
            · exact (List.mem_filter.mp h).1
          have hy' : y ∈ firstOnes l := by
            rcases List.mem_cons.mp hy with h | h
            · exact absurd h hya
            · exact (List.mem_filter.mp h).1
          rw [List.idxOf_cons_ne _ (Ne.symm hxa), List.idxOf_cons_ne _ (Ne.symm hxa), List.idxOf_cons_ne _ (Ne.symm hya),
            List.idxOf_cons_ne _ (Ne.symm hya)]
          have h1 := hfil (firstOnes l) x y hxa hya hx' hy'
          have h2 := ih x y hx' hy'
          omega

theorem commentOf_spec (tabs : List TabRow) (t : String) (comment : Option String) (h : commentOf tabs t = .ok comment) :
    DescribedBy tabs t (given? comment) := by
  unfold commentOf at h
  by_cases ht : tabs = []
  · rw [if_pos ht] at h
    cases h
    exact ⟨fun _ => rfl, fun h => absurd ht h⟩
  · rw [if_neg ht] at h
    refine ⟨fun h => absurd h ht, fun _ => ?_⟩
    cases hf : tabs.find? fun x => sameName x.table t with
    | none => rw [hf] at h; cases h
    | some tab =>
      rw [hf] at h
      cases h
      obtain ⟨h1, pre, post, h2, h3⟩ := List.find?_eq_some_iff_append.mp hf
      refine ⟨pre, tab, post, h2, by simpa [sameName] using h1, ?_, ?_⟩
      · intro x hx
        have := h3 x hx
        simpa [sameName] using this
      · intro text
        unfold given?
        rw [Option.filter_eq_some_iff]
        simp

theorem seedTable_spec (s : Seeder) (hw : s.wh ≠ .unknown) (db : SeedDb) (auto : Bool) (model : String) (rows : List ColRow) (tabs : List TabRow)
    (t : String) (v : SeedView) (h : seedTable s db auto model rows tabs t = .ok v) : ViewOf s model rows tabs t v := by
  unfold seedTable at h
  cases hc : commentOf tabs t with
  | error e => rw [hc] at h; cases h
  | ok comment =>
    rw [hc] at h
    have hrows : (rows.filter fun r => sameName r.table t) = columnsOf rows t := rfl
    change (match rows.filter fun r => sameName r.table t with
      | [] => (.error .indexError : Res SeedView)
      | r :: rs => seedView s db.count auto model t r.schema comment (r :: rs)) = _ at h
    rw [hrows] at h
    cases hr : columnsOf rows t with
    | nil => rw [hr] at h; cases h
    | cons r rs =>
      rw [hr] at h
      simp only at h
      unfold seedView at h
      cases hf : seedFields s db.count auto r.schema t (r :: rs) with
      | error e => rw [hf] at h; cases h
      | ok fields =>
        rw [hf] at h
        change (tableText s r.schema t).map _ = _ at h
        rw [tableText_spec s hw] at h
        cases h
        refine ⟨rfl, rfl, ?_, firstDate_spec fields, commentOf_spec tabs t comment hc, r, rs, hr, rfl⟩
        rw [hr]
        exact seedFields_spec s hw db.count auto r.schema t (r :: rs) fields hf

theorem tabs_asked (s : Seeder) (db : SeedDb) (tabs : List TabRow)
    (h : (if hasComments s.wh then (tableQuery s).bind db.tables else .ok []) = Except.ok tabs) :
    if s.wh = .snowflake ∨ s.wh = .databricks then ∃ tq, tableQuery s = .ok tq ∧ db.tables tq = .ok tabs else tabs = [] := by
  have hh : hasComments s.wh = true ↔ (s.wh = .snowflake ∨ s.wh = .databricks) := by cases s.wh <;> simp [hasComments]
  by_cases hc : s.wh = .snowflake ∨ s.wh = .databricks
  · rw [if_pos hc]
    rw [if_pos (hh.mpr hc)] at h
    cases hq : tableQuery s with
    | error e => rw [hq] at h; cases h
    | ok tq => rw [hq] at h; exact ⟨tq, rfl, h⟩
  · rw [if_neg hc]
    rw [if_neg (fun x => hc (hh.mp x))] at h
    cases h
    rfl

/-- C68. **Seeding.** What is made of the columns the warehouse returns is one view for each table of the chosen schema, in the order in which they
first come, with one field for each column, in order. -/
theorem C68_seed (s : Seeder) (db : SeedDb) (auto : Bool) (models : List (String × Option String)) (ms : List (String × String))
    (views : List SeedView) (h : seed s db auto models = .ok (ms, views)) :
    ∃ q rows tabs model tables, columnsQuery s = .ok q ∧ db.columns q = .ok rows ∧ modelNameFor s.connName models = .ok model ∧
      (if s.wh = .snowflake ∨ s.wh = .databricks then ∃ tq, tableQuery s = .ok tq ∧ db.tables tq = .ok tabs else tabs = []) ∧
      FirstOf ((inChoice s.schema s.table rows).map (·.table)) tables ∧
      List.Forall₂ (ViewOf s model (inChoice s.schema s.table rows) (tabsInChoice s.schema s.table tabs)) tables views ∧
      ms = if models = [] then [("base_model", s.connName)] else [] := by
  unfold seed at h
  by_cases hw : s.wh = .unknown
  · rw [if_pos hw] at h; cases h
  rw [if_neg hw] at h
  cases hq : columnsQuery s with
  | error e => rw [hq] at h; cases h
  | ok q =>
    rw [hq] at h
    change (db.columns q).bind _ = _ at h
    cases hr : db.columns q with
    | error e => rw [hr] at h; cases h
    | ok rows =>
      rw [hr] at h
      change (if hasComments s.wh then (tableQuery s).bind db.tables else .ok []).bind _ = _ at h
      cases ht : (if hasComments s.wh then (tableQuery s).bind db.tables else .ok []) with
      | error e => rw [ht] at h; cases h
      | ok tabs =>
        rw [ht] at h
        change (modelNameFor s.connName models).bind _ = _ at h
        cases hm : modelNameFor s.connName models with
        | error e => rw [hm] at h; cases h
        | ok model =>
          rw [hm] at h
          change Except.map _ (List.mapM (seedTable s db auto model (rows.filter fun r => seedChosen s r.schema r.table) (tabs.filter fun t => seedChosen s t.schema t.table))
            (firstOnes ((rows.filter fun r => seedChosen s r.schema r.table).map (·.table)))) = _ at h
          rw [choice_spec, tabChoice_spec] at h
          cases hv : List.mapM (seedTable s db auto model (inChoice s.schema s.table rows) (tabsInChoice s.schema s.table tabs))
              (firstOnes ((inChoice s.schema s.table rows).map (·.table))) with
          | error e => rw [hv] at h; cases h
          | ok vs =>
            rw [hv] at h
            cases h
            refine ⟨q, rows, tabs, model, _, rfl, hr, rfl, tabs_asked s db tabs ht, firstOnes_spec _, ?_, rfl⟩
            exact (mapM_pairs hv).imp fun t v htv => seedTable_spec s hw db auto model _ _ t v htv

end ML
