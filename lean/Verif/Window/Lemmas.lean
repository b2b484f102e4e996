import Verif.Window.Spec
import Verif.Answer.Props
import Verif.FilterStr.PropsText
/-
Helper lemmas for C57.
-/
set_option autoImplicit false
namespace ML
open Spec

section
variable {ρ σ : Type}

/-! ### Filter values -/

theorem stringComparison_plain {num : ToNumeric} {date : Option Window} {s : List Char} {cs : List Comparison}
    (h : stringComparison num date s = .ok cs) : ∀ c ∈ cs, ∀ t, c.value ≠ .literal t := by
  have hm : ∀ {x : Res Comparison}, x.map ([·]) = .ok cs → (∀ c, x = .ok c → ∀ t, c.value ≠ .literal t) → ∀ c ∈ cs, ∀ t, c.value ≠ .literal t := by
    intro x hx hc c hcm
    cases x with
    | error e => cases hx
    | ok y =>
      cases hx
      simp only [List.mem_singleton] at hcm
      exact hc c (by rw [hcm])
  have hnum : ∀ e r c, numericComparison num e r = .ok c → ∀ t, c.value ≠ .literal t := by
    intro e r c hc t
    unfold numericComparison at hc
    split at hc
    · cases hc
    · cases hc; simp
  unfold stringComparison at h
  split at h
  · cases h; simp
  split at h
  · cases h; simp
  split at h
  · cases h; simp
  split at h
  · cases h; simp
  split at h
  · cases h
    intro c hc t
    obtain ⟨b, -, rfl⟩ := List.mem_map.mp hc
    simp
  split at h
  · split at h
    · cases h
    · cases h; simp
  split at h
  · refine hm h fun c hc t => ?_
    unfold listComparison at hc
    split at hc
    · cases hc
    · cases hc; simp
    · split at hc
      · cases hc
      · cases hc
      · cases hc; simp
  split at h
  · exact hm h fun c hc t => hnum _ _ c hc t
  split at h
  · exact hm h fun c hc t => hnum _ _ c hc t
  split at h
  · refine hm h fun c hc t => ?_
    unfold negatedComparison at hc
    split at hc
    · cases hc
    · split at hc
      · cases hc; simp
      split at hc
      · cases hc; simp
      split at hc <;> cases hc <;> simp
  · cases h
    intro c hc t
    simp only [List.mem_singleton] at hc
    subst hc
    unfold plainComparison
    split
    · simp
    split
    · simp
    split <;> simp

theorem filterDict_plain {num : ToNumeric} {now : DateTime} {week : Option String} {v : FVal} {st : WeekState} {cs : List Comparison}
    (h : (filterDict num now week v st).1 = .ok cs) (hv : ∀ s, v ≠ .literal s) : ∀ c ∈ cs, ∀ t, c.value ≠ .literal t := by
  unfold filterDict at h
  split at h
  · cases h; simp
  · simp only at h
    split at h
    · cases h
    · exact stringComparison_plain h
  · exact absurd rfl (hv _)
  · unfold otherComparison at h
    split at h
    · cases h; simp
    · cases h; simp
    · split at h
      · cases h; simp
      split at h
      · cases h; simp
      · cases h
    · exact absurd rfl (hv _)
    · cases h
    · cases h

/-! ### Rows read through a function -/

/-- The engine on rows that are read through a function. -/
def Engine.comap (E : Engine σ) (g : ρ → σ) : Engine ρ := ⟨fun r s => E.value (g r) s, E.hash⟩

theorem scalar_comap (E : Engine σ) (g : ρ → σ) (s : Scalar) (r : ρ) : s.eval E (g r) = s.eval (E.comap g) r := by
  induction s with
  | raw s => rfl
  | adjusted s => rfl
  | hashed s => rfl
  | plus a b iha ihb => unfold Scalar.eval; rw [iha, ihb]
  | keyIfValue a b => rfl

theorem values_comap (E : Engine σ) (g : ρ → σ) (s : Scalar) (G : List ρ) :
    (G.map g).filterMap (s.eval E) = G.filterMap (s.eval (E.comap g)) := by
  rw [List.filterMap_map]
  congr 1
  funext r
  exact scalar_comap E g s r

theorem agg_comap (E : Engine σ) (g : ρ → σ) (G : List ρ) (a : Agg) : a.eval E (G.map g) = a.eval (E.comap g) G := by
  induction a with
  | minus a b iha ihb => unfold Agg.eval; rw [iha, ihb]
  | scaledBack a ih => unfold Agg.eval; rw [ih]
  | nullIfZero a ih => unfold Agg.eval; rw [ih]
  | ratio a b iha ihb => unfold Agg.eval; rw [iha, ihb]
  | _ => unfold Agg.eval; rw [values_comap]

theorem valueOf_comap (E : Engine σ) (g : ρ → σ) (w : Warehouse) (fpk : FunctionalPk) (f : AnsField) (G : List ρ) :
    valueOf E w fpk f (G.map g) = valueOf (E.comap g) w fpk f G := by
  unfold valueOf
  cases f.sql with
  | dimension s => cases G <;> rfl
  | measure m =>
    simp only
    cases aggregateSql m w fpk with
    | error e => rfl
    | ok a => exact agg_comap E g G a

theorem compared_comap {D' : Db σ} {D : Db ρ} {g : ρ → σ} (he : D.engine = D'.engine.comap g) (ht : D.test = D'.test) (P : AnsProject)
    (w : Warehouse) (fpk : FunctionalPk) (fieldOf : Nat → String) (G : List ρ) :
    compared D' P w fpk fieldOf (G.map g) = compared D P w fpk fieldOf G := by
  funext i
  unfold compared
  rw [he, ht]
  simp only [valueOf_comap]

theorem passesWhere_comap {D' : Db σ} {D : Db ρ} {g : ρ → σ} (he : D.engine = D'.engine.comap g) (ht : D.test = D'.test) (P : AnsProject)
    (w : Warehouse) (views : List String) (q : Question) (r : ρ) :
    PassesWhere D' P w views q (g r) ↔ PassesWhere D P w views q r := by
  have := compared_comap he ht P w (P.fpk views) q.fieldOf [r]
  simp only [List.map_cons, List.map_nil] at this
  unfold PassesWhere
  rw [this]

theorem passesHaving_comap {D' : Db σ} {D : Db ρ} {g : ρ → σ} (he : D.engine = D'.engine.comap g) (ht : D.test = D'.test) (P : AnsProject)
    (w : Warehouse) (views : List String) (q : Question) (G : List ρ) :
    PassesHaving D' P w views q (G.map g) ↔ PassesHaving D P w views q G := by
  unfold PassesHaving
  rw [compared_comap he ht]

theorem Spec.IsTable.comap {rows : List ρ} {g : ρ → σ} {pass : σ → Prop} {dims : σ → List Val} {mets : List σ → List Val}
    {passGroup : List σ → Prop} {n : Nat} {lines : List (List Val)} (h : IsTable (rows.map g) pass dims mets passGroup n lines) :
    IsTable rows (fun r => pass (g r)) (fun r => dims (g r)) (fun G => mets (G.map g)) (fun G => passGroup (G.map g)) n lines := by
  have hb : ∀ k G, Behind pass dims (rows.map g) k G → ∃ G', G = G'.map g ∧ Behind (fun r => pass (g r)) (fun r => dims (g r)) rows k G' := by
    rintro k G ⟨p, hp, rfl⟩
    exact ⟨rows.filter (p ∘ g), by rw [List.filter_map], p ∘ g, fun r hr => hp (g r) (List.mem_map.mpr ⟨r, hr, rfl⟩), rfl⟩
  constructor
  · intro l hl
    obtain ⟨k, G, h1, h2, h3, h4, h5⟩ := h.sound l hl
    obtain ⟨G', rfl, h6⟩ := hb k G h3
    exact ⟨k, G', h1, by rintro rfl; exact h2 rfl, h6, h4, h5⟩
  · intro r hr hpass
    obtain ⟨G, h1, h2⟩ := h.complete (g r) (List.mem_map.mpr ⟨r, hr, rfl⟩) hpass
    obtain ⟨G', rfl, h3⟩ := hb _ G h1
    exact ⟨G', h3, h2⟩
  · exact h.once

/-! ### The subquery -/

theorem dimText_ok {f : AnsField} {s : String} : dimText f = .ok s ↔ f.sql = .dimension s := by
  unfold dimText
  cases f.sql <;> simp

theorem onPairs_ok {fs : List AnsField} {ps : List (String × String)} (h : onPairs fs = .ok ps) :
    List.Forall₂ (fun f p => f.sql = .dimension p.1 ∧ p.2 = f.label) fs ps := by
  induction fs generalizing ps with
  | nil => cases h; exact .nil
  | cons f fs ih =>
    rw [onPairs] at h
    cases hs : dimText f with
    | error e => rw [hs] at h; cases h
    | ok t =>
      rw [hs] at h
      simp only at h
      cases hr : onPairs fs with
      | error e => rw [hr] at h; cases h
      | ok qs =>
        rw [hr] at h
        cases h
        exact .cons ⟨dimText_ok.mp hs, rfl⟩ (ih hr)

/-- The parts of a joined subquery. -/
theorem buildWinJoin_ok {W : WinProject} {w : Warehouse} {q : Question} {m : WinMeasure} {j : WinJoin} (h : buildWinJoin W w q m = .ok j) :
    ∃ gs date sql ws, Names W.project (winGroups W q m.win) gs ∧ W.get m.win.name = .ok date ∧ date.sql = .dimension sql ∧
      Names W.project q.whereNames ws ∧
      buildBlock (withTemp W m.win date.view sql) w (winViews gs date ws)
        (winQuestion q (winGroups W q m.win) (date.view ++ "." ++ m.win.temp)) = .ok j.cte ∧
      List.Forall₂ (fun f p => f.sql = .dimension p.1 ∧ p.2 = f.label) gs j.on ∧ j.name = m.cteAlias ∧ j.nullsEqual = m.win.nullsEqual := by
  unfold buildWinJoin at h
  cases hg : getAll W.get (winGroups W q m.win) with
  | error e => rw [hg] at h; cases h
  | ok gs =>
    rw [hg] at h
    simp only at h
    cases hd : W.get m.win.name with
    | error e => rw [hd] at h; cases h
    | ok date =>
      rw [hd] at h
      simp only at h
      cases hs : dimText date with
      | error e => rw [hs] at h; cases h
      | ok sql =>
        rw [hs] at h
        simp only at h
        cases hw : getAll W.get q.whereNames with
        | error e => rw [hw] at h; cases h
        | ok ws =>
          rw [hw] at h
          simp only at h
          cases hb : buildBlock (withTemp W m.win date.view sql) w (winViews gs date ws)
              (winQuestion q (winGroups W q m.win) (date.view ++ "." ++ m.win.temp)) with
          | error e => rw [hb] at h; cases h
          | ok b =>
            rw [hb] at h
            simp only at h
            cases ho : onPairs gs with
            | error e => rw [ho] at h; cases h
            | ok ps =>
              rw [ho] at h
              cases h
              exact ⟨gs, date, sql, ws, getAll_names.mp hg, rfl, dimText_ok.mp hs, getAll_names.mp hw, hb, onPairs_ok ho, rfl, rfl⟩

theorem mem_firstSeen (l : List String) (x : String) : x ∈ firstSeen l ↔ x ∈ l := by
  induction l with
  | nil => simp [firstSeen]
  | cons y ys ih =>
    simp only [firstSeen, List.mem_cons, List.mem_filter, ih, bne_iff_ne, ne_eq]
    by_cases h : x = y <;> simp [h]

/-- SQL's greatest (least) value. -/
theorem sqlMax_some (vs : List ℚ) (t : ℚ) : sqlMax vs = some t ↔ t ∈ vs ∧ ∀ u ∈ vs, u ≤ t := by
  have hf : ∀ (l : List ℚ) (a : ℚ), (l.foldl Max.max a = a ∨ l.foldl Max.max a ∈ l) ∧ a ≤ l.foldl Max.max a ∧ ∀ u ∈ l, u ≤ l.foldl Max.max a := by
    intro l
    induction l with
    | nil => intro a; simp
    | cons b l ih =>
      intro a
      obtain ⟨h1, h2, h3⟩ := ih (max a b)
      simp only [List.foldl_cons]
      refine ⟨?_, le_trans (le_max_left _ _) h2, ?_⟩
      · rcases h1 with h1 | h1
        · rcases max_choice a b with h | h
          · left; rw [h1, h]
          · right; rw [h1, h]; simp
        · right; simp [h1]
      · intro u hu
        rcases List.mem_cons.mp hu with rfl | hu
        · exact le_trans (le_max_right _ _) h2
        · exact h3 u hu
  cases vs with
  | nil => simp [sqlMax]
  | cons v vs =>
    simp only [sqlMax, Option.some.injEq]
    obtain ⟨h1, h2, h3⟩ := hf vs v
    constructor
    · rintro rfl
      refine ⟨?_, ?_⟩
      · rcases h1 with h1 | h1
        · rw [h1]; simp
        · exact List.mem_cons_of_mem _ h1
      · intro u hu
        rcases List.mem_cons.mp hu with rfl | hu
        · exact h2
        · exact h3 u hu
    · rintro ⟨hm, hall⟩
      refine le_antisymm ?_ ?_
      · rcases h1 with h1 | h1
        · rw [h1]; exact hall v (by simp)
        · exact hall _ (List.mem_cons_of_mem _ h1)
      · rcases List.mem_cons.mp hm with rfl | hm
        · exact h2
        · exact h3 t hm

theorem sqlMin_some (vs : List ℚ) (t : ℚ) : sqlMin vs = some t ↔ t ∈ vs ∧ ∀ u ∈ vs, t ≤ u := by
  have hf : ∀ (l : List ℚ) (a : ℚ), (l.foldl Min.min a = a ∨ l.foldl Min.min a ∈ l) ∧ l.foldl Min.min a ≤ a ∧ ∀ u ∈ l, l.foldl Min.min a ≤ u := by
    intro l
    induction l with
    | nil => intro a; simp
    | cons b l ih =>
      intro a
      obtain ⟨h1, h2, h3⟩ := ih (min a b)
      simp only [List.foldl_cons]
      refine ⟨?_, le_trans h2 (min_le_left _ _), ?_⟩
      · rcases h1 with h1 | h1
        · rcases min_choice a b with h | h
          · left; rw [h1, h]
          · right; rw [h1, h]; simp
        · right; simp [h1]
      · intro u hu
        rcases List.mem_cons.mp hu with rfl | hu
        · exact le_trans h2 (min_le_right _ _)
        · exact h3 u hu
  cases vs with
  | nil => simp [sqlMin]
  | cons v vs =>
    simp only [sqlMin, Option.some.injEq]
    obtain ⟨h1, h2, h3⟩ := hf vs v
    constructor
    · rintro rfl
      refine ⟨?_, ?_⟩
      · rcases h1 with h1 | h1
        · rw [h1]; simp
        · exact List.mem_cons_of_mem _ h1
      · intro u hu
        rcases List.mem_cons.mp hu with rfl | hu
        · exact h2
        · exact h3 u hu
    · rintro ⟨hm, hall⟩
      refine le_antisymm ?_ ?_
      · rcases List.mem_cons.mp hm with rfl | hm
        · exact h2
        · exact h3 t hm
      · rcases h1 with h1 | h1
        · rw [h1]; exact hall v (by simp)
        · exact hall _ (List.mem_cons_of_mem _ h1)

/-- The temporary measure's value over a group of rows. -/
theorem temp_value (E : Engine ρ) (w : Warehouse) (fpk : FunctionalPk) (d : WinDef) (view sql : String) (G : List ρ) (t : ℚ) :
    valueOf E w fpk (tempField d view sql) G = some t ↔ IsExtreme d.choice (fun u => ∃ x ∈ G, E.value x sql = some u) t := by
  unfold valueOf tempField
  cases hc : d.choice with
  | max =>
    simp only [WinChoice.type, aggregateSql, Agg.eval, sqlMax_some, IsExtreme, List.mem_filterMap, Scalar.eval]
  | min =>
    simp only [WinChoice.type, aggregateSql, Agg.eval, sqlMin_some, IsExtreme, List.mem_filterMap, Scalar.eval]

theorem columnOf_index {sel : List (SqlExpr × String)} {a : String} {i i' : Nat} {x : SqlExpr} {c : SqlExpr × String}
    (h : columnOf sel a = some (i, x)) (hc : sel[i']? = some c) (ha : c.2 = a) : i' = i := by
  unfold columnOf at h
  split at h
  · rename_i d hd
    simp only [Option.some.injEq, Prod.mk.injEq] at h
    have : ((c, i') : (SqlExpr × String) × Nat) ∈ (sel.zipIdx).filter (fun c => c.1.2 = a) :=
      List.mem_filter.mpr ⟨List.mem_zipIdx_iff_getElem?.mpr hc, by simpa using ha⟩
    rw [hd] at this
    simp only [List.mem_singleton] at this
    rw [← h.1, ← this]
  · cases h

theorem matching_iff {j : WinJoin}
    (hsel : ∀ (i : Nat) (p : String × String), j.on[i]? = some p → ∃ c : SqlExpr × String, j.cte.select[i]? = some c ∧ c.2 = p.2)
    (hcol : ∀ p ∈ j.on, columnOf j.cte.select p.2 ≠ none) (E : Engine ρ) (r : ρ) {k rest : List Val} (hk : k.length = j.on.length) :
    j.matching E r (k ++ rest) = true ↔ List.Forall₂ (fun p v => joinEq j.nullsEqual (E.value r p.1) v = true) j.on k := by
  unfold WinJoin.matching
  rw [List.all_eq_true, List.forall₂_iff_get]
  have key : ∀ i (h : i < j.on.length) (h' : i < k.length),
      j.pairMatches E r (k ++ rest) j.on[i] = joinEq j.nullsEqual (E.value r j.on[i].1) k[i] := by
    intro i h h'
    unfold WinJoin.pairMatches
    cases hc : columnOf j.cte.select j.on[i].2 with
    | none => exact absurd hc (hcol _ (List.getElem_mem h))
    | some c =>
      obtain ⟨d, h1, h2⟩ := hsel i _ (List.getElem?_eq_getElem h)
      have := columnOf_index hc h1 h2
      simp only [← this]
      rw [List.getElem?_append_left h', List.getElem?_eq_getElem h']
      rfl
  constructor
  · intro hall
    refine ⟨hk.symm, fun i h h' => ?_⟩
    have := hall _ (List.getElem_mem h)
    rw [key i h h'] at this
    exact this
  · rintro ⟨-, hall⟩ p hp
    obtain ⟨i, h, rfl⟩ := List.mem_iff_getElem.mp hp
    rw [key i h (by omega)]
    exact hall i h (by omega)

theorem joinEq_eq {ne : Bool} {x y : Val} : joinEq ne x y = true ↔ x = y ∧ (ne = false → x ≠ none) := by
  cases x <;> cases y <;> cases ne <;> simp [joinEq]

theorem joins_eq {on : List (String × String)} {ne : Bool} {E : Engine ρ} {r : ρ} {k : List Val} :
    List.Forall₂ (fun p v => joinEq ne (E.value r p.1) v = true) on k ↔
      k = on.map (fun p => E.value r p.1) ∧ (ne = false → ∀ p ∈ on, E.value r p.1 ≠ none) := by
  induction on generalizing k with
  | nil => simp
  | cons p ps ih =>
    cases k with
    | nil => simp
    | cons v vs =>
      rw [List.forall₂_cons, ih, joinEq_eq]
      simp only [List.map_cons, List.cons.injEq, List.forall_mem_cons]
      constructor
      · rintro ⟨⟨h1, h2⟩, h3, h4⟩
        exact ⟨⟨h1.symm, h3⟩, fun h => ⟨h2 h, h4 h⟩⟩
      · rintro ⟨⟨h1, h2⟩, h3⟩
        exact ⟨⟨h1.symm, fun h => (h3 h).1⟩, h2, fun h => (h3 h).2⟩

/-- What the lines of a subquery say about a row. -/
structure CteFacts (D : Db ρ) (j : WinJoin) (pass : ρ → Prop) (rows : List ρ) (temp : List ρ → Val) (ls : List (List Val)) : Prop where
  one : ∀ r, (ls.filter (j.matching D.engine r)).length ≤ 1
  line : ∀ r, ∀ l ∈ ls, j.matching D.engine r l = true → (j.nullsEqual = false → ∀ p ∈ j.on, D.engine.value r p.1 ≠ none) ∧
    ∃ G, (∀ x, x ∈ G ↔ x ∈ rows ∧ pass x ∧ ∀ p ∈ j.on, D.engine.value x p.1 = D.engine.value r p.1) ∧
      l = j.on.map (fun p => D.engine.value r p.1) ++ [temp G]
  found : ∀ r, ∀ x ∈ rows, pass x → (∀ p ∈ j.on, D.engine.value x p.1 = D.engine.value r p.1) →
    (j.nullsEqual = false → ∀ p ∈ j.on, D.engine.value r p.1 ≠ none) → ∃ l ∈ ls, j.matching D.engine r l = true

theorem cte_facts {W : WinProject} {w : Warehouse} {q : Question} {d : WinDef} {view sql : String} {views groups : List String} {j : WinJoin}
    {gs : List AnsField}
    (hgs : Names W.project groups gs) (hb : buildBlock (withTemp W d view sql) w views (winQuestion q groups (view ++ "." ++ d.temp)) = .ok j.cte)
    (hon : List.Forall₂ (fun f p => f.sql = .dimension p.1 ∧ p.2 = f.label) gs j.on)
    (hcol : ∀ p ∈ j.on, columnOf j.cte.select p.2 ≠ none) (hwf : WellFormedFilters q.wheres) (hf : ∀ i, q.fieldOf i ≠ view ++ "." ++ d.temp)
    (hg : view ++ "." ++ d.temp ∉ groups) (D : Db ρ) {rows : List ρ} {ls : List (List Val)} (ha : j.cte.Answers D rows ls) :
    CteFacts D j (PassesWhere D W.project w views q) rows (valueOf D.engine w (W.base.fpk views) (tempField d view sql)) ls ∧
    List.Forall₂ (fun f (c : SqlExpr × String) => c.2 = f.label) (gs ++ [tempField d view sql]) j.cte.select := by
  set P' := withTemp W d view sql with hP'
  set q' := winQuestion q groups (view ++ "." ++ d.temp) with hq'
  have hnames : Names P' groups gs := by
    unfold Names at hgs ⊢
    refine List.Forall₂.imp (fun _ _ h => h) (List.forall₂_iff_get.mpr ?_)
    obtain ⟨h1, h2⟩ := List.forall₂_iff_get.mp hgs
    refine ⟨h1, fun i hi hi' => ?_⟩
    have hne : groups.get ⟨i, hi⟩ ≠ view ++ "." ++ d.temp := fun h => hg (h ▸ List.get_mem _ _)
    show (if _ then _ else _) = _
    rw [if_neg hne]
    exact h2 i hi hi'
  have hdim : ∀ f ∈ gs, ∃ s, f.sql = .dimension s := by
    intro f hfm
    obtain ⟨i, hi, rfl⟩ := List.mem_iff_getElem.mp hfm
    obtain ⟨h1, h2⟩ := List.forall₂_iff_get.mp hon
    exact ⟨_, (h2 i hi (by omega)).1⟩
  have hp : Proper P' q' gs [tempField d view sql] := by
    refine ⟨hnames, ?_, hdim, ?_, hwf, ?_⟩
    · refine .cons ?_ .nil
      show (if _ then _ else _) = _
      rw [if_pos rfl]
    · intro m hm
      rw [List.mem_singleton] at hm
      subst hm
      exact ⟨_, rfl⟩
    · trivial
  have hpass : ∀ r, PassesWhere D P' w views q' r ↔ PassesWhere D W.project w views q r := by
    intro r
    have : compared D P' w (P'.fpk views) q'.fieldOf [r] = compared D W.project w (W.project.fpk views) q.fieldOf [r] := by
      funext i
      unfold compared
      have : P'.get (q'.fieldOf i) = W.project.get (q.fieldOf i) := by
        show (if q.fieldOf i = _ then _ else W.get (q.fieldOf i)) = _
        rw [if_neg (hf i)]
        rfl
      rw [this]
      rfl
    unfold PassesWhere
    rw [this]
    rfl
  have hdims : ∀ r, gs.map (fun f => valueOf D.engine w (P'.fpk views) f [r]) = j.on.map (fun p => D.engine.value r p.1) := by
    intro r
    clear hdim hp hnames hgs hb hcol
    generalize j.on = on at hon
    induction hon with
    | nil => rfl
    | cons h1 h2 ih =>
      simp only [List.map_cons, List.cons.injEq]
      refine ⟨?_, ih⟩
      unfold valueOf
      rw [h1.1]
      rfl
  obtain ⟨c, fs, hc, hfs, hgb, -, -, -, hlim, -, -, -, hsel, -, -⟩ := buildBlock_ok hb
  have hgr : GroupsRows q' gs [tempField d view sql] := .inl rfl
  have hgn := (groups_iff hc hp.dims hp.metrics).mpr hgr
  have hfs' : fs = gs ++ [tempField d view sql] := (getAll_names.mp hfs).unique (hp.dims.append hp.metrics)
  have hse := groupSelect_ok (hsel hgn).1
  rw [hfs'] at hse
  have hlab : List.Forall₂ (fun f (c : SqlExpr × String) => c.2 = f.label) (gs ++ [tempField d view sql]) j.cte.select :=
    hse.imp fun _ _ h => h.1
  refine ⟨?_, hlab⟩
  have hlen : gs.length = j.on.length := hon.length_eq
  have hidx : ∀ (i : Nat) (p : String × String), j.on[i]? = some p → ∃ c : SqlExpr × String, j.cte.select[i]? = some c ∧ c.2 = p.2 := by
    intro i p hip
    obtain ⟨hi, rfl⟩ := List.getElem?_eq_some_iff.mp hip
    obtain ⟨h1, h2⟩ := List.forall₂_iff_get.mp hon
    obtain ⟨h3, h4⟩ := List.forall₂_iff_get.mp hlab
    have hi1 : i < (gs ++ [tempField d view sql]).length := by rw [List.length_append]; omega
    have hi2 : i < j.cte.select.length := by omega
    refine ⟨j.cte.select[i], List.getElem?_eq_getElem hi2, ?_⟩
    have e1 := h4 i hi1 hi2
    have e2 := (h2 i (by omega) hi).2
    simp only [List.get_eq_getElem] at e1 e2
    rw [e1, e2, List.getElem_append_left (by omega)]
  have hmat : ∀ r (k rest : List Val), k.length = j.on.length → (j.matching D.engine r (k ++ rest) = true ↔
      k = j.on.map (fun p => D.engine.value r p.1) ∧ (j.nullsEqual = false → ∀ p ∈ j.on, D.engine.value r p.1 ≠ none)) := by
    intro r k rest hk
    rw [matching_iff hidx hcol D.engine r hk, joins_eq]
  by_cases hgs0 : gs = []
  · subst hgs0
    have hon0 : j.on = [] := List.length_eq_zero_iff.mp (by rw [← hlen]; rfl)
    have hz : q'.limit ≠ some 0 := by intro h; cases h
    obtain ⟨p, hpp, h1, -⟩ := block_total hb hp hz D ha
    have hout := h1 (by intro v hv; cases hv)
    simp only [List.map_cons, List.map_nil] at hout
    constructor
    · intro r
      rw [hout]
      exact (List.length_filter_le _ _).trans (by simp)
    · intro r l hl hm
      rw [hon0]
      refine ⟨by simp, rows.filter p, ?_, ?_⟩
      · intro x
        rw [List.mem_filter, hpp, hpass]
        simp
      · rw [hout, List.mem_singleton] at hl
        rw [hl]
        rfl
    · intro r x hx hxp hxe hne
      refine ⟨_, by rw [hout]; exact List.mem_singleton.mpr rfl, ?_⟩
      have := (hmat r [] [valueOf D.engine w (P'.fpk views) (tempField d view sql) (rows.filter p)] (by rw [hon0]; rfl)).mpr
        ⟨by rw [hon0]; rfl, hne⟩
      simpa using this
  · obtain ⟨lines, cols, htab, -, -, hout⟩ := block_table hb hp hgr hgs0 D ha
    have hl : ls = lines := by
      rw [hout, hlim]
      cases w <;> rfl
    subst hl
    have hdims' : (fun r => gs.map (fun f => valueOf D.engine w (P'.fpk views) f [r])) = fun r => j.on.map (fun p => D.engine.value r p.1) :=
      funext hdims
    rw [hdims'] at htab
    have hline : ∀ r, ∀ l ∈ ls, j.matching D.engine r l = true → (j.nullsEqual = false → ∀ p ∈ j.on, D.engine.value r p.1 ≠ none) ∧
        ∃ G, Behind (PassesWhere D P' w views q') (fun r => j.on.map (fun p => D.engine.value r p.1)) rows
          (j.on.map (fun p => D.engine.value r p.1)) G ∧
          l = j.on.map (fun p => D.engine.value r p.1) ++ [valueOf D.engine w (P'.fpk views) (tempField d view sql) G] := by
      intro r l hlm hm
      obtain ⟨k, G, h1, h2, h3, h4, h5⟩ := htab.sound l hlm
      rw [h5] at hm
      obtain ⟨h6, h7⟩ := (hmat r k _ (by rw [h1, hlen])).mp hm
      subst h6
      exact ⟨h7, G, h3, h5⟩
    constructor
    · intro r
      by_contra hlt
      push Not at hlt
      have hnd : ((ls.filter (j.matching D.engine r)).map (List.take gs.length)).Nodup :=
        htab.once.sublist ((List.filter_sublist).map _)
      have hall : ∀ x ∈ (ls.filter (j.matching D.engine r)).map (List.take gs.length), x = j.on.map (fun p => D.engine.value r p.1) := by
        intro x hx
        obtain ⟨l, hl, rfl⟩ := List.mem_map.mp hx
        obtain ⟨hl1, hl2⟩ := List.mem_filter.mp hl
        obtain ⟨-, G, -, rfl⟩ := hline r l hl1 hl2
        rw [hlen, List.take_left' (by simp)]
      have := List.eq_replicate_of_mem hall
      rw [this, List.nodup_replicate] at hnd
      simp only [List.length_map] at hnd
      omega
    · intro r l hlm hm
      obtain ⟨h1, G, ⟨p, hp1, rfl⟩, h3⟩ := hline r l hlm hm
      refine ⟨h1, _, ?_, h3⟩
      intro x
      rw [List.mem_filter]
      constructor
      · rintro ⟨hx, hpx⟩
        obtain ⟨h4, h5⟩ := (hp1 x hx).mp hpx
        exact ⟨hx, (hpass x).mp h4, fun p hpm => (List.map_inj_left.mp h5) p hpm⟩
      · rintro ⟨hx, h4, h5⟩
        exact ⟨hx, (hp1 x hx).mpr ⟨(hpass x).mpr h4, List.map_congr_left h5⟩⟩
    · intro r x hx hxp hxe hne
      obtain ⟨G, -, h2⟩ := htab.complete x hx ((hpass x).mpr hxp)
      refine ⟨_, h2 (by intro v hv; cases hv), ?_⟩
      rw [hmat r _ _ (by simp)]
      exact ⟨List.map_congr_left hxe, hne⟩

/-! ### The joined rows -/

theorem extend_one {E : Engine ρ} {j : WinJoin} {ls : List (List Val)} {x : WRow ρ} (h : (ls.filter (j.matching E x.1)).length ≤ 1) :
    j.extend E ls x = [(x.1, x.2 ++ j.cells (ls.find? (j.matching E x.1)))] := by
  unfold WinJoin.extend
  rw [← List.head?_filter]
  cases hf : ls.filter (j.matching E x.1) with
  | nil => rfl
  | cons l rest =>
    rw [hf] at h
    cases rest with
    | nil => rfl
    | cons _ _ => simp at h

/-- The cells of all subqueries on a row. -/
def allCells (E : Engine ρ) (jl : List (WinJoin × List (List Val))) (r : ρ) : List (String × Val) :=
  jl.flatMap (fun p => p.1.cells (p.2.find? (p.1.matching E r)))

theorem extendAll_one {E : Engine ρ} {jl : List (WinJoin × List (List Val))}
    (h : ∀ p ∈ jl, ∀ r, (p.2.filter (p.1.matching E r)).length ≤ 1) (rows : List ρ) (c : ρ → List (String × Val)) :
    extendAll E jl (rows.map (fun r => (r, c r))) = rows.map (fun r => (r, c r ++ allCells E jl r)) := by
  induction jl generalizing c with
  | nil => simp [extendAll, allCells]
  | cons p ps ih =>
    rw [extendAll]
    have : (rows.map (fun r => (r, c r))).flatMap (p.1.extend E p.2) =
        rows.map (fun r => (r, c r ++ p.1.cells (p.2.find? (p.1.matching E r)))) := by
      rw [List.flatMap_map]
      clear ih
      induction rows with
      | nil => rfl
      | cons r rs ihr =>
        rw [List.flatMap_cons, ihr, extend_one (h p (by simp) r)]
        rfl
    rw [this, ih (fun p' hp' => h p' (List.mem_cons_of_mem _ hp'))]
    simp [allCells]

theorem cells_names (j : WinJoin) (l : Option (List Val)) : (j.cells l).map Prod.fst = j.columns := by
  unfold WinJoin.cells
  rw [List.map_map]
  exact List.zipIdx_map_fst _ _

theorem find_only {l : List (String × Val)} {a : String} {v : Val} (h : (l.map Prod.fst).count a = 1) (hm : (a, v) ∈ l) :
    l.find? (fun c => c.1 = a) = some (a, v) := by
  induction l with
  | nil => cases hm
  | cons x xs ih =>
    rw [List.map_cons, List.count_cons] at h
    by_cases hx : x.1 = a
    · rw [List.find?_cons_of_pos (by simpa using hx)]
      rcases List.mem_cons.mp hm with rfl | hm
      · rfl
      · have : 0 < (xs.map Prod.fst).count a := List.count_pos_iff.mpr (List.mem_map.mpr ⟨_, hm, rfl⟩)
        simp only [hx, beq_self_eq_true, if_true] at h
        omega
    · rw [List.find?_cons_of_neg (by simpa using hx)]
      rcases List.mem_cons.mp hm with rfl | hm
      · exact absurd rfl hx
      · refine ih ?_ hm
        simpa [hx] using h

theorem cell_value {E : Engine ρ} {jl : List (WinJoin × List (List Val))} {s : String}
    (h : (jl.flatMap (fun p => p.1.columns)).count (lower s) = 1) {p : WinJoin × List (List Val)} (hp : p ∈ jl) {i : Nat}
    (hi : p.1.columns[i]? = some (lower s)) (r : ρ) :
    cellOf (allCells E jl r) s = ((p.2.find? (p.1.matching E r)).bind (fun l => (l[i]?).join)) := by
  have hn : (allCells E jl r).map Prod.fst = jl.flatMap (fun p => p.1.columns) := by
    unfold allCells
    rw [List.map_flatMap]
    simp only [cells_names]
  unfold cellOf
  rw [find_only (v := ((p.2.find? (p.1.matching E r)).bind (fun l => (l[i]?).join))) (by rw [hn]; exact h)]
  · rfl
  · refine List.mem_flatMap.mpr ⟨p, hp, ?_⟩
    unfold WinJoin.cells
    refine List.mem_map.mpr ⟨(lower s, i), List.mem_zipIdx_iff_getElem?.mpr hi, ?_⟩
    cases p.2.find? (p.1.matching E r) <;> rfl

theorem buildWinJoins_ok {W : WinProject} {w : Warehouse} {q : Question} {ms : List WinMeasure} {js : List WinJoin}
    (h : buildWinJoins W w q ms = .ok js) : List.Forall₂ (fun m j => buildWinJoin W w q m = .ok j) ms js := by
  induction ms generalizing js with
  | nil => cases h; exact .nil
  | cons m ms ih =>
    rw [buildWinJoins] at h
    cases hm : buildWinJoin W w q m with
    | error e => rw [hm] at h; cases h
    | ok j =>
      rw [hm] at h
      simp only at h
      cases hr : buildWinJoins W w q ms with
      | error e => rw [hr] at h; cases h
      | ok rest =>
        rw [hr] at h
        cases h
        exact .cons hm (ih hr)

theorem winEntries_from {W : WinProject} {seen ns : List String} {m : WinMeasure} (h : m ∈ winEntries W seen ns) :
    ∃ n ∈ ns, W.win n = some m := by
  induction ns generalizing seen with
  | nil => cases h
  | cons n ns ih =>
    rw [winEntries] at h
    cases hw : W.win n with
    | none =>
      rw [hw] at h
      obtain ⟨n', h1, h2⟩ := ih h
      exact ⟨n', List.mem_cons_of_mem _ h1, h2⟩
    | some m' =>
      rw [hw] at h
      simp only at h
      split at h
      · obtain ⟨n', h1, h2⟩ := ih h
        exact ⟨n', List.mem_cons_of_mem _ h1, h2⟩
      · rcases List.mem_cons.mp h with rfl | h
        · exact ⟨n, by simp, hw⟩
        · obtain ⟨n', h1, h2⟩ := ih h
          exact ⟨n', List.mem_cons_of_mem _ h1, h2⟩

theorem winEntries_has {W : WinProject} {seen ns : List String} {n : String} {m : WinMeasure} (hn : n ∈ ns) (hw : W.win n = some m) :
    m.cteAlias ∈ seen ∨ ∃ m' ∈ winEntries W seen ns, m'.cteAlias = m.cteAlias := by
  induction ns generalizing seen with
  | nil => cases hn
  | cons k ns ih =>
    rw [winEntries]
    rcases List.mem_cons.mp hn with rfl | hn
    · rw [hw]
      simp only
      split
      · rename_i h; exact .inl h
      · exact .inr ⟨m, by simp, rfl⟩
    · cases hk : W.win k with
      | none => exact ih hn
      | some m' =>
        simp only
        split
        · exact ih hn
        · rcases ih (seen := m'.cteAlias :: seen) hn with h | ⟨m'', h1, h2⟩
          · rcases List.mem_cons.mp h with h | h
            · exact .inr ⟨m', by simp, h.symm⟩
            · exact .inl h
          · exact .inr ⟨m'', List.mem_cons_of_mem _ h1, h2⟩

theorem conditions_ok {num : ToNumeric} {now : DateTime} {fs : List MeasureFilter} {cs : List (String × Comparison)}
    (h : filterConditions num now fs = .ok cs) : ∀ f ∈ fs, ∀ field v, f.field = some field → f.value = some v →
      ∃ ds, (filterDict num now f.week v defaultWeek).1 = .ok ds := by
  induction fs generalizing cs with
  | nil => intro f hf; cases hf
  | cons g gs ih =>
    intro f hf field v h1 h2
    rw [filterConditions] at h
    cases hg : g.field with
    | none =>
      rw [hg] at h
      rcases List.mem_cons.mp hf with rfl | hf
      · rw [hg] at h1; cases h1
      · exact ih h f hf field v h1 h2
    | some field' =>
      cases hv : g.value with
      | none =>
        rw [hg, hv] at h
        rcases List.mem_cons.mp hf with rfl | hf
        · rw [hv] at h2; cases h2
        · exact ih h f hf field v h1 h2
      | some v' =>
        rw [hg, hv] at h
        simp only at h
        cases hd : (filterDict num now g.week v' defaultWeek).1 with
        | error e => rw [hd] at h; cases h
        | ok ds =>
          rw [hd] at h
          simp only at h
          rcases List.mem_cons.mp hf with rfl | hf
          · rw [hv] at h2; cases h2
            exact ⟨ds, hd⟩
          · cases hr : filterConditions num now gs with
            | error e => rw [hr] at h; cases h
            | ok rest => exact ih hr f hf field v h1 h2

end
end ML
