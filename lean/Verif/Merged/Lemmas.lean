import Verif.Merged.Spec
/-
Helper lemmas for C33 and C34.
-/
set_option autoImplicit false
namespace ML
open Spec

section
variable {V : Type} [DecidableEq V]

theorem sqlEq_iff (a b : Option V) : sqlEq a b = true ↔ a = b ∧ b ≠ none := by
  cases a <;> cases b <;> simp [sqlEq]

theorem mergeEqs_ok (w : Warehouse) (as bs : List MDim) (h : as.length = bs.length) :
    ∃ l, mergeEqs w as bs = .ok l ∧ (∀ x t : MRow V,
      (l.all (fun p => sqlEq (x p.1) (t p.2.1)) = true ↔
        as.map (fun f => x f.column) = bs.map (fun f => t f.column) ∧ ∀ v ∈ bs.map (fun f => t f.column), v ≠ none)) ∧
      (l = [] ↔ as = []) ∧ (∀ p ∈ l, ∃ f ∈ as, p.1 = f.column) := by
  induction as generalizing bs with
  | nil =>
    cases bs with
    | nil => exact ⟨[], rfl, by simp, by simp, by simp⟩
    | cons b bs => cases h
  | cons a as ih =>
    cases bs with
    | nil => cases h
    | cons b bs =>
      obtain ⟨l, h1, h2, h3, h4⟩ := ih bs (by simpa using h)
      refine ⟨(a.column, b.column, decide (w = .bigquery ∧ a.datatype ≠ b.datatype)) :: l, by simp [mergeEqs, h1], ?_, by simp, ?_⟩
      · intro x t
        rw [List.all_cons, Bool.and_eq_true, h2 x t, sqlEq_iff]
        simp only [List.map_cons, List.cons.injEq, List.mem_cons, forall_eq_or_imp]
        tauto
      · intro p hp
        rcases List.mem_cons.mp hp with rfl | hp
        · exact ⟨a, by simp, rfl⟩
        · obtain ⟨f, hf, e⟩ := h4 p hp
          exact ⟨f, by simp [hf], e⟩

/-- The join of two grouped sub-queries compares their combinations of dimension values. -/
theorem mergeJoin_grouped (d : MergeDef) (db : String → List (MRow V)) (n : ℕ) (hg : Grouped d db n)
    (h₀ h : String) (m₀ : h₀ ∈ d.hashes) (m : h ∈ d.hashes) :
    ∃ j, mergeJoin d h₀ h = .ok j ∧ j ≠ .cross ∧
      (∀ (row : JRow (MRow V)) (r t : MRow V), dictGet row h₀ = some r → t ∈ db h →
        (j.holds h₀ row t = true ↔ keyOf d h₀ r = keyOf d h t)) ∧
      (∀ (row : JRow (MRow V)) (t : MRow V), dictGet row h₀ = none → j.holds h₀ row t = false) := by
  obtain ⟨as, ha, la⟩ := hg.listed h₀ m₀
  obtain ⟨bs, hb, lb⟩ := hg.listed h m
  have hne : d.dims.all (fun p => p.2.isEmpty) = false := by
    rw [List.all_eq_false]
    refine ⟨(h₀, as), dictGet_mem ha, ?_⟩
    have := hg.pos
    cases as with
    | nil => simp at la; omega
    | cons a as => simp
  obtain ⟨l, h1, h2, h3, _⟩ := mergeEqs_ok (V := V) d.warehouse as bs (by omega)
  refine ⟨.eqs l, ?_, by simp, ?_, ?_⟩
  · unfold mergeJoin
    simp only [hne, Bool.false_eq_true, and_false, if_false, ha, hb]
    cases as with
    | nil => have := hg.pos; simp at la; omega
    | cons a as => simp only [h1]
  · intro row r t hr ht
    simp only [MJoin.holds, hr, Option.bind_some]
    rw [h2 r t]
    have hnn := hg.notNull h m t ht
    simp only [keyOf, dimsOf, ha, hb, Option.getD_some] at hnn ⊢
    exact ⟨fun c => c.1, fun c => ⟨c, hnn⟩⟩
  · intro row t hr
    have : l ≠ [] := by
      intro c
      rw [h3] at c
      have := hg.pos
      rw [c] at la
      simp at la; omega
    cases l with
    | nil => exact absurd rfl this
    | cons p l => simp [MJoin.holds, hr, sqlEq]

/-- The row of the first sub-query with the matching rows of the others. -/
def extendRow (d : MergeDef) (db : String → List (MRow V)) (h₀ : String) (r : MRow V) :
    List String → JRow (MRow V) → JRow (MRow V)
  | [], row => row
  | h :: hs, row => extendRow d db h₀ r hs
      (match (db h).find? (fun t => decide (keyOf d h₀ r = keyOf d h t)) with
       | none => row
       | some t => (h, t) :: row)

/-- The rows of a sub-query whose combination is not in the first sub-query. -/
def extraRows (d : MergeDef) (db : String → List (MRow V)) (h₀ h : String) : List (JRow (MRow V)) :=
  ((db h).filter (fun t => !(db h₀).any (fun r => decide (keyOf d h₀ r = keyOf d h t)))).map (fun t => [(h, t)])

theorem filter_find {α β : Type} [DecidableEq β] (l : List α) (f : α → β) (h : (l.map f).Nodup) (b : β) :
    l.filter (fun t => decide (b = f t)) = (l.find? (fun t => decide (b = f t))).toList := by
  induction l with
  | nil => rfl
  | cons a l ih =>
    rw [List.map_cons, List.nodup_cons] at h
    by_cases hb : b = f a
    · have : l.filter (fun t => decide (b = f t)) = [] := by
        rw [List.filter_eq_nil_iff]
        intro x hx
        simp only [decide_eq_true_eq]
        intro c
        exact h.1 (by rw [← hb, c]; exact List.mem_map_of_mem hx)
      rw [List.filter_cons, List.find?_cons]
      simp only [hb, decide_true, if_true, Option.toList_some]
      rw [← hb, this]
    · rw [List.filter_cons, List.find?_cons]
      simp [hb, ih h.2]

theorem mergeStep_grouped (d : MergeDef) (db : String → List (MRow V)) (n : ℕ) (hg : Grouped d db n)
    (h₀ h : String) (m₀ : h₀ ∈ d.hashes) (m : h ∈ d.hashes) (g : MRow V → JRow (MRow V)) (E : List (JRow (MRow V)))
    (hgr : ∀ r, dictGet (g r) h₀ = some r) (hE : ∀ row ∈ E, dictGet row h₀ = none) :
    ∃ j, mergeJoin d h₀ h = .ok j ∧ mergeStep h₀ j h (db h) ((db h₀).map g ++ E) =
      (db h₀).map (fun r => match (db h).find? (fun t => decide (keyOf d h₀ r = keyOf d h t)) with
        | none => g r
        | some t => (h, t) :: g r) ++ (E ++ extraRows d db h₀ h) := by
  obtain ⟨j, hj, hjc, hyes, hno⟩ := mergeJoin_grouped d db n hg h₀ h m₀ m
  refine ⟨j, hj, ?_⟩
  have step : mergeStep h₀ j h (db h) ((db h₀).map g ++ E) =
      ((db h₀).map g ++ E).flatMap (fun row => outerRow (j.holds h₀ row) h (db h) row) ++
      ((db h).filter (fun t => !((db h₀).map g ++ E).any (fun row => j.holds h₀ row t))).map (fun t => [(h, t)]) := by
    cases j with
    | cross => exact absurd rfl hjc
    | always => rfl
    | eqs l => rfl
  rw [step, List.flatMap_append, List.append_assoc]
  congr 1
  · rw [List.flatMap_map]
    rw [show (fun r => outerRow (j.holds h₀ (g r)) h (db h) (g r)) = (fun r => [match (db h).find? (fun t => decide (keyOf d h₀ r = keyOf d h t)) with
        | none => g r
        | some t => (h, t) :: g r]) from ?_]
    · induction (db h₀) with
      | nil => rfl
      | cons a l ih => rw [List.flatMap_cons, List.map_cons, ih]; rfl
    · funext r
      have e : (db h).filter (j.holds h₀ (g r)) = ((db h).find? (fun t => decide (keyOf d h₀ r = keyOf d h t))).toList := by
        rw [← filter_find (db h) (keyOf d h) (hg.unique h m) (keyOf d h₀ r)]
        apply List.filter_congr
        intro t ht
        rw [Bool.eq_iff_iff, hyes (g r) r t (hgr r) ht, decide_eq_true_eq]
      unfold outerRow
      rw [e]
      cases (db h).find? (fun t => decide (keyOf d h₀ r = keyOf d h t)) <;> rfl
  · congr 1
    · have : ∀ row ∈ E, outerRow (j.holds h₀ row) h (db h) row = [row] := by
        intro row hr
        have e : (db h).filter (j.holds h₀ row) = [] := by
          rw [List.filter_eq_nil_iff]
          intro t _
          simp [hno row t (hE row hr)]
        unfold outerRow
        rw [e]
      clear hE
      induction E with
      | nil => rfl
      | cons a E ih =>
        rw [List.flatMap_cons, this a (by simp), ih (by
          cases j with
          | cross => exact absurd rfl hjc
          | always => rfl
          | eqs l => rfl) (fun r hr => this r (by simp [hr]))]
        rfl
    · unfold extraRows
      congr 1
      apply List.filter_congr
      intro t ht
      congr 1
      rw [List.any_append, List.any_map]
      have e1 : E.any (fun row => j.holds h₀ row t) = false := by
        rw [List.any_eq_false]
        intro row hr
        simp [hno row t (hE row hr)]
      rw [e1, Bool.or_false]
      congr 1
      funext r
      rw [Bool.eq_iff_iff, Function.comp, hyes (g r) r t (hgr r) ht, decide_eq_true_eq]

theorem mergeRest_grouped (d : MergeDef) (db : String → List (MRow V)) (n : ℕ) (hg : Grouped d db n)
    (h₀ : String) (m₀ : h₀ ∈ d.hashes) (hs : List String) (hm : ∀ h ∈ hs, h ∈ d.hashes) (hn : h₀ ∉ hs)
    (g : MRow V → JRow (MRow V)) (E : List (JRow (MRow V)))
    (hgr : ∀ r, dictGet (g r) h₀ = some r) (hE : ∀ row ∈ E, dictGet row h₀ = none) :
    mergeRest d db h₀ hs ((db h₀).map g ++ E) =
      .ok ((db h₀).map (fun r => extendRow d db h₀ r hs (g r)) ++ (E ++ hs.flatMap (extraRows d db h₀))) := by
  induction hs generalizing g E with
  | nil => simp [mergeRest, extendRow]
  | cons h hs ih =>
    obtain ⟨j, hj, hst⟩ := mergeStep_grouped d db n hg h₀ h m₀ (hm h (by simp)) g E hgr hE
    have hne : h ≠ h₀ := fun c => hn (by simp [c])
    simp only [mergeRest, hj, hst]
    rw [ih (fun x hx => hm x (by simp [hx])) (fun c => hn (by simp [c]))]
    · simp [extendRow]
    · intro r
      split
      · exact hgr r
      · simp [dictGet, hne, hgr r]
    · intro row hr
      rcases List.mem_append.mp hr with hr | hr
      · exact hE row hr
      · unfold extraRows at hr
        obtain ⟨t, _, rfl⟩ := List.mem_map.mp hr
        simp [dictGet, hne]

theorem mergedRows_grouped (d : MergeDef) (db : String → List (MRow V)) (n : ℕ) (hg : Grouped d db n)
    (h₀ : String) (hs : List String) (hh : d.hashes = h₀ :: hs) :
    mergedRows d db = .ok ((db h₀).map (fun r => extendRow d db h₀ r hs [(h₀, r)]) ++ hs.flatMap (extraRows d db h₀)) := by
  unfold mergedRows
  rw [hh]
  have hnd := hg.nodup
  rw [hh, List.nodup_cons] at hnd
  have := mergeRest_grouped d db n hg h₀ (by simp [hh]) hs (fun h hx => by simp [hh, hx]) hnd.1 (fun r => [(h₀, r)]) []
    (fun r => by simp [dictGet]) (by simp)
  simpa using this

/-- What a row of the first sub-query becomes. -/
theorem extendRow_get (d : MergeDef) (db : String → List (MRow V)) (h₀ : String) (r : MRow V) (hs : List String)
    (row : JRow (MRow V)) (hn : hs.Nodup) (h : String) :
    dictGet (extendRow d db h₀ r hs row) h =
      if h ∈ hs then (match (db h).find? (fun t => decide (keyOf d h₀ r = keyOf d h t)) with
        | none => dictGet row h | some t => some t) else dictGet row h := by
  induction hs generalizing row with
  | nil => simp [extendRow]
  | cons a hs ih =>
    rw [List.nodup_cons] at hn
    rw [extendRow, ih _ hn.2]
    by_cases ha : h = a
    · subst ha
      rw [if_neg hn.1, if_pos (by simp)]
      cases (db h).find? (fun t => decide (keyOf d h₀ r = keyOf d h t)) <;> simp [dictGet]
    · have hg2 : dictGet (match (db a).find? (fun t => decide (keyOf d h₀ r = keyOf d a t)) with
          | none => row | some t => (a, t) :: row) h = dictGet row h := by
        cases (db a).find? (fun t => decide (keyOf d h₀ r = keyOf d a t)) <;> simp [dictGet, Ne.symm ha]
      rw [hg2]
      simp [ha]

theorem extendRow_keys (d : MergeDef) (db : String → List (MRow V)) (h₀ : String) (r : MRow V) (hs : List String)
    (row : JRow (MRow V)) (hr : ∀ p ∈ row, keyOf d p.1 p.2 = keyOf d h₀ r) :
    (∀ p ∈ extendRow d db h₀ r hs row, keyOf d p.1 p.2 = keyOf d h₀ r) ∧ ∀ p ∈ row, p ∈ extendRow d db h₀ r hs row := by
  induction hs generalizing row with
  | nil => exact ⟨hr, fun p hp => hp⟩
  | cons a hs ih =>
    rw [extendRow]
    cases hf : (db a).find? (fun t => decide (keyOf d h₀ r = keyOf d a t)) with
    | none => exact ih row hr
    | some t =>
      have ht := List.find?_some hf
      rw [decide_eq_true_eq] at ht
      obtain ⟨i1, i2⟩ := ih ((a, t) :: row) (by
        intro p hp
        rcases List.mem_cons.mp hp with rfl | hp
        · exact ht.symm
        · exact hr p hp)
      exact ⟨i1, fun p hp => i2 p (by simp [hp])⟩

end

/-! ### Dimension columns -/

theorem isFirst_cons {V : Type} (x : Option V) (l : List (Option V)) (v : Option V) (h : IsFirstNonNull l v) :
    IsFirstNonNull (x :: l) (match x with | some y => some y | none => v) := by
  cases x with
  | some y => exact .inr ⟨[], y, l, rfl, by simp, rfl⟩
  | none =>
    rcases h with ⟨h1, h2⟩ | ⟨b, y, a, h1, h2, h3⟩
    · exact .inl ⟨h1, by simpa using h2⟩
    · exact .inr ⟨none :: b, y, a, by simp [h1], by simpa using h2, h3⟩

theorem isFirst_append {V : Type} (l : List (Option V)) (x v : Option V) (h : IsFirstNonNull l v) :
    IsFirstNonNull (l ++ [x]) (v.or x) := by
  rcases h with ⟨h1, h2⟩ | ⟨b, y, a, h1, h2, h3⟩
  · subst h1
    cases x with
    | none =>
      refine .inl ⟨rfl, fun x hx => ?_⟩
      rcases List.mem_append.mp hx with hx | hx
      · exact h2 x hx
      · simpa using hx
    | some y => exact .inr ⟨l, y, [], by simp, h2, rfl⟩
  · subst h3
    exact .inr ⟨b, y, a ++ [x], by simp [h1], h2, rfl⟩

theorem isFirst_unique {V : Type} (l : List (Option V)) (v w : Option V) (h : IsFirstNonNull l v) (h' : IsFirstNonNull l w) :
    v = w := by
  induction l generalizing v w with
  | nil =>
    rcases h with ⟨h1, _⟩ | ⟨b, y, a, h1, _⟩
    · rcases h' with ⟨h1', _⟩ | ⟨b, y, a, h1', _⟩
      · rw [h1, h1']
      · simp at h1'
    · simp at h1
  | cons x l ih =>
    cases x with
    | some y =>
      have : ∀ v, IsFirstNonNull (some y :: l) v → v = some y := by
        rintro v (⟨_, h2⟩ | ⟨b, z, a, h1, h2, h3⟩)
        · exact absurd (h2 (some y) (by simp)) (by simp)
        · cases b with
          | nil => simp at h1; rw [h3, h1.1]
          | cons c b => simp at h1; have := h2 c (by simp); rw [← h1.1] at this; cases this
      rw [this v h, this w h']
    | none =>
      have : ∀ v, IsFirstNonNull (none :: l) v → IsFirstNonNull l v := by
        rintro v (⟨h1, h2⟩ | ⟨b, z, a, h1, h2, h3⟩)
        · exact .inl ⟨h1, fun x hx => h2 x (by simp [hx])⟩
        · cases b with
          | nil => simp at h1
          | cons c b => simp at h1; exact .inr ⟨b, z, a, h1.2, fun y hy => h2 y (by simp [hy]), h3⟩
      exact ih v w (this v h) (this w h')

/-- What the loop does to the expression of one column. -/
def stepExpr (d : MergeDef) (o : Option MExpr) (p : String × MDim) : Option MExpr :=
  if localMapping d p.2.id = [] then
    match o with
    | none => some (.col p.1 p.2.column)
    | some e => some (.ifNull e (.col p.1 p.2.column))
  else
    match nestedIfNull (presentFields d p.2) with
    | .error _ => o
    | .ok n => some (.ifNull (.col p.1 p.2.column) n)

theorem dimensionSqlGo_get (d : MergeDef) (L : List (String × MDim)) (acc out : List (String × MExpr))
    (h : dimensionSqlGo d L acc = .ok out) (a : String) :
    dictGet out a = (L.filter (fun p => p.2.column = a)).foldl (stepExpr d) (dictGet acc a) ∧
    ∀ p ∈ L, localMapping d p.2.id = [] ∨ ∃ n, nestedIfNull (presentFields d p.2) = .ok n := by
  induction L generalizing acc with
  | nil =>
    simp only [dimensionSqlGo, Except.ok.injEq] at h
    subst h
    simp
  | cons q L ih =>
    obtain ⟨hq, f⟩ := q
    simp only [dimensionSqlGo] at h
    cases hs : dimensionSqlStep d acc hq f with
    | error e => rw [hs] at h; cases h
    | ok acc' =>
      rw [hs] at h
      obtain ⟨i1, i2⟩ := ih acc' h
      unfold dimensionSqlStep at hs
      have key : dictGet acc' a = (if f.column = a then stepExpr d (dictGet acc a) (hq, f) else dictGet acc a) ∧
          (localMapping d f.id = [] ∨ ∃ n, nestedIfNull (presentFields d f) = .ok n) := by
        by_cases hm : localMapping d f.id = []
        · rw [if_pos hm] at hs
          injection hs with hs
          subst hs
          refine ⟨?_, .inl hm⟩
          unfold stepExpr
          simp only [hm, if_true]
          cases hg : dictGet acc f.column with
          | none =>
            simp only [dictGet_set]
            by_cases ha : f.column = a
            · subst ha; simp [hg]
            · simp [ha]
          | some e =>
            simp only [dictGet_set]
            by_cases ha : f.column = a
            · subst ha; simp [hg]
            · simp [ha]
        · rw [if_neg hm] at hs
          cases hn : nestedIfNull (presentFields d f) with
          | error e => rw [hn] at hs; cases hs
          | ok n =>
            rw [hn] at hs
            injection hs with hs
            subst hs
            refine ⟨?_, .inr ⟨n, rfl⟩⟩
            unfold stepExpr
            simp only [hm, if_false, hn]
            rw [dictGet_set]
            by_cases ha : f.column = a
            · simp [ha]
            · rw [if_neg ha, if_neg ha]
              cases hg : dictGet acc f.column <;> simp [dictGet_set, ha]
      constructor
      · rw [i1, key.1]
        by_cases ha : f.column = a <;> simp [ha]
      · intro p hp
        rcases List.mem_cons.mp hp with rfl | hp
        · exact key.2
        · exact i2 p hp

theorem foldl_same_name {V : Type} (d : MergeDef) (row : JRow (MRow V)) (a : String) (L : List (String × MDim))
    (ha : ∀ p ∈ L, p.2.column = a) (hm : ∀ p ∈ L, localMapping d p.2.id = []) (e₀ : MExpr) (S : List (Option V))
    (h₀ : IsFirstNonNull S (e₀.eval row)) (e : MExpr) (h : L.foldl (stepExpr d) (some e₀) = some e) :
    IsFirstNonNull (S ++ L.map (fun p => (dictGet row p.1).bind (fun r => r a))) (e.eval row) := by
  induction L generalizing e₀ S with
  | nil => simp at h; subst h; simpa using h₀
  | cons p L ih =>
    rw [List.foldl_cons] at h
    have e1 : stepExpr d (some e₀) p = some (.ifNull e₀ (.col p.1 a)) := by
      unfold stepExpr
      rw [if_pos (hm p (by simp)), ha p (by simp)]
    rw [e1] at h
    have := ih (fun q hq => ha q (by simp [hq])) (fun q hq => hm q (by simp [hq])) _
      (S ++ [(dictGet row p.1).bind (fun r => r a)]) (by
        have h1 := isFirst_append S ((dictGet row p.1).bind (fun r => r a)) _ h₀
        simp only [MExpr.eval]
        cases hx : e₀.eval row <;> rw [hx] at h1 <;> exact h1) h
    simpa using this

end ML
