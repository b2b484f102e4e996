import Verif.Secure.Spec
import Verif.Secure.Push
import Verif.Answer.Props
/-
C80: rows that a user may not see leave no trace in the answers.
-/
set_option autoImplicit false
namespace ML
open Spec

section
variable {ρ : Type}

/-- A block is answered the same over rows that agree where the WHERE can be true. -/
theorem block_same {P : AnsProject} {w : Warehouse} {views : List String} {q : Question} {b : Block} (hb : buildBlock P w views q = .ok b)
    (hw : WellFormedFilters q.wheres) {D D' : Db ρ} (he : D.engine = D'.engine) (ht : D.test = D'.test) {rows rows' : List ρ} (a : ρ → Bool)
    (ha : ∀ r, (∀ i ∈ P.access views, compared D P w (P.fpk views) q.fieldOf [r] i = .t) → a r = true)
    (hrows : rows.filter a = rows'.filter a) {out : List (List Val)} (h : b.Answers D rows out) : b.Answers D' rows' out := by
  obtain ⟨kept, groups, sel, lines, cols, h1, h2, h3, h4, h5, h6, h7⟩ := h
  obtain ⟨c, fs, -, -, -, -, -, -, -, -, hwh, -, -, hcond, -⟩ := buildBlock_ok hb
  obtain ⟨o, ho, hk⟩ := clause_keeps (ρ := ρ) (P.access views) q.wheres hw
  rw [hwh] at ho
  cases ho
  have htr : ∀ G i, b.truth D G i = b.truth D' G i := by
    intro G i
    unfold Block.truth
    rw [ht, he]
  refine ⟨kept, groups, sel, lines, cols, ?_, ?_, ?_, ?_, h5, h6, h7⟩
  · obtain ⟨p, hp, hkept⟩ := (hk D b _ _).mp h1
    refine (hk D' b _ _).mpr ⟨p, ?_, ?_⟩
    · intro G
      rw [hp]
      have : b.truth D G = b.truth D' G := funext (htr G)
      rw [this]
    · rw [singles_filter] at hkept ⊢
      have hkept := singles_inj hkept
      rw [hkept]
      congr 1
      have hsub : ∀ l : List ρ, l.filter (fun r => p [r]) = (l.filter a).filter (fun r => p [r]) := by
        intro l
        rw [List.filter_filter]
        refine List.filter_congr fun r _ => ?_
        cases hpr : p [r] with
        | false => rfl
        | true =>
          have := ((hp [r]).mp hpr).1
          rw [truth_eq hcond] at this
          simp [ha r this]
      rw [hsub rows, hsub rows', hrows]
  · unfold Block.Groups at h2 ⊢
    rw [← he]
    exact h2
  · unfold KeepsItems at h3 ⊢
    have : ∀ G, b.truth D G = b.truth D' G := fun G => funext (htr G)
    simpa only [this] using h3
  · rw [← he]
    exact h4

/-- The rows of a FROM that pass the access filters are those of the visible rows. -/
theorem from_same (S : SecProject) (w : Warehouse) (E : Engine (JRow ρ)) (test : Nat → Val → TV) (q : Question) (hF : Filterable S E test q)
    (fieldOf : Nat → String) (hfo : ∀ v, ∀ af ∈ S.filters v, ∀ value, ∀ i ∈ S.cmp af.field value, fieldOf i = af.field)
    (db db' : String → List ρ) (fromOf : List String → String × List (JoinStep ρ)) (views : List String)
    (hshape : FromShape (fromOf views).1 (fromOf views).2)
    (hdb : ∀ v ∈ (fromOf views).1 :: (fromOf views).2.map (·.tgt), SameRows (MaySeeFor S E test views v) (db v) (db' v)) :
    ∃ a : JRow ρ → Bool,
      (∀ r, (∀ i ∈ S.access views, compared (joinedDb db fromOf E test) S.answers w (S.fpk views) fieldOf [r] i = .t) → a r = true) ∧
      ((joinedDb db fromOf E test).rows views).filter a = ((joinedDb db' fromOf E test).rows views).filter a := by
  classical
  let see : String → ρ → Bool := fun v r => decide (MaySeeFor S E test views v r)
  let R : String → Bool := fun v => decide (∃ u ∈ views, ∃ af ∈ S.filters u, ∃ us value, S.user = some us ∧ HasAttr us af.userAttr value ∧ value ≠ "" ∧
    S.cmp af.field value ≠ [] ∧ ∃ f, S.get af.field = .ok f ∧ f.view = v)
  have hseeR : ∀ v, R v = false → ∀ r, see v r = true := by
    intro v hv r
    have hv : ¬ _ := of_decide_eq_false hv
    refine decide_eq_true ?_
    intro u hu af haf us value h1 h2 h3 f s h4 h5 _ i hi
    exact absurd ⟨u, hu, af, haf, us, value, h1, h2, h3, fun c => by rw [c] at hi; simp at hi, f, h4, h5⟩ hv
  refine ⟨keepAll see (((fromOf views).1 :: (fromOf views).2.map (·.tgt)).filter R), ?_, ?_⟩
  · intro row hrow
    unfold keepAll
    rw [List.all_eq_true]
    intro v hv
    have hRv : ∃ u ∈ views, ∃ af ∈ S.filters u, ∃ us value, S.user = some us ∧ HasAttr us af.userAttr value ∧ value ≠ "" ∧
        S.cmp af.field value ≠ [] ∧ ∃ f, S.get af.field = .ok f ∧ f.view = v := of_decide_eq_true (List.mem_filter.mp hv).2
    have key : ∀ u ∈ views, ∀ af ∈ S.filters u, ∀ us value, S.user = some us → HasAttr us af.userAttr value → value ≠ "" →
        ∀ f s, S.get af.field = .ok f → f.sql = .dimension s → ∀ i ∈ S.cmp af.field value, test i (E.value row s) = .t := by
      intro u hu af haf us value h1 h2 h3 f s hf hs i hi
      have hmem : i ∈ S.access views :=
        List.mem_flatMap.mpr ⟨u, hu, (mem_accessConditions _ _ _ _).mpr ⟨af, haf, us, value, h1, h2, h3, hi⟩⟩
      have hc := hrow i hmem
      unfold compared at hc
      rw [hfo u af haf value i hi] at hc
      have hf' : S.answers.get af.field = .ok f := hf
      rw [hf'] at hc
      simp only [hs] at hc
      unfold valueOf at hc
      rw [hs] at hc
      exact hc
    cases hg : dictGet row v with
    | none =>
      obtain ⟨u, hu, af, haf, us, value, h1, h2, h3, h4, f, hf, hfv⟩ := hRv
      obtain ⟨i, hi⟩ := List.exists_mem_of_ne_nil _ h4
      obtain ⟨f', hf', s, hs, hown⟩ := hF.known u af haf
      rw [hf] at hf'
      cases hf'
      have := key u hu af haf us value h1 h2 h3 f s hf hs i hi
      rw [hown, hfv, hg] at this
      exact absurd this (hF.null u af haf value i hi)
    | some r =>
      refine decide_eq_true ?_
      intro u hu af haf us value h1 h2 h3 f s hf hfv hs i hi
      have := key u hu af haf us value h1 h2 h3 f s hf hs i hi
      obtain ⟨f', hf', s', hs', hown⟩ := hF.known u af haf
      rw [hf] at hf'
      cases hf'
      rw [hs] at hs'
      cases hs'
      rw [hown, hfv, hg] at this
      exact this
  · refine joined_same see R hseeR db db' hshape fun v hv => ?_
    obtain ⟨p, hp, he⟩ := hdb v hv
    have : p = see v := by
      funext r
      rw [Bool.eq_iff_iff, hp]
      exact (decide_eq_true_iff).symm
    rw [← this]
    exact he

/-- One direction of the next theorem. -/
theorem same_answers_mp (S : SecProject) (w : Warehouse) (q : Question) (s : Stmt) (hs : buildStmt S.answers w q = .ok s)
    (hw : WellFormedFilters q.wheres) (E : Engine (JRow ρ)) (test : Nat → Val → TV) (hF : Filterable S E test q)
    (fromOf : List String → String × List (JoinStep ρ)) (hshape : ∀ views, BuildsFrom S q views → FromShape (fromOf views).1 (fromOf views).2)
    (db db' : String → List ρ)
    (hdb : ∀ views, BuildsFrom S q views → ∀ v ∈ (fromOf views).1 :: (fromOf views).2.map (·.tgt), SameRows (MaySeeFor S E test views v) (db v) (db' v))
    (out : List (List Val)) (h : s.Answers (joinedDb db fromOf E test) out) : s.Answers (joinedDb db' fromOf E test) out := by
  obtain ⟨views, hv, hb, hbv, hlen, hi⟩ := buildStmt_ok hs
  obtain ⟨rows, hr, ha⟩ := h
  obtain ⟨a, ha1, ha2⟩ := from_same S w E test q hF q.fieldOf (fun v af haf value i hi => (hF.numbered v af haf value i hi).1) db db' fromOf views
    (hshape views (.inl hv)) (hdb views (.inl hv))
  have hsame : ∀ (p : JRow ρ → Bool), s.block.Answers (joinedDb db fromOf E test) (((joinedDb db fromOf E test).rows views).filter p) out →
      s.block.Answers (joinedDb db' fromOf E test) (((joinedDb db' fromOf E test).rows views).filter p) out := by
    intro p hp
    refine block_same hb hw rfl rfl a ha1 ?_ hp
    rw [List.filter_comm, ha2, List.filter_comm]
  cases hg : q.groupFilters with
  | nil =>
    rw [hg, buildInCtes, Except.ok.injEq] at hi
    rw [← hi, CteRows, hbv] at hr
    subst hr
    refine ⟨(joinedDb db' fromOf E test).rows views, ?_, ?_⟩
    · rw [← hi, CteRows, hbv]
    · have := hsame (fun _ => true)
      simp only [List.filter_true] at this
      exact this ha
  | cons g gs =>
    have hgs : gs = [] := by
      rw [hg] at hlen
      cases gs with
      | nil => rfl
      | cons x xs => simp at hlen
    subst hgs
    rw [hg, buildInCtes] at hi
    cases hc : buildInCte S.answers w q g with
    | error e => rw [hc] at hi; cases hi
    | ok c =>
      rw [hc] at hi
      simp only [buildInCtes, Except.ok.injEq] at hi
      rw [← hi] at hr
      obtain ⟨hin, vs, hvs, hrest⟩ := hr
      rw [CteRows, hbv] at hrest
      subst hrest
      have hgm : g ∈ q.groupFilters := by rw [hg]; simp
      have hvals : c.Values (joinedDb db' fromOf E test) vs := by
        obtain ⟨lines, i, x, hl, hcol, hvs⟩ := hvs
        refine ⟨lines, i, x, ?_, hcol, hvs⟩
        unfold buildInCte at hc
        cases hd : S.answers.get g.groupBy with
        | error e => rw [hd] at hc; cases hc
        | ok d =>
          rw [hd] at hc
          simp only at hc
          cases hm : S.answers.get g.field with
          | error e => rw [hm] at hc; cases hc
          | ok m =>
            rw [hm] at hc
            simp only at hc
            cases hbb : buildBlock S.answers w [d.view, m.view].dedup (cteQuestion q g) with
            | error e => rw [hbb] at hc; cases hc
            | ok b =>
              rw [hbb] at hc
              simp only at hc
              have hcb : c.cte = b := by
                cases hds : d.sql with
                | dimension s => rw [hds] at hc; cases hc; rfl
                | measure m => rw [hds] at hc; cases hc
              rw [hcb] at hl ⊢
              have hbvs : b.views = [d.view, m.view].dedup := by
                obtain ⟨_, _, _, _, _, _, h, _⟩ := buildBlock_ok hbb
                exact h
              rw [hbvs] at hl ⊢
              have hbf : BuildsFrom S q [d.view, m.view].dedup := .inr ⟨g, hgm, d, m, hd, hm, rfl⟩
              obtain ⟨a', ha1', ha2'⟩ := from_same S w E test q hF (cteQuestion q g).fieldOf (fun v af haf value i hi => by
                obtain ⟨h1, h2⟩ := hF.numbered v af haf value i hi
                show (if i = g.comparison then g.field else q.fieldOf i) = af.field
                rw [if_neg (h2 g hgm), h1]) db db' fromOf [d.view, m.view].dedup (hshape _ hbf) (hdb _ hbf)
              exact block_same hbb trivial rfl rfl a' ha1' ha2' hl
      refine ⟨_, ?_, hsame (inValues E c.sql vs) ha⟩
      rw [← hi, hbv]
      refine ⟨?_, vs, hvals, rfl⟩
      rw [hbv] at hin
      exact hin

/-- C80, exactly: what the answers of a query depend on. Two warehouses whose tables have the same rows, of those let through by all access filters in force of
the views of the query's fields, give the same answers to the query, whatever their other rows are; for every user, every question with JSON filters and one
or no filter with a group_by, and every join word. A view that is only in the FROM has to be the same in full. -/
theorem C80_same_answers (S : SecProject) (w : Warehouse) (q : Question) (s : Stmt) (hs : buildStmt S.answers w q = .ok s)
    (hw : WellFormedFilters q.wheres) (E : Engine (JRow ρ)) (test : Nat → Val → TV) (hF : Filterable S E test q)
    (fromOf : List String → String × List (JoinStep ρ)) (hshape : ∀ views, BuildsFrom S q views → FromShape (fromOf views).1 (fromOf views).2)
    (db db' : String → List ρ)
    (hdb : ∀ views, BuildsFrom S q views → ∀ v ∈ (fromOf views).1 :: (fromOf views).2.map (·.tgt), SameRows (MaySeeFor S E test views v) (db v) (db' v))
    (out : List (List Val)) : s.Answers (joinedDb db fromOf E test) out ↔ s.Answers (joinedDb db' fromOf E test) out := by
  refine ⟨same_answers_mp S w q s hs hw E test hF fromOf hshape db db' hdb out,
    same_answers_mp S w q s hs hw E test hF fromOf hshape db' db (fun views hb v hv => ?_) out⟩
  obtain ⟨p, hp, he⟩ := hdb views hb v hv
  exact ⟨p, hp, he.symm⟩

/-- C80, when all views of the FROM are of fields of the query and access filters are on fields of their own view: rows that the user may not see leave no
trace. Missing: views that only connect others, and filters on fields of other views, where it is false (`C80_bridge`, `C80_filter_view`). -/
theorem C80_hidden_partial (S : SecProject) (w : Warehouse) (q : Question) (s : Stmt) (hs : buildStmt S.answers w q = .ok s)
    (hw : WellFormedFilters q.wheres) (E : Engine (JRow ρ)) (test : Nat → Val → TV) (hF : Filterable S E test q)
    (hown : ∀ v, ∀ af ∈ S.filters v, ∀ f, S.get af.field = .ok f → f.view = v)
    (fromOf : List String → String × List (JoinStep ρ)) (hshape : ∀ views, BuildsFrom S q views → FromShape (fromOf views).1 (fromOf views).2)
    (hfrom : ∀ views, BuildsFrom S q views → ∀ v ∈ (fromOf views).1 :: (fromOf views).2.map (·.tgt), v ∈ views)
    (db db' : String → List ρ) (hdb : ∀ v, SameRows (MaySee S E test v) (db v) (db' v)) (out : List (List Val)) :
    s.Answers (joinedDb db fromOf E test) out ↔ s.Answers (joinedDb db' fromOf E test) out := by
  refine C80_same_answers S w q s hs hw E test hF fromOf hshape db db' (fun views hb v hv => ?_) out
  obtain ⟨p, hp, he⟩ := hdb v
  refine ⟨p, fun r => ?_, he⟩
  rw [hp]
  constructor
  · intro h u hu af haf us value h1 h2 h3 f sql hf hfv hsql i hi
    have : u = v := by rw [← hown u af haf f hf, hfv]
    subst this
    exact h af haf us value h1 h2 h3 f sql hf hfv hsql i hi
  · intro h af haf
    exact h v (hfrom views hb v hv) af haf

/-- C80: hidden rows might as well not be there: the answers are those over the tables without them. -/
theorem C80_removed_partial (S : SecProject) (w : Warehouse) (q : Question) (s : Stmt) (hs : buildStmt S.answers w q = .ok s)
    (hw : WellFormedFilters q.wheres) (E : Engine (JRow ρ)) (test : Nat → Val → TV) (hF : Filterable S E test q)
    (hown : ∀ v, ∀ af ∈ S.filters v, ∀ f, S.get af.field = .ok f → f.view = v)
    (fromOf : List String → String × List (JoinStep ρ)) (hshape : ∀ views, BuildsFrom S q views → FromShape (fromOf views).1 (fromOf views).2)
    (hfrom : ∀ views, BuildsFrom S q views → ∀ v ∈ (fromOf views).1 :: (fromOf views).2.map (·.tgt), v ∈ views)
    (db : String → List ρ) (see : String → ρ → Bool) (hsee : ∀ v r, see v r = true ↔ MaySee S E test v r) (out : List (List Val)) :
    s.Answers (joinedDb db fromOf E test) out ↔ s.Answers (joinedDb (fun v => (db v).filter (see v)) fromOf E test) out :=
  C80_hidden_partial S w q s hs hw E test hF hown fromOf hshape hfrom db _
    (fun v => ⟨see v, hsee v, by rw [List.filter_filter]; simp⟩) out

end
end ML
