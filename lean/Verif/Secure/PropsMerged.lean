import Verif.Secure.PropsEx
import Verif.MergeWhole.PropsRowsEx
/-
C80 for merged queries.
-/
set_option autoImplicit false
namespace ML
open Spec

theorem mem_dictSet {V : Type} {d : List (String × V)} {k : String} {v : V} {x : String × V} (h : x ∈ dictSet d k v) : x ∈ d ∨ x = (k, v) := by
  induction d with
  | nil =>
    simp only [dictSet, List.mem_singleton] at h
    exact .inr h
  | cons y d ih =>
    obtain ⟨k', v'⟩ := y
    rw [dictSet] at h
    split at h
    · rename_i hk
      rcases List.mem_cons.mp h with h | h
      · exact .inr (by rw [h, hk])
      · exact .inl (by simp [h])
    · rcases List.mem_cons.mp h with h | h
      · exact .inl (by simp [h])
      · rcases ih h with h | h
        · exact .inl (by simp [h])
        · exact .inr h

theorem writeSubs_written {Q : Type} {write : SubAsk → Res (Q × Warehouse)} {plan : Plan} {lookup : List (String × String)} {hs : List String}
    {acc r : List String × List (String × Q) × Option Warehouse} (h : writeSubs write plan lookup hs acc = .ok r)
    (hacc : ∀ n s, (n, s) ∈ acc.2.1 → ∃ a w, write a = .ok (s, w)) : ∀ n s, (n, s) ∈ r.2.1 → ∃ a w, write a = .ok (s, w) := by
  induction hs generalizing acc with
  | nil => cases h; exact hacc
  | cons k hs ih =>
    rw [writeSubs] at h
    cases ha : subAsk plan k with
    | error e => rw [ha] at h; cases h
    | ok a =>
      rw [ha] at h
      simp only at h
      cases hw : write a with
      | error e => rw [hw] at h; cases h
      | ok sw =>
        obtain ⟨s, w⟩ := sw
        rw [hw] at h
        simp only at h
        cases hr : readable lookup k with
        | error e => rw [hr] at h; cases h
        | ok n =>
          rw [hr] at h
          refine ih h fun n' s' hm => ?_
          rcases mem_dictSet hm with hm | hm
          · exact hacc n' s' hm
          · cases hm
            exact ⟨a, w, hw⟩

theorem queries_written {Q : Type} {write : SubAsk → Res (Q × Warehouse)} {env : PlanEnv} {funnel : Bool} {metrics having dimensions : List String}
    {wheres : List MWhere} {semicolon : Bool} {c : MergedConfig Q}
    (h : resolveMerged write env funnel metrics having dimensions wheres semicolon = .ok c) (n : String) (s : Q) (hm : (n, s) ∈ c.queries) :
    ∃ a w, write a = .ok (s, w) := by
  unfold resolveMerged at h
  split at h
  · cases h
  · cases hp : derivePlan env metrics having dimensions wheres with
    | error e => rw [hp] at h; cases h
    | ok plan =>
      rw [hp] at h
      simp only [mergedConfig] at h
      cases hw : writeSubs write plan (readabilityLookup (joinHashes plan)) (joinHashes plan) ([], [], none) with
      | error e => rw [hw] at h; cases h
      | ok r =>
        obtain ⟨names, queries, w⟩ := r
        rw [hw] at h
        simp only at h
        repeat' split at h
        all_goals first | (cases h; done) | skip
        cases h
        exact writeSubs_written hw (by rintro n s ⟨⟩) n s hm

section
variable {ρ : Type}

/-- One direction of the next theorem. -/
theorem merged_same_mp (S : SecProject) (w : Warehouse) (conds : List MWhere → List FObj × List String) (condField : ℕ → String) (force : Bool)
    (env : PlanEnv) (metrics having dimensions : List String) (wheres : List MWhere) (semicolon : Bool) (c : MergedConfig Stmt)
    (h : resolveMerged (writeSub S.answers w conds condField force) env false metrics having dimensions wheres semicolon = .ok c)
    (hw : ∀ ws, WellFormedFilters (conds ws).1) (E : Engine (JRow ρ)) (test : Nat → Val → TV)
    (hF : ∀ q : Question, q.fieldOf = condField → q.groupFilters = [] → Filterable S E test q)
    (fromOf : List String → String × List (JoinStep ρ)) (hshape : ∀ views, FromShape (fromOf views).1 (fromOf views).2)
    (db db' : String → List ρ)
    (hdb : ∀ views, ∀ v ∈ (fromOf views).1 :: (fromOf views).2.map (·.tgt), SameRows (MaySeeFor S E test views v) (db v) (db' v))
    (columns : String → List String) (tables : String → List (MRow ℚ))
    (ht : ∀ n s, (n, s) ∈ c.queries → ∃ o, s.Answers (joinedDb db fromOf E test) o ∧ tables n = o.map (namedRow (columns n))) :
    ∀ n s, (n, s) ∈ c.queries → ∃ o, s.Answers (joinedDb db' fromOf E test) o ∧ tables n = o.map (namedRow (columns n)) := by
  intro n s hm
  obtain ⟨o, ho, hn⟩ := ht n s hm
  refine ⟨o, ?_, hn⟩
  obtain ⟨a, w', ha⟩ := queries_written h n s hm
  unfold writeSub at ha
  cases hb : buildStmt S.answers w (subQuestion a.metrics a.dimensions (conds a.wheres).1 (conds a.wheres).2 condField force) with
  | error e => rw [hb] at ha; cases ha
  | ok s' =>
    rw [hb] at ha
    cases ha
    exact (C80_same_answers S w _ s hb (hw a.wheres) E test (hF _ rfl rfl) fromOf (fun views _ => hshape views) db db' (fun views _ => hdb views) o).mp ho

/-- C80 for merged queries: if two warehouses agree on the rows let through by the access filters, the tables that the sub-queries of a merged query may return
are the same for both, and so are the answers to the merged statement. -/
theorem C80_merged (S : SecProject) (w : Warehouse) (conds : List MWhere → List FObj × List String) (condField : ℕ → String) (force : Bool)
    (env : PlanEnv) (metrics having dimensions : List String) (wheres : List MWhere) (semicolon : Bool) (c : MergedConfig Stmt)
    (h : resolveMerged (writeSub S.answers w conds condField force) env false metrics having dimensions wheres semicolon = .ok c)
    (hw : ∀ ws, WellFormedFilters (conds ws).1) (E : Engine (JRow ρ)) (test : Nat → Val → TV)
    (hF : ∀ q : Question, q.fieldOf = condField → q.groupFilters = [] → Filterable S E test q)
    (fromOf : List String → String × List (JoinStep ρ)) (hshape : ∀ views, FromShape (fromOf views).1 (fromOf views).2)
    (db db' : String → List ρ)
    (hdb : ∀ views, ∀ v ∈ (fromOf views).1 :: (fromOf views).2.map (·.tgt), SameRows (MaySeeFor S E test views v) (db v) (db' v))
    (columns : String → List String) (s : MStmt) (W : MWarehouse ℚ) (out : List (List Val)) :
    (∃ tables : String → List (MRow ℚ), s.Answers W tables out ∧
      ∀ n st, (n, st) ∈ c.queries → ∃ o, st.Answers (joinedDb db fromOf E test) o ∧ tables n = o.map (namedRow (columns n))) ↔
    (∃ tables : String → List (MRow ℚ), s.Answers W tables out ∧
      ∀ n st, (n, st) ∈ c.queries → ∃ o, st.Answers (joinedDb db' fromOf E test) o ∧ tables n = o.map (namedRow (columns n))) := by
  constructor
  · rintro ⟨tables, h1, h2⟩
    exact ⟨tables, h1, merged_same_mp S w conds condField force env metrics having dimensions wheres semicolon c h hw E test hF fromOf hshape db db' hdb
      columns tables h2⟩
  · rintro ⟨tables, h1, h2⟩
    refine ⟨tables, h1, merged_same_mp S w conds condField force env metrics having dimensions wheres semicolon c h hw E test hF fromOf hshape db' db ?_
      columns tables h2⟩
    intro views v hv
    obtain ⟨p, hp, he⟩ := hdb views v hv
    exact ⟨p, hp, he.symm⟩

end

/-- The project of the example of C78 with an access filter on the regions of orders (an example; it models no file in /repo). -/
def zSec : SecProject :=
  ⟨zP.get, zP.fpk, fun v => if v = "orders" then [⟨"orders.region", "region"⟩] else [], some [("region", some "1")], fun _ _ => [0]⟩

/-- (an example; it models no file in /repo) -/
def zSecE : Engine (JRow ℚ) := ⟨fun row _ => dictGet row "orders", fun _ => 0⟩

/-- (an example; it models no file in /repo) -/
def zSecTest (_ : Nat) (v : Val) : TV :=
  match v with
  | none => .u
  | some x => if x = 1 then .t else .f

/-- The hypotheses of C80_merged are met: a merged query of orders and sessions is resolved for the user of region 1, orders are filtered, and the tables may
differ in all orders of other regions. -/
example : ∃ c, resolveMerged (writeSub zSec.answers .snowflake zConds zCondField false) zEnv false zMetrics zHaving zDims
      [.cond "orders.region" "= north"] true = .ok c ∧ c.queries.length = 2 ∧ (∀ ws, WellFormedFilters (zConds ws).1) ∧
    (∀ q : Question, q.fieldOf = zCondField → q.groupFilters = [] → Filterable zSec zSecE zSecTest q) ∧
    ∃ (fromOf : List String → String × List (JoinStep ℚ)) (db db' : String → List ℚ), (∀ views, FromShape (fromOf views).1 (fromOf views).2) ∧
      (∀ views, ∀ v ∈ (fromOf views).1 :: (fromOf views).2.map (·.tgt), SameRows (MaySeeFor zSec zSecE zSecTest views v) (db v) (db' v)) ∧
      db "orders" = [1, 2, 3] ∧ db' "orders" = [2, 1] := by
  have hc : ∃ c, resolveMerged (writeSub zSec.answers .snowflake zConds zCondField false) zEnv false zMetrics zHaving zDims
      [.cond "orders.region" "= north"] true = .ok c ∧ c.queries.length = 2 := by
    have h1 : (match resolveMerged (writeSub zSec.answers .snowflake zConds zCondField false) zEnv false zMetrics zHaving zDims
      [.cond "orders.region" "= north"] true with
      | .ok c => c.queries.length
      | .error _ => 0) = 2 := by decide +kernel
    cases hr : resolveMerged (writeSub zSec.answers .snowflake zConds zCondField false) zEnv false zMetrics zHaving zDims
      [.cond "orders.region" "= north"] true with
    | error e => rw [hr] at h1; cases h1
    | ok c => rw [hr] at h1; exact ⟨c, rfl, h1⟩
  have hfl : ∀ v, ∀ af ∈ zSec.filters v, v = "orders" ∧ af = ⟨"orders.region", "region"⟩ := by
    intro v af haf
    by_cases h : v = "orders"
    · have : zSec.filters v = [⟨"orders.region", "region"⟩] := if_pos h
      rw [this, List.mem_singleton] at haf
      exact ⟨h, haf⟩
    · have : zSec.filters v = [] := if_neg h
      rw [this] at haf
      cases haf
  have hget : zSec.get "orders.region" = .ok (zFld dRegion) := by decide +kernel
  obtain ⟨c, h1, h2⟩ := hc
  refine ⟨c, h1, h2, fun ws => ?_, fun q hq hg => ⟨fun v af haf => ?_, fun v af haf value i hi => ?_, fun v af haf value i hi => ?_⟩,
    fun views => (views.headD "none", []), fun v => if v = "orders" then [1, 2, 3] else [], fun v => if v = "orders" then [2, 1] else [],
    fun views => ⟨by simp, by simp, by simp⟩, fun views v hv => ?_, rfl, rfl⟩
  · unfold zConds
    split
    · exact ⟨trivial, trivial⟩
    · trivial
  · obtain ⟨rfl, rfl⟩ := hfl v af haf
    refine ⟨_, hget, _, rfl, fun row => ?_⟩
    show dictGet row "orders" = (dictGet row "orders").bind (fun r => dictGet [("orders", r)] "orders")
    cases dictGet row "orders" <;> simp [dictGet]
  · exact fun h => TV.noConfusion h
  · obtain ⟨rfl, rfl⟩ := hfl v af haf
    have : i = 0 := List.mem_singleton.mp hi
    subst this
    rw [hq, hg]
    exact ⟨rfl, by simp⟩
  · classical
    refine ⟨fun r => decide (MaySeeFor zSec zSecE zSecTest views v r), fun r => decide_eq_true_iff, ?_⟩
    have hv : v = views.headD "none" := by simpa using hv
    by_cases ho : v = "orders"
    · have hin : "orders" ∈ views := by
        cases views with
        | nil => rw [hv] at ho; exact absurd ho (by decide)
        | cons x xs =>
          have : v = x := hv
          rw [← ho, this]
          simp
      have hsee : ∀ r : ℚ, MaySeeFor zSec zSecE zSecTest views v r ↔ r = 1 := by
        intro r
        constructor
        · intro h
          have := h "orders" hin ⟨"orders.region", "region"⟩ (by simp [zSec]) _ "1" rfl ⟨[], [], rfl, by simp⟩ (by decide) _ _ hget ho.symm rfl 0 (by simp [zSec])
          subst ho
          have h' : zSecTest 0 (some r) = .t := by
            have e : zSecE.value [("orders", r)] = fun _ => some r := by
              funext s
              simp [zSecE, dictGet]
            rw [e] at this
            exact this
          unfold zSecTest at h'
          by_contra hne
          simp only [hne, if_false] at h'
          cases h'
        · rintro rfl u hu af haf us value _ _ _ f s hf _ hs i hi
          subst ho
          show zSecTest i (zSecE.value [("orders", 1)] s) = .t
          have e : zSecE.value [("orders", 1)] s = some 1 := by simp [zSecE, dictGet]
          rw [e]
          simp [zSecTest]
      simp only [hsee, if_pos ho]
      decide +kernel
    · simp only [if_neg ho]

end ML
