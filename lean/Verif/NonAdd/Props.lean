import Verif.NonAdd.Lemmas
/- C49: generating queries leaves the definitions of non-additive metrics unchanged, so the SQL does not depend on the history. -/
set_option autoImplicit false
namespace ML
open Spec

theorem pureCollect_from (env : NEnv) (w : String → Option Written) (ids : List String) : ∀ (ctes : List PCte) (P : PCte → Prop),
    (∀ c ∈ ctes, P c) → (∀ id ∈ ids, ∀ d, w id = some d → ∀ l a, P ⟨l, a, d.name, d.choice, d.aware, d.groups⟩) →
    ∀ c ∈ pureCollect env w ctes ids, P c := by
  induction ids with
  | nil => intro ctes P h _; exact h
  | cons id ids ih =>
    intro ctes P h hw
    refine ih _ P ?_ (fun i hi => hw i (List.mem_cons_of_mem _ hi))
    unfold pureCollectOne
    cases hd : w id with
    | none => exact h
    | some d =>
      simp only
      split
      · exact h
      · intro c hc
        simp only [List.mem_append, List.mem_singleton] at hc
        rcases hc with hc | rfl
        · exact h c hc
        · exact hw id (by simp) d hd _ _

/-- The SQL of a query as a function of the definitions as written and the names of the views. -/
def sqlAsWritten (env : NEnv) (w : String → Option Written) (views : List String) (q : NQuery) : Res NSql :=
  match pureLoop env views q.dims ((pureCollect env w [] q.metrics).insertionSort (fun a b => a.label ≤ b.label)) with
  | .error e => .error e
  | .ok l => .ok ⟨pureRender w q.metrics, l⟩

theorem private_perm (s : NStore) (l l' : List NCte) (h : Private s l) (hp : l'.Perm l) : Private s l' :=
  ⟨fun c hc => h.valid c (hp.subset hc), fun c hc => h.unheld c (hp.subset hc), (hp.filterMap _).nodup_iff.mpr h.distinct⟩

theorem runNonAdd_spec (env : NEnv) (s : NStore) (q : NQuery) (h : Loaded s) :
    Loaded (runNonAdd env s q).1 ∧ written env.view (runNonAdd env s q).1 = written env.view s ∧
    (runNonAdd env s q).1.fields.map Prod.fst = s.fields.map Prod.fst ∧
    (runNonAdd env s q).2 = sqlAsWritten env (written env.view s) (s.fields.map Prod.fst) q ∧
    ((∃ o, (runNonAdd env s q).2 = .ok o) → NoClash env s q → (runNonAdd env s q).1.fields = s.fields) := by
  have hp0 : Private s [] := ⟨by simp, by simp, by simp⟩
  obtain ⟨a1, a2, a3, a4, a5⟩ := collectAll_spec env q.metrics s [] h hp0
  obtain ⟨b1, b2, b3, b4, b5, b6⟩ := renderAll_spec env q.metrics (collectAll env s [] q.metrics).1 (collectAll env s [] q.metrics).2 a1 a4
  rw [a2] at b2 b6
  rw [a3] at b3
  rw [a5] at b5
  have hperm := List.perm_insertionSort (fun a b : NCte => a.label ≤ b.label) (collectAll env s [] q.metrics).2
  have hp := private_perm _ _ _ b4 hperm
  obtain ⟨c1, c2, c3, c4, c5⟩ := cteLoop_spec env q.dims _ _ b1 hp
  rw [b2] at c2
  rw [b3] at c3
  have habs : ((collectAll env s [] q.metrics).2.insertionSort (fun a b => a.label ≤ b.label)).map
      (absCte (renderAll env (collectAll env s [] q.metrics).1 q.metrics).1) =
      (pureCollect env (written env.view s) [] q.metrics).insertionSort (fun a b => a.label ≤ b.label) := by
    rw [List.map_insertionSort (r := fun a b : NCte => a.label ≤ b.label) (s := fun a b : PCte => a.label ≤ b.label), b5]
    · rfl
    · intro a _ b _; rfl
  rw [habs, b3] at c4
  have hfree : NoClash env s q → ∀ c ∈ (collectAll env s [] q.metrics).2.insertionSort (fun a b => a.label ≤ b.label),
      TempFree (renderAll env (collectAll env s [] q.metrics).1 q.metrics).1.fields (env.dimView c.name) (tempName c) := by
    intro hcl c hc
    rw [b3]
    have hm : absCte (renderAll env (collectAll env s [] q.metrics).1 q.metrics).1 c ∈ pureCollect env (written env.view s) [] q.metrics := by
      have e : pureCollect env (written env.view s) [] q.metrics = pureCollect env (written env.view s) ([].map (absCte s)) q.metrics := rfl
      rw [e, ← b5]
      exact List.mem_map.mpr ⟨c, hperm.subset hc, rfl⟩
    exact pureCollect_from env _ _ _ (fun p => TempFree s.fields (env.dimView p.name) (p.choice ++ "_" ++ lastPart p.name))
      (by simp) (fun id hid d hd _ _ => hcl id hid d hd) _ hm
  unfold runNonAdd sqlAsWritten
  simp only
  cases hr : cteLoop env q.dims (renderAll env (collectAll env s [] q.metrics).1 q.metrics).1
      ((collectAll env s [] q.metrics).2.insertionSort (fun a b => a.label ≤ b.label)) with
  | mk s' r =>
    rw [hr] at c1 c2 c3 c4 c5
    simp only at c1 c2 c3 c4 c5
    rw [← c4]
    cases r with
    | error e =>
      refine ⟨c1, c2, c3, rfl, ?_⟩
      rintro ⟨o, ho⟩; cases ho
    | ok l =>
      refine ⟨c1, c2, c3, by simp only [b6], ?_⟩
      intro _ hcl
      rw [c5 ⟨l, rfl⟩ (hfree hcl), b3]

/-- C49, when every list of window groupings that is given has an element: no query, answered or not, changes the non-additive
dimension of any metric. Missing: an explicitly empty list, which the code extends in place (`C49_empty_list`). -/
theorem C49_definition_partial (env : NEnv) (s : NStore) (q : NQuery) (h : Loaded s) :
    written env.view (runNonAdd env s q).1 = written env.view s ∧ Loaded (runNonAdd env s q).1 :=
  ⟨(runNonAdd_spec env s q h).2.1, (runNonAdd_spec env s q h).1⟩

/-- C49: a query that is answered leaves the fields of every view as they were, when its temporary measures have names of their
own. Missing: the code deletes a field that has such a name (`C49_removes_field`) and an exception leaves the measure behind
(`C49_leaves_field`). -/
theorem C49_fields_partial (env : NEnv) (s : NStore) (q : NQuery) (o : NSql) (h : Loaded s) (hc : NoClash env s q)
    (ho : (runNonAdd env s q).2 = .ok o) : (runNonAdd env s q).1.fields = s.fields :=
  (runNonAdd_spec env s q h).2.2.2.2 ⟨o, ho⟩ hc

/-- C49: the same query gives the same SQL, or the same error, however many queries came before; and after them all the
definitions and the fields are as they were. -/
theorem C49_history_partial (env : NEnv) (s : NStore) (qs : List NQuery) (q : NQuery) (h : Loaded s)
    (ha : Answered env s qs) (hc : ∀ p ∈ qs, NoClash env s p) :
    (runNonAdd env (runHistory env s qs) q).2 = (runNonAdd env s q).2 ∧
    written env.view (runHistory env s qs) = written env.view s ∧ (runHistory env s qs).fields = s.fields := by
  have key : ∀ (qs : List NQuery) (s : NStore), Loaded s → Answered env s qs → (∀ p ∈ qs, NoClash env s p) →
      Loaded (runHistory env s qs) ∧ written env.view (runHistory env s qs) = written env.view s ∧ (runHistory env s qs).fields = s.fields := by
    intro qs
    induction qs with
    | nil => intro s h _ _; exact ⟨h, rfl, rfl⟩
    | cons p ps ih =>
      intro s h ha hc
      obtain ⟨r1, r2, _, _, r5⟩ := runNonAdd_spec env s p h
      have hf := r5 ha.1 (hc p (by simp))
      obtain ⟨k1, k2, k3⟩ := ih _ r1 ha.2 (by
        intro p' hp' id hid w hw
        rw [r2] at hw
        rw [hf]
        exact hc p' (List.mem_cons_of_mem _ hp') id hid w hw)
      exact ⟨k1, k2.trans r2, k3.trans hf⟩
  obtain ⟨k1, k2, k3⟩ := key qs s h ha hc
  refine ⟨?_, k2, k3⟩
  rw [(runNonAdd_spec env _ q k1).2.2.2.1, (runNonAdd_spec env s q h).2.2.2.1, k2, k3]

/-- C49: the answer does not depend on the history even when queries of the history failed, as long as the views are the same:
the SQL is a function of the definitions as written. -/
theorem C49_as_written (env : NEnv) (s s' : NStore) (q : NQuery) (h : Loaded s) (h' : Loaded s')
    (hw : written env.view s = written env.view s') (hf : s.fields.map Prod.fst = s'.fields.map Prod.fst) :
    (runNonAdd env s q).2 = (runNonAdd env s' q).2 := by
  rw [(runNonAdd_spec env s q h).2.2.2.1, (runNonAdd_spec env s' q h').2.2.2.1, hw, hf]

/-! ### Concrete cases -/

def nEnv : NEnv where
  view := fun _ => "accounts"
  metricName := fun id => if id = "accounts.balance" then "balance" else "users"
  dimView := fun _ => "accounts"
  variation := fun _ _ => false
  nested := fun c _ => if c = "cte_users_day" then .error .query else .ok ()

/-- The balance of accounts at the latest day per region; the number of users at the latest day. -/
def nStore (groups : List String) (fields : List String) : NStore where
  heap := [groups]
  defs := fun id => if id = "accounts.balance" then some ⟨"day", "max", true, some 0⟩
    else if id = "accounts.users" then some ⟨"accounts.day", "max", true, none⟩ else none
  fields := [("accounts", fields)]

theorem nStore_loaded (g : String) (fields : List String) : Loaded (nStore [g] fields) := by
  refine ⟨?_, ?_⟩
  · intro id d a hd ha
    simp only [nStore] at hd ⊢
    split at hd
    · injection hd with hd; subst hd; injection ha with ha; subst ha; exact ⟨[g], rfl, by simp⟩
    · split at hd
      · injection hd with hd; subst hd; cases ha
      · cases hd
  · intro id d id' d' a hd hd' ha ha'
    simp only [nStore] at hd hd'
    split at hd
    · rename_i h1
      split at hd'
      · rename_i h2; rw [h1, h2]
      · split at hd'
        · injection hd' with hd'; subst hd'; cases ha'
        · cases hd'
    · split at hd
      · injection hd with hd; subst hd; cases ha
      · cases hd

/-- The hypotheses of the theorems hold for a metric with a grouping, and the query has a subquery by region and product. -/
example : Loaded (nStore ["region"] ["day", "region"]) ∧ NoClash nEnv (nStore ["region"] ["day", "region"]) ⟨["accounts.balance"], ["accounts.Product"]⟩ ∧
    (runNonAdd nEnv (nStore ["region"] ["day", "region"]) ⟨["accounts.balance"], ["accounts.Product"]⟩).2 =
      .ok ⟨[⟨"accounts.balance", "accounts.day", "max", ["accounts.region"]⟩], [("cte_balance_day", ["accounts.region", "accounts.product"])]⟩ := by
  refine ⟨nStore_loaded _ _, ?_, by decide +kernel⟩
  intro id hid w hw p hp _ f hf
  simp only [List.mem_singleton] at hid
  subst hid
  simp only [nStore, List.mem_singleton] at hp
  subst hp
  simp only [written, nStore, if_true, Option.map_some, Option.some.injEq] at hw
  subst hw
  simp only [List.mem_cons, List.not_mem_nil, or_false] at hf
  rcases hf with rfl | rfl <;> decide +kernel

/-- C49 fails for an explicitly empty list: after one query by product, the same query without dimensions gives other SQL. -/
theorem C49_empty_list :
    (runNonAdd nEnv (nStore [] []) ⟨["accounts.balance"], []⟩).2 =
      .ok ⟨[⟨"accounts.balance", "accounts.day", "max", []⟩], [("cte_balance_day", [])]⟩ ∧
    (runNonAdd nEnv (runHistory nEnv (nStore [] []) [⟨["accounts.balance"], ["accounts.product"]⟩]) ⟨["accounts.balance"], []⟩).2 =
      .ok ⟨[⟨"accounts.balance", "accounts.day", "max", ["accounts.product"]⟩], [("cte_balance_day", ["accounts.product"])]⟩ := by
  decide +kernel

/-- C49 fails for a view with a field that has the name of the temporary measure: the query deletes the field. -/
theorem C49_removes_field :
    (runNonAdd nEnv (nStore ["region"] ["day", "max_day"]) ⟨["accounts.balance"], []⟩).1.fields = [("accounts", ["day"])] := by
  decide +kernel

/-- C49 fails when the subquery raises: the temporary measure stays in the view. -/
theorem C49_leaves_field :
    (runNonAdd nEnv (nStore ["region"] ["day"]) ⟨["accounts.users"], []⟩).1.fields = [("accounts", ["day", "max_day"])] ∧
    (runNonAdd nEnv (nStore ["region"] ["day"]) ⟨["accounts.users"], []⟩).2 = .error .query := by
  decide +kernel

/-- The name of the extreme value in the subquery of a metric. -/
example : nonAddAlias nEnv "accounts.balance" "max" "accounts.Day" = nEnv.view "accounts.balance" ++ "_max_day" ∧
    nEnv.view "accounts.balance" = "accounts" := by decide +kernel

end ML
