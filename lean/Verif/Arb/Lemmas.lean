import Verif.Arb.Spec
import Mathlib.Data.List.Forall2
set_option autoImplicit false
namespace ML
open Spec

theorem cleanJoin_ok_iff (js : List JoinArg) :
    (∃ ks, cleanJoin js = .ok ks) ↔ ∀ j ∈ js, ∃ f s, j = .dict (.str f) (.str s) := by
  induction js with
  | nil => simp [cleanJoin]
  | cons j js ih =>
    rw [List.forall_mem_cons, ← ih]
    cases j with
    | notDict e => simp [cleanJoin]
    | dict f s =>
      cases f with
      | missing => simp [cleanJoin]
      | notStr => simp [cleanJoin]
      | str f =>
        cases s with
        | missing => simp [cleanJoin]
        | notStr => simp [cleanJoin]
        | str s =>
          cases h : cleanJoin js with
          | error e => simp [cleanJoin, h]
          | ok ks => simp [cleanJoin, h]

theorem cleanMerge_ok_iff (i : ℕ) (item : MergeItem) : (∃ q, cleanMerge i item = .ok q) ↔ WellFormedItem i item := by
  unfold WellFormedItem
  cases item with
  | notDict => simp [cleanMerge]
  | dict a =>
    obtain ⟨m, d, fu, j, t, r⟩ := a
    cases m with
    | missing => simp [cleanMerge]
    | notList => simp [cleanMerge]
    | list ms =>
      cases d with
      | missing => simp [cleanMerge]
      | notList => simp [cleanMerge]
      | list ds =>
        cases fu with
        | true => simp [cleanMerge]
        | false =>
          cases j with
          | notList => simp [cleanMerge]
          | missing =>
            rcases Nat.eq_zero_or_pos i with rfl | hi
            · simp [cleanMerge]
            · simp [cleanMerge, hi]
          | list js =>
            rcases Nat.eq_zero_or_pos i with rfl | hi
            · simp [cleanMerge]
            · by_cases hjs : js = []
              · simp [cleanMerge, hi, hjs]
              · have := cleanJoin_ok_iff js
                cases hc : cleanJoin js with
                | error e =>
                  rw [hc] at this
                  simp only [cleanMerge, hi, hjs, hc, if_true, if_false, Bool.false_eq_true]
                  constructor
                  · rintro ⟨_, h⟩; cases h
                  · rintro ⟨a, ms', ds', ha, _, _, _, _, h⟩
                    injection ha with ha; subst ha
                    obtain ⟨js', h1, _, h3⟩ := h trivial
                    injection h1 with h1; subst h1
                    obtain ⟨ks, h⟩ := this.mpr h3
                    cases h
                | ok ks =>
                  simp only [cleanMerge, hi, hjs, hc, if_true, if_false, Bool.false_eq_true]
                  refine ⟨fun _ => ⟨_, ms, ds, rfl, rfl, rfl, rfl, by simp, fun _ => ⟨js, rfl, hjs, this.mp ⟨ks, hc⟩⟩⟩, fun _ => ⟨_, rfl⟩⟩

theorem cleanMergesFrom_ok_iff (items : List MergeItem) : ∀ i, (∃ qs, cleanMergesFrom i items = .ok qs) ↔
    ∀ j item, items[j]? = some item → WellFormedItem (i + j) item := by
  induction items with
  | nil => intro i; simp [cleanMergesFrom]
  | cons it its ih =>
    intro i
    have hc := cleanMerge_ok_iff i it
    have hr := ih (i + 1)
    constructor
    · rintro ⟨qs, h⟩ j item hj
      simp only [cleanMergesFrom] at h
      cases h1 : cleanMerge i it with
      | error e => rw [h1] at h; cases h
      | ok c =>
        rw [h1] at h
        cases h2 : cleanMergesFrom (i + 1) its with
        | error e => rw [h2] at h; cases h
        | ok cs =>
          cases j with
          | zero => simp only [List.getElem?_cons_zero, Option.some.injEq] at hj; subst hj; exact hc.mp ⟨c, h1⟩
          | succ j =>
            simp only [List.getElem?_cons_succ] at hj
            have := hr.mp ⟨cs, h2⟩ j item hj
            rwa [show i + 1 + j = i + (j + 1) by omega] at this
    · intro h
      obtain ⟨c, h1⟩ := hc.mpr (h 0 it rfl)
      obtain ⟨cs, h2⟩ := hr.mpr (fun j item hj => by
        have := h (j + 1) item hj
        rwa [show i + (j + 1) = i + 1 + j by omega] at this)
      exact ⟨c :: cs, by simp only [cleanMergesFrom, h1, h2]⟩

theorem joinKeyName_ok {env : ArbEnv} {r : SubRes} {name col : String} (h : joinKeyName env r name = .ok col) :
    NamesDimension env r name col := by
  unfold joinKeyName at h
  cases hm : dictGet r.mappings name with
  | some fields =>
    rw [hm] at h
    simp only at h
    cases hf : fields.find? (fun f => decide (f ∈ r.dimensions)) with
    | none => rw [hf] at h; cases h
    | some f =>
      rw [hf] at h
      injection h with h; subst h
      exact Or.inl ⟨fields, hm, List.mem_of_find?_eq_some hf, by simpa using List.find?_some hf⟩
  | none =>
    rw [hm] at h
    simp only at h
    cases hg : env.get name with
    | error e => rw [hg] at h; cases e <;> cases h
    | ok f =>
      rw [hg] at h
      simp only at h
      split at h
      · rename_i hin
        injection h with h; subst h
        obtain ⟨d, hd, he⟩ := List.mem_map.mp hin
        exact Or.inr ⟨hm, rfl, f, d, hg, hd, he⟩
      · cases h

theorem joinKeyName_of {env : ArbEnv} {r : SubRes} {name col : String} (h : NamesDimension env r name col) :
    ∃ c, joinKeyName env r name = .ok c := by
  unfold joinKeyName
  rcases h with ⟨fields, hm, hc, hd⟩ | ⟨hm, rfl, f, d, hg, hd, he⟩
  · rw [hm]
    simp only
    cases hf : fields.find? (fun f => decide (f ∈ r.dimensions)) with
    | some f => exact ⟨f, rfl⟩
    | none =>
      have := List.find?_eq_none.mp hf col hc
      simp only [decide_eq_true_eq] at this
      exact absurd hd this
  · rw [hm, hg]
    simp only
    have hin : f.id ∈ List.map (fun d => (dictGet r.ids d).getD d) r.dimensions := List.mem_map.mpr ⟨d, hd, he⟩
    rw [if_pos hin]
    exact ⟨_, rfl⟩

theorem joinKeys_ok {env : ArbEnv} {p r : SubRes} : ∀ {ks js : List JoinKey}, joinKeys env p r ks = .ok js →
    List.Forall₂ (fun k j => NamesDimension env r k.field j.field ∧ NamesDimension env p k.source j.source) ks js := by
  intro ks
  induction ks with
  | nil => intro js h; injection h with h; subst h; exact .nil
  | cons k ks ih =>
    intro js h
    simp only [joinKeys] at h
    cases h1 : joinKeyName env r k.field with
    | error e => rw [h1] at h; cases h
    | ok f =>
      rw [h1] at h; simp only at h
      cases h2 : joinKeyName env p k.source with
      | error e => rw [h2] at h; cases h
      | ok s =>
        rw [h2] at h; simp only at h
        cases h3 : joinKeys env p r ks with
        | error e => rw [h3] at h; cases h
        | ok js' =>
          rw [h3] at h
          injection h with h; subst h
          exact .cons ⟨joinKeyName_ok h1, joinKeyName_ok h2⟩ (ih h3)

theorem aliasesOf_mem {env : ArbEnv} : ∀ {ns as : List String}, aliasesOf env ns = .ok as → ∀ a, a ∈ as ↔
    ∃ n ∈ ns, ∃ f, env.get n = .ok f ∧ f.aliasName = a := by
  intro ns
  induction ns with
  | nil => intro as h; injection h with h; subst h; simp
  | cons n ns ih =>
    intro as h a
    simp only [aliasesOf] at h
    cases h1 : env.get n with
    | error e => rw [h1] at h; cases h
    | ok f =>
      rw [h1] at h; simp only at h
      cases h2 : aliasesOf env ns with
      | error e => rw [h2] at h; cases h
      | ok as' =>
        rw [h2] at h
        injection h with h; subst h
        rw [List.mem_cons, ih h2 a, List.exists_mem_cons_iff]
        constructor
        · rintro (rfl | h)
          · exact Or.inl ⟨f, h1, rfl⟩
          · exact Or.inr h
        · rintro (⟨g, hg, rfl⟩ | h)
          · rw [h1] at hg; injection hg with hg; subst hg; exact Or.inl rfl
          · exact Or.inr h

theorem pick_spec (cte : String) : ∀ (as seen : List String),
    (∀ a, a ∈ (pickColumns cte seen as).2 ↔ a ∈ seen ∨ a ∈ as) ∧
    (∀ c a, (c, a) ∈ (pickColumns cte seen as).1 ↔ c = cte ∧ a ∈ as ∧ a ∉ seen) ∧
    ((pickColumns cte seen as).1.map (·.2)).Nodup := by
  intro as
  induction as with
  | nil => intro seen; simp [pickColumns]
  | cons x xs ih =>
    intro seen
    unfold pickColumns
    by_cases hx : x ∈ seen
    · rw [if_pos hx]
      obtain ⟨h1, h2, h3⟩ := ih seen
      refine ⟨fun a => ?_, fun c a => ?_, h3⟩
      · rw [h1, List.mem_cons]
        constructor
        · rintro (h | h) <;> simp [h]
        · rintro (h | rfl | h)
          · exact Or.inl h
          · exact Or.inl hx
          · exact Or.inr h
      · rw [h2, List.mem_cons]
        constructor
        · rintro ⟨h, h', h''⟩; exact ⟨h, Or.inr h', h''⟩
        · rintro ⟨h, rfl | h', h''⟩
          · exact absurd hx h''
          · exact ⟨h, h', h''⟩
    · rw [if_neg hx]
      obtain ⟨h1, h2, h3⟩ := ih (seen ++ [x])
      refine ⟨fun a => ?_, fun c a => ?_, ?_⟩
      · show a ∈ (pickColumns cte (seen ++ [x]) xs).2 ↔ _
        rw [h1, List.mem_append, List.mem_singleton, List.mem_cons, or_assoc]
      · show (c, a) ∈ (cte, x) :: (pickColumns cte (seen ++ [x]) xs).1 ↔ _
        rw [List.mem_cons, h2, List.mem_append, List.mem_singleton, List.mem_cons, Prod.mk.injEq]
        constructor
        · rintro (⟨rfl, rfl⟩ | ⟨h, h', h''⟩)
          · exact ⟨rfl, Or.inl rfl, hx⟩
          · exact ⟨h, Or.inr h', fun h => h'' (Or.inl h)⟩
        · rintro ⟨h, rfl | h', h''⟩
          · exact Or.inl ⟨h, rfl⟩
          · by_cases hax : a = x
            · exact Or.inl ⟨h, hax⟩
            · exact Or.inr ⟨h, h', by rintro (h | h); exacts [h'' h, hax h]⟩
      · show ((cte, x).2 :: (pickColumns cte (seen ++ [x]) xs).1.map (·.2)).Nodup
        rw [List.nodup_cons]
        refine ⟨?_, h3⟩
        rw [List.mem_map]
        rintro ⟨⟨c, a⟩, hm, rfl⟩
        have := ((h2 c a).mp hm).2.2
        exact this (by simp)

theorem select_spec {env : ArbEnv} : ∀ {subs : List SubQ} {seen : List String} {cols : List (String × String)},
    selectColumns env seen subs = .ok cols →
    (cols.map (·.2)).Nodup ∧ ∀ c a, (c, a) ∈ cols ↔ a ∉ seen ∧ ∃ i s, ShowsAt env subs i s a ∧ s.cte = c := by
  intro subs
  induction subs with
  | nil =>
    intro seen cols h
    injection h with h; subst h
    refine ⟨List.nodup_nil, fun c a => ?_⟩
    simp [ShowsAt]
  | cons q qs ih =>
    intro seen cols h
    simp only [selectColumns] at h
    cases h1 : aliasesOf env (q.joinFields.map (·.field)) with
    | error e => rw [h1] at h; cases h
    | ok js =>
      rw [h1] at h; simp only at h
      cases h2 : aliasesOf env (q.metrics ++ q.dimensions) with
      | error e => rw [h2] at h; cases h
      | ok as =>
        rw [h2] at h; simp only at h
        obtain ⟨p1, p2, p3⟩ := pick_spec q.cte as (seen ++ js)
        cases h3 : selectColumns env (pickColumns q.cte (seen ++ js) as).2 qs with
        | error e => rw [h3] at h; cases h
        | ok cols' =>
          rw [h3] at h
          injection h with h; subst h
          obtain ⟨r1, r2⟩ := ih h3
          have hjs : ∀ a, a ∈ js ↔ JoinsOn env q a := by
            intro a
            rw [aliasesOf_mem h1 a]
            constructor
            · rintro ⟨n, hn, f, hf⟩
              obtain ⟨k, hk, rfl⟩ := List.mem_map.mp hn
              exact ⟨k, hk, f, hf⟩
            · rintro ⟨k, hk, f, hf⟩
              exact ⟨_, List.mem_map.mpr ⟨k, hk, rfl⟩, f, hf⟩
          have has : ∀ a, a ∈ as ↔ Produces env q a := aliasesOf_mem h2
          refine ⟨?_, ?_⟩
          · rw [List.map_append, List.nodup_append]
            refine ⟨p3, r1, ?_⟩
            intro a ha b hb
            obtain ⟨⟨c, x⟩, hx, rfl⟩ := List.mem_map.mp ha
            obtain ⟨⟨c', y⟩, hy, rfl⟩ := List.mem_map.mp hb
            have h4 := (p2 _ _).mp hx
            have h5 := ((r2 _ _).mp hy).1
            rintro rfl
            exact h5 ((p1 _).mpr (Or.inr h4.2.1))
          · intro c a
            rw [List.mem_append, p2, r2, p1, List.mem_append, has, hjs]
            constructor
            · rintro (⟨rfl, hp, hs⟩ | ⟨hs, i, s, ⟨hi, hp, hb, hj⟩, rfl⟩)
              · refine ⟨fun h => hs (Or.inl h), 0, q, ⟨rfl, hp, ?_, ?_⟩, rfl⟩
                · intro j t hj; omega
                · intro j t hj ht
                  obtain rfl : j = 0 := by omega
                  injection ht with ht; subst ht
                  exact fun h => hs (Or.inr h)
              · refine ⟨fun h => hs (Or.inl (Or.inl h)), i + 1, s, ⟨hi, hp, ?_, ?_⟩, rfl⟩
                · intro j t hji ht
                  cases j with
                  | zero => injection ht with ht; subst ht; exact fun h => hs (Or.inr h)
                  | succ j => exact hb j t (by omega) ht
                · intro j t hji ht
                  cases j with
                  | zero => injection ht with ht; subst ht; exact fun h => hs (Or.inl (Or.inr h))
                  | succ j => exact hj j t (by omega) ht
            · rintro ⟨hs, i, s, ⟨hi, hp, hb, hj⟩, rfl⟩
              cases i with
              | zero =>
                injection hi with hi; subst hi
                exact Or.inl ⟨rfl, hp, by rintro (h | h); exacts [hs h, hj 0 _ (Nat.le_refl 0) rfl h]⟩
              | succ i =>
                refine Or.inr ⟨?_, i, s, ⟨hi, hp, ?_, ?_⟩, rfl⟩
                · rintro ((h | h) | h)
                  · exact hs h
                  · exact hj 0 q (Nat.zero_le _) rfl h
                  · exact hb 0 q (Nat.succ_pos _) rfl h
                · intro j t hji ht
                  exact hb (j + 1) t (by omega) ht
                · intro j t hji ht
                  exact hj (j + 1) t (by omega) ht

theorem useColumn_ok {env : ArbEnv} {cols : List (String × String)} {n : String} {c : String × String}
    (h : useColumn env cols n = .ok c) : c ∈ cols ∧ ∃ f, env.get n = .ok f ∧ c.2 = f.aliasName := by
  unfold useColumn at h
  cases hg : env.get n with
  | error e => rw [hg] at h; cases h
  | ok f =>
    rw [hg] at h; simp only at h
    cases hf : cols.find? (fun c => decide (c.2 = f.aliasName)) with
    | none => rw [hf] at h; cases h
    | some c' =>
      rw [hf] at h
      injection h with h; subst h
      exact ⟨List.mem_of_find?_eq_some hf, f, rfl, by simpa using List.find?_some hf⟩

theorem useColumns_ok {env : ArbEnv} {cols : List (String × String)} : ∀ {ns : List String} {cs : List (String × String)},
    useColumns env cols ns = .ok cs → List.Forall₂ (fun n c => c ∈ cols ∧ ∃ f, env.get n = .ok f ∧ c.2 = f.aliasName) ns cs := by
  intro ns
  induction ns with
  | nil => intro cs h; injection h with h; subst h; exact .nil
  | cons n ns ih =>
    intro cs h
    simp only [useColumns] at h
    cases h1 : useColumn env cols n with
    | error e => rw [h1] at h; cases h
    | ok c =>
      rw [h1] at h; simp only at h
      cases h2 : useColumns env cols ns with
      | error e => rw [h2] at h; cases h
      | ok cs' =>
        rw [h2] at h
        injection h with h; subst h
        exact .cons (useColumn_ok h1) (ih h2)

theorem useColumns_total {env : ArbEnv} {cols : List (String × String)} : ∀ {ns : List String},
    (∀ n ∈ ns, ∃ f c, env.get n = .ok f ∧ (c, f.aliasName) ∈ cols) → ∃ cs, useColumns env cols ns = .ok cs := by
  intro ns
  induction ns with
  | nil => intro _; exact ⟨[], rfl⟩
  | cons n ns ih =>
    intro h
    obtain ⟨f, c, hg, hc⟩ := h n (by simp)
    obtain ⟨cs, hcs⟩ := ih (fun m hm => h m (List.mem_cons_of_mem _ hm))
    have : ∃ c', useColumn env cols n = .ok c' := by
      unfold useColumn
      rw [hg]
      simp only
      cases hf : cols.find? (fun c => decide (c.2 = f.aliasName)) with
      | some c' => exact ⟨c', rfl⟩
      | none =>
        have := List.find?_eq_none.mp hf _ hc
        simp at this
    obtain ⟨c', hc'⟩ := this
    exact ⟨c' :: cs, by simp only [useColumns, hc', hcs]⟩

/-- What one round of the loop over the sub-queries leaves. -/
def RoundOk (env : ArbEnv) (primary : SubRes) (i : ℕ) (q : MergeSub) (s : SubQ) : Prop :=
  ∃ r, env.resolve q (q.joinFields.map (·.field)) = .ok r ∧ s.cte = "merged_query_" ++ toString i ∧ s.metrics = r.metrics ∧
    s.dimensions = r.dimensions ∧ s.joinType = q.joinType ∧
    (if 0 < i then joinKeys env primary r q.joinFields = .ok s.joinFields else s.joinFields = q.joinFields)

theorem subQueries_ok {env : ArbEnv} {primary : SubRes} : ∀ {qs : List MergeSub} {i : ℕ} {lookup l' : List (String × String)} {ss : List SubQ},
    subQueries env primary i qs lookup = .ok (ss, l') →
    ss.length = qs.length ∧ ∀ j q s, qs[j]? = some q → ss[j]? = some s → RoundOk env primary (i + j) q s := by
  intro qs
  induction qs with
  | nil =>
    intro i lookup l' ss h
    injection h with h; injection h with h _; subst h
    exact ⟨rfl, fun j q s hq => by simp at hq⟩
  | cons q qs ih =>
    intro i lookup l' ss h
    simp only [subQueries] at h
    cases h1 : env.resolve q (q.joinFields.map (·.field)) with
    | error e => rw [h1] at h; cases h
    | ok r =>
      rw [h1] at h; simp only at h
      cases h2 : noteMappings r none r.mappings lookup with
      | error e => rw [h2] at h; cases h
      | ok lk =>
        rw [h2] at h; simp only at h
        cases h3 : (if 0 < i then joinKeys env primary r q.joinFields else .ok q.joinFields : Res (List JoinKey)) with
        | error e => rw [h3] at h; cases h
        | ok js =>
          rw [h3] at h; simp only at h
          cases h4 : env.build q r with
          | error e => rw [h4] at h; cases h
          | ok u =>
            rw [h4] at h; simp only at h
            cases h5 : subQueries env primary (i + 1) qs lk with
            | error e => rw [h5] at h; cases h
            | ok p =>
              obtain ⟨ss', l''⟩ := p
              rw [h5] at h; simp only at h
              injection h with h; injection h with h hl; subst h
              obtain ⟨r1, r2⟩ := ih h5
              refine ⟨by simp [r1], ?_⟩
              intro j q' s' hq hs
              cases j with
              | zero =>
                injection hq with hq; subst hq
                injection hs with hs; subst hs
                refine ⟨r, h1, rfl, rfl, rfl, rfl, ?_⟩
                split
                · rename_i hi
                  rw [Nat.add_zero] at hi
                  rw [if_pos hi] at h3; exact h3
                · rename_i hi
                  rw [Nat.add_zero] at hi
                  rw [if_neg hi] at h3; injection h3 with h3; exact h3.symm
              | succ j =>
                have := r2 j q' s' hq hs
                rwa [show i + 1 + j = i + (j + 1) by omega] at this

/-- What an accepted merge consists of. -/
theorem arbQuery_ok {env : ArbEnv} {items : List MergeItem} {filters orders : List String} {res : ArbQuery}
    (h : arbQuery env items filters orders = .ok res) :
    ∃ q0 q rest primary lookup, cleanMergesFrom 0 items = .ok (q0 :: rest) ∧ openRaw q0 = .ok q ∧
      env.resolve q ((q :: rest).flatMap (fun m => m.joinFields.map (·.source))) = .ok primary ∧
      res.subs.length = rest.length + 1 ∧
      (∀ j m s, (q :: rest)[j]? = some m → res.subs[j]? = some s → RoundOk env primary j m s) ∧
      arbJoins env "merged_query_0" res.subs.tail = .ok res.joins ∧ selectColumns env [] res.subs = .ok res.columns ∧
      useColumns env res.columns (filters.map (fun n => (dictGet lookup n.toLower).getD n)) = .ok res.filters ∧
      useColumns env res.columns (orders.map (fun n => (dictGet lookup n.toLower).getD n)) = .ok res.orders := by
  unfold arbQuery at h
  cases h1 : cleanMergesFrom 0 items with
  | error e => rw [h1] at h; cases h
  | ok qs =>
    rw [h1] at h
    cases qs with
    | nil => cases h
    | cons q0 rest =>
      simp only at h
      cases h2 : openRaw q0 with
      | error e => rw [h2] at h; cases h
      | ok q =>
        rw [h2] at h; simp only at h
        cases h3 : env.resolve q ((q :: rest).flatMap (fun m => m.joinFields.map (·.source))) with
        | error e => rw [h3] at h; cases h
        | ok primary =>
          rw [h3] at h; simp only at h
          cases h4 : noteMappings primary none primary.mappings [] with
          | error e => rw [h4] at h; cases h
          | ok lk =>
            rw [h4] at h; simp only at h
            cases h5 : subQueries env primary 0 (q :: rest) lk with
            | error e => rw [h5] at h; cases h
            | ok p =>
              obtain ⟨subs, lookup⟩ := p
              rw [h5] at h; simp only at h
              cases h6 : arbJoins env "merged_query_0" subs.tail with
              | error e => rw [h6] at h; cases h
              | ok joins =>
                rw [h6] at h; simp only at h
                cases h7 : selectColumns env [] subs with
                | error e => rw [h7] at h; cases h
                | ok cols =>
                  rw [h7] at h; simp only at h
                  cases h8 : useColumns env cols (filters.map (fun n => (dictGet lookup n.toLower).getD n)) with
                  | error e => rw [h8] at h; cases h
                  | ok fs =>
                    rw [h8] at h; simp only at h
                    cases h9 : useColumns env cols (orders.map (fun n => (dictGet lookup n.toLower).getD n)) with
                    | error e => rw [h9] at h; cases h
                    | ok os =>
                      rw [h9] at h
                      injection h with h; subst h
                      obtain ⟨r1, r2⟩ := subQueries_ok h5
                      refine ⟨q0, q, rest, primary, lookup, rfl, h2, h3, by simpa using r1, ?_, h6, h7, h8, h9⟩
                      intro j m s hm hs
                      have := r2 j m s hm hs
                      rwa [Nat.zero_add] at this

end ML
