import Verif.Mapped.Lemmas
/-
The loop over the mapped names, for C41.
-/
set_option autoImplicit false
namespace ML
open Spec

/-- The names computed by the resolver are those of the query. -/
structure NamesOk (q : MQuery) (names : QNames) : Prop where
  whereNames : ∀ n, n ∈ names.whereNames ↔ InClause n q.where_
  havingNames : ∀ n, n ∈ names.havingNames ↔ InClause n q.having
  orderNames : ∀ n, n ∈ names.orderNames ↔ InClause n q.orderBy
  all : ∀ n, n ∈ names.all ↔ Uses q n

/-- State of the loop: the query with some mapped names replaced. -/
structure LoopInv (env : MapEnv) (q : MQuery) (σ : String → String) (qk : MQuery) : Prop where
  renamed : Renamed σ q qk
  real : ∀ n, env.mapping n = none → σ n = n
  fresh : ∀ n, σ n = n ∨ env.mapping (σ n) = none

theorem replaceMapped_inv {env : MapEnv} {q qk q' : MQuery} {names : QNames} (hq : PlainMQuery q)
    (hn : NamesOk q names) {σ : String → String} (hinv : LoopInv env q σ qk) {a : String}
    {m : MapDef} (ha : env.mapping a = some m) (hσ : σ a = a) {c : CField}
    (hc : env.mapping c.id = none) (h : replaceMapped names qk a c = .ok q') :
    LoopInv env q (upd σ a c.id) q' ∧ q'.forces = qk.forces := by
  have hne : ∀ n, n ≠ a → σ n ≠ a := by
    intro n hna he
    rcases hinv.fresh n with h1 | h1
    · exact hna (h1.symm.trans he)
    · rw [he, ha] at h1; cases h1
  have keep : ∀ {cl : MClause}, PlainClause cl → ¬ InClause a cl →
      mapClause σ cl = mapClause (upd σ a c.id) cl := by
    intro cl hp hno
    refine mapClause_congr hp ?_
    intro n hin
    rw [upd, if_neg]
    rintro rfl
    exact hno hin
  unfold replaceMapped at h
  simp only at h
  split at h
  · have h := Except.ok.inj h
    subst h
    obtain ⟨⟨h1, h2, h3, h4, h5⟩, h6, h7⟩ := hinv
    refine ⟨⟨⟨?_, ?_, ?_, ?_, ?_⟩, ?_, ?_⟩, rfl⟩
    · simp only [h1, replaceFirst_map hσ hne hq.metrics]
    · simp only [h2, replaceFirst_map hσ hne hq.dimensions]
    · simp only [h3]
      split
      · exact replace_mapClause hσ hne hq.where_
      · rename_i h
        exact keep hq.where_ (fun x => h ((hn.whereNames a).mpr x))
    · simp only [h4]
      split
      · exact replace_mapClause hσ hne hq.having
      · rename_i h
        exact keep hq.having (fun x => h ((hn.havingNames a).mpr x))
    · simp only [h5]
      split
      · exact replace_mapClause hσ hne hq.orderBy
      · rename_i h
        exact keep hq.orderBy (fun x => h ((hn.orderNames a).mpr x))
    · intro n hnone
      unfold upd
      split
      · rename_i e
        rw [e, ha] at hnone; cases hnone
      · exact h6 n hnone
    · intro n
      unfold upd
      split
      · exact .inr hc
      · exact h7 n
  · cases h

theorem datesDiffer_spec {env : MapEnv} {found : List (String × CField)}
    (hf : ∀ n f, (n, f) ∈ found → env.modelField n = .ok f) {d : Option String} :
    ∀ {ms : List String} {b : Bool}, datesDiffer env found d ms = .ok b →
      (b = true ↔ ∃ n ∈ ms, ∃ f, env.modelField n = .ok f ∧ f.canonDate ≠ d)
  | [], b, h => by
    simp only [datesDiffer, Except.ok.injEq] at h
    simp [← h]
  | n :: ns, b, h => by
    unfold datesDiffer at h
    rw [fromLookup_eq hf] at h
    cases hm : env.modelField n with
    | error e => rw [hm] at h; cases h
    | ok f =>
      rw [hm] at h
      simp only at h
      by_cases hd : f.canonDate ≠ d
      · rw [if_pos hd] at h
        simp only [Except.ok.injEq] at h
        rw [← h]
        simp only [true_iff]
        exact ⟨n, by simp, f, hm, hd⟩
      · rw [if_neg hd] at h
        rw [datesDiffer_spec hf h]
        constructor
        · rintro ⟨x, hx, h'⟩
          exact ⟨x, by simp [hx], h'⟩
        · rintro ⟨x, hx, f', h1, h2⟩
          rcases List.mem_cons.mp hx with rfl | hx
          · rw [hm] at h1
            cases h1
            exact absurd h2 hd
          · exact ⟨x, hx, f', h1, h2⟩

/-- The fields found for the query. -/
structure FoundOk (env : MapEnv) (q : MQuery) (found : List (String × CField)) : Prop where
  look : ∀ n f, (n, f) ∈ found → env.modelField n = .ok f
  dims : ∀ n ∈ q.dimensions, env.mapping n = none → ∃ f, (n, f) ∈ found
  ne : found ≠ []

theorem stepMapped_spec {env : MapEnv} (hset : ∀ l x, x ∈ env.setOrder l ↔ x ∈ l)
    {q qk q' : MQuery} {names : QNames} {found : List (String × CField)} (hfo : FoundOk env q found)
    (hhead : ∀ n, q.metrics.head? = some n → env.mapping n = none)
    {σ : String → String} (hinv : LoopInv env q σ qk) {a : String} {m : MapDef}
    (h : stepMapped env names found (sharedGraphs (found.map (fun p => p.2.graphs))) qk a m = .ok q') :
    ∃ c b x, env.field x = .ok c ∧ replaceMapped names { qk with forces := qk.forces || b } a c = .ok q' ∧
      Replacement env q (found.map (·.2)) m c ∧
      ((∀ n ∈ q.metrics, env.mapping n = none) →
        (b = true ↔ m.name ∈ env.special ∧ DatesClash env q)) := by
  have hne : found.map (·.2) ≠ [] := by simpa using hfo.ne
  have hsh : sharedGraphs (found.map (fun p => p.2.graphs)) =
      sharedGraphs ((found.map (·.2)).map (·.graphs)) := by rw [List.map_map]; rfl
  rw [hsh] at h
  have det : ∀ {c : CField},
      determineField env (sharedGraphs ((found.map (·.2)).map (·.graphs))) m = .ok c →
      ∃ x, env.field x = .ok c := by
    intro c hc
    obtain ⟨cs, h1, h2⟩ := determine_ok hne hc
    have hmem : c ∈ cs := by
      rcases h2 with ⟨pre, post, rfl, -⟩ | ⟨-, pre, post, rfl, -⟩ <;> simp
    unfold Candidates at h1
    clear h2 hc
    generalize m.fields = ns at h1
    induction ns generalizing cs with
    | nil => cases h1; cases hmem
    | cons n ns ih =>
      rw [List.mapM_cons] at h1
      cases hf : env.field n with
      | error e => rw [hf] at h1; cases h1
      | ok c' =>
        rw [hf] at h1
        cases hr : ns.mapM env.field with
        | error e => rw [hr] at h1; cases h1
        | ok cs' =>
          rw [hr] at h1
          have := Except.ok.inj h1
          subst this
          rcases List.mem_cons.mp hmem with rfl | hmem
          · exact ⟨n, hf⟩
          · exact ih cs' hmem hr
  have hself : ({ qk with forces := qk.forces || false } : MQuery) = qk := by simp
  have noclash : q.metrics = [] → ¬ DatesClash env q := by
    rintro hm ⟨f, r, _, h1, -⟩
    rw [hm] at h1; cases h1
  unfold stepMapped at h
  by_cases hsp : m.name ∈ env.special
  · rw [if_pos hsp] at h
    cases hqm : q.metrics with
    | cons first rest =>
      have hkm : qk.metrics = σ first :: rest.map σ := by rw [hinv.renamed.metrics, hqm]; rfl
      have hfirst : σ first = first := hinv.real _ (hhead first (by rw [hqm]; rfl))
      rw [hkm, hfirst] at h
      simp only at h
      rw [fromLookup_eq hfo.look] at h
      cases hmf : env.modelField first with
      | error e => rw [hmf] at h; cases h
      | ok f =>
        rw [hmf] at h
        simp only at h
        cases hcf : env.field (mappedDateText f.canonDate ++ "_" ++ m.name) with
        | error e => rw [hcf] at h; cases h
        | ok c =>
          rw [hcf] at h
          simp only at h
          cases hdd : datesDiffer env found f.canonDate (rest.map σ) with
          | error e => rw [hdd] at h; cases h
          | ok b =>
            rw [hdd] at h
            simp only at h
            refine ⟨c, b, _, hcf, by rw [hkm, hfirst]; exact h, ⟨fun h' => absurd hsp h', ?_, ?_⟩, ?_⟩
            · intro _ first' rest' he
              rw [hqm] at he
              cases he
              refine ⟨f, mappedDateText f.canonDate, hmf, ?_, hcf⟩
              cases f.canonDate with
              | none => exact .inr ⟨rfl, rfl⟩
              | some d => exact .inl rfl
            · intro _ he
              rw [hqm] at he; cases he
            · intro hreal
              rw [datesDiffer_spec hfo.look hdd]
              have hrest : rest.map σ = rest := by
                conv_rhs => rw [← List.map_id rest]
                refine List.map_congr_left ?_
                intro x hx
                exact hinv.real x (hreal x (by simp [hx]))
              rw [hrest]
              constructor
              · intro h'
                exact ⟨hsp, first, rest, f, hqm, hmf, h'⟩
              · rintro ⟨-, first', rest', f', h1, h2, h3⟩
                rw [hqm] at h1
                cases h1
                rw [hmf] at h2
                cases h2
                exact h3
    | nil =>
      have hkm : qk.metrics = [] := by rw [hinv.renamed.metrics, hqm]; rfl
      rw [hkm] at h
      simp only at h
      have hdates : ∀ c, c ∈ env.setOrder (dimensionDates found qk.dimensions) ↔
          ∃ d ∈ qk.dimensions, ∃ f, found.lookup d = some f ∧ f.canonDate = some c ∧ c ≠ "" := by
        intro c
        rw [hset, mem_dimensionDates]
      have hreal : ∀ n ∈ q.dimensions, env.mapping n = none → ∀ f', env.modelField n = .ok f' →
          ∀ d', f'.canonDate = some d' → d' ≠ "" →
          d' ∈ env.setOrder (dimensionDates found qk.dimensions) := by
        intro n hn hnone f' hf' d' hd' hne'
        rw [hdates]
        obtain ⟨f, hf⟩ := hfo.dims n hn hnone
        have hff := hfo.look n f hf
        rw [hf'] at hff
        cases hff
        refine ⟨n, ?_, f', ?_, hd', hne'⟩
        · rw [hinv.renamed.dimensions, List.mem_map]
          exact ⟨n, hn, hinv.real n hnone⟩
        · refine lookup_of_mem ?_ hf
          intro f'' h''
          exact Except.ok.inj ((hfo.look n f'' h'').symm.trans hf')
      have hsrc : ∀ d ∈ env.setOrder (dimensionDates found qk.dimensions),
          ∃ f ∈ found.map (·.2), f.canonDate = some d := by
        intro d hd
        obtain ⟨x, -, f, h1, h2, -⟩ := (hdates d).mp hd
        exact ⟨f, List.mem_map.mpr ⟨(x, f), mem_of_lookup h1, rfl⟩, h2⟩
      have fin : ∀ {c : CField} {x : String}, env.field x = .ok c → replaceMapped names qk a c = .ok q' →
          ((∃ f ∈ found.map (·.2), ∃ d, f.canonDate = some d ∧ env.field (d ++ "_" ++ m.name) = .ok c ∧
            ∀ n ∈ q.dimensions, env.mapping n = none → ∀ f', env.modelField n = .ok f' →
              ∀ d', f'.canonDate = some d' → d' ≠ "" → d' ≠ d → AtLeastAsManyMeasures env d d') ∨
          ((∀ n ∈ q.dimensions, env.mapping n = none → ∀ f', env.modelField n = .ok f' →
              f'.canonDate = none ∨ f'.canonDate = some "") ∧
            ∃ cs, Candidates env m cs ∧ BestCandidate (found.map (·.2)) cs c)) →
          ∃ c b x, env.field x = .ok c ∧
            replaceMapped names { qk with forces := qk.forces || b } a c = .ok q' ∧
            Replacement env q (found.map (·.2)) m c ∧
            ((∀ n ∈ ([] : List String), env.mapping n = none) →
              (b = true ↔ m.name ∈ env.special ∧ DatesClash env q)) := by
        intro c x h1 h2 h3
        refine ⟨c, false, x, h1, by rw [hself]; exact h2,
          ⟨fun h' => absurd hsp h', fun _ _ _ h' => absurd (hqm.symm.trans h') (by simp),
            fun _ _ => h3⟩, ?_⟩
        intro _
        simp [noclash hqm]
      cases hds : env.setOrder (dimensionDates found qk.dimensions) with
      | nil =>
        rw [hds] at h
        simp only at h
        cases hd : determineField env (sharedGraphs ((found.map (·.2)).map (·.graphs))) m with
        | error e => rw [hd] at h; cases h
        | ok c =>
          rw [hd] at h
          simp only at h
          obtain ⟨x, hx⟩ := det hd
          refine fin hx h (.inr ⟨?_, determine_ok hne hd⟩)
          intro n hn hnone f' hf'
          cases hc : f'.canonDate with
          | none => exact .inl rfl
          | some d =>
            by_cases he : d = ""
            · exact .inr (by rw [he])
            · have := hreal n hn hnone f' hf' d hc he
              rw [hds] at this; cases this
      | cons d ds =>
        cases ds with
        | nil =>
          rw [hds] at h
          simp only at h
          cases hcf : env.field (d ++ "_" ++ m.name) with
          | error e => rw [hcf] at h; cases h
          | ok c =>
            rw [hcf] at h
            simp only at h
            obtain ⟨f, hf1, hf2⟩ := hsrc d (by rw [hds]; simp)
            refine fin hcf h (.inl ⟨f, hf1, d, hf2, hcf, ?_⟩)
            intro n hn hnone f' hf' d' hd' hne' hdd
            have := hreal n hn hnone f' hf' d' hd' hne'
            rw [hds, List.mem_singleton] at this
            exact absurd this hdd
        | cons d2 ds =>
          rw [hds] at h
          simp only at h
          cases hmc : measureCounts env (d :: d2 :: ds) with
          | error e => rw [hmc] at h; cases h
          | ok r =>
            cases r with
            | nil => rw [hmc] at h; cases h
            | cons p ps =>
              rw [hmc] at h
              simp only at h
              obtain ⟨hk, hv⟩ := measureCounts_spec hmc
              obtain ⟨best, hb1, hb2, hb3⟩ := firstLargest_spec p ps
              rw [hb2] at h
              cases hcf : env.field (best.1 ++ "_" ++ m.name) with
              | error e => rw [hcf] at h; cases h
              | ok c =>
                rw [hcf] at h
                simp only at h
                have hin : best.1 ∈ env.setOrder (dimensionDates found qk.dimensions) := by
                  rw [hds, ← hk]
                  exact List.mem_map.mpr ⟨best, hb1, rfl⟩
                obtain ⟨f, hf1, hf2⟩ := hsrc best.1 hin
                refine fin hcf h (.inl ⟨f, hf1, best.1, hf2, hcf, ?_⟩)
                intro n hn hnone f' hf' d' hd' hne' _ v v' k k' hv1 hv2 hk1 hk2
                rw [(viewPart_iff _ _).mp hv1] at hk1
                rw [(viewPart_iff _ _).mp hv2] at hk2
                have := hreal n hn hnone f' hf' d' hd' hne'
                rw [hds, ← hk] at this
                obtain ⟨p', hp', rfl⟩ := List.mem_map.mp this
                have e1 := hv best hb1
                have e2 := hv p' hp'
                rw [hk1] at e1
                rw [hk2] at e2
                cases e1
                cases e2
                exact hb3 p' hp'
  · rw [if_neg hsp] at h
    cases hd : determineField env (sharedGraphs ((found.map (·.2)).map (·.graphs))) m with
    | error e => rw [hd] at h; cases h
    | ok c =>
      rw [hd] at h
      simp only at h
      obtain ⟨x, hx⟩ := det hd
      refine ⟨c, false, x, hx, by rw [hself]; exact h, ⟨fun _ => determine_ok hne hd,
        fun h' => absurd h' hsp, fun h' => absurd h' hsp⟩, ?_⟩
      intro _
      simp [hsp]

theorem loopMapped_spec {env : MapEnv} (hset : ∀ l x, x ∈ env.setOrder l ↔ x ∈ l)
    (hid : ∀ x c, env.field x = .ok c → env.mapping c.id = none)
    {q : MQuery} (hq : PlainMQuery q) {names : QNames} (hn : NamesOk q names)
    {found : List (String × CField)} (hfo : FoundOk env q found)
    (hhead : ∀ n, q.metrics.head? = some n → env.mapping n = none) :
    ∀ {ms : List (String × MapDef)} {σ : String → String} {qk q' : MQuery}, LoopInv env q σ qk →
      (ms.map (·.1)).Nodup → (∀ a m, (a, m) ∈ ms → env.mapping a = some m ∧ σ a = a) →
      loopMapped env names found (sharedGraphs (found.map (fun p => p.2.graphs))) qk ms = .ok q' →
      ∃ σ', LoopInv env q σ' q' ∧ (∀ n, n ∉ ms.map (·.1) → σ' n = σ n) ∧
        (∀ a m, (a, m) ∈ ms → Uses q a →
          ∃ c, σ' a = c.id ∧ Replacement env q (found.map (·.2)) m c) ∧
        ((∀ n ∈ q.metrics, env.mapping n = none) →
          (q'.forces = true ↔ qk.forces = true ∨
            ((∃ a m, (a, m) ∈ ms ∧ Uses q a ∧ m.name ∈ env.special) ∧ DatesClash env q)))
  | [], σ, qk, q', hinv, _, _, h => by
    simp only [loopMapped, Except.ok.injEq] at h
    subst h
    exact ⟨σ, hinv, fun _ _ => rfl, by simp, by simp⟩
  | (a, m) :: rest, σ, qk, q', hinv, hnd, hms, h => by
    simp only [List.map_cons, List.nodup_cons] at hnd
    unfold loopMapped at h
    by_cases hu : a ∈ names.all
    · rw [if_pos hu] at h
      cases hs : stepMapped env names found (sharedGraphs (found.map (fun p => p.2.graphs))) qk a m with
      | error e => rw [hs] at h; cases h
      | ok q2 =>
        rw [hs] at h
        simp only at h
        obtain ⟨c, b, x, h1, h2, h3, h4⟩ := stepMapped_spec hset hfo hhead hinv hs
        obtain ⟨hma, hσa⟩ := hms a m (by simp)
        have hinv' : LoopInv env q σ { qk with forces := qk.forces || b } :=
          ⟨⟨hinv.renamed.metrics, hinv.renamed.dimensions, hinv.renamed.where_, hinv.renamed.having,
            hinv.renamed.orderBy⟩, hinv.real, hinv.fresh⟩
        obtain ⟨hinv2, hforce⟩ := replaceMapped_inv hq hn hinv' hma hσa (hid x c h1) h2
        have hms' : ∀ a' m', (a', m') ∈ rest →
            env.mapping a' = some m' ∧ upd σ a c.id a' = a' := by
          intro a' m' hin
          obtain ⟨h5, h6⟩ := hms a' m' (by simp [hin])
          refine ⟨h5, ?_⟩
          rw [upd, if_neg, h6]
          rintro rfl
          exact hnd.1 (List.mem_map.mpr ⟨(a', m'), hin, rfl⟩)
        obtain ⟨σ', h5, h6, h7, h8⟩ := loopMapped_spec hset hid hq hn hfo hhead hinv2 hnd.2 hms' h
        refine ⟨σ', h5, ?_, ?_, ?_⟩
        · intro n hnn
          simp only [List.map_cons, List.mem_cons, not_or] at hnn
          rw [h6 n hnn.2, upd, if_neg hnn.1]
        · intro a' m' hin huse
          rcases List.mem_cons.mp hin with hin | hin
          · cases hin
            exact ⟨c, by rw [h6 a hnd.1, upd, if_pos rfl], h3⟩
          · exact h7 a' m' hin huse
        · intro hreal
          rw [h8 hreal, hforce]
          simp only [Bool.or_eq_true, h4 hreal]
          constructor
          · rintro ((h' | ⟨h', h''⟩) | ⟨⟨a', m', h9, h10, h11⟩, h''⟩)
            · exact .inl h'
            · exact .inr ⟨⟨a, m, by simp, (hn.all a).mp hu, h'⟩, h''⟩
            · exact .inr ⟨⟨a', m', by simp [h9], h10, h11⟩, h''⟩
          · rintro (h' | ⟨⟨a', m', h9, h10, h11⟩, h''⟩)
            · exact .inl (.inl h')
            · rcases List.mem_cons.mp h9 with h9 | h9
              · cases h9
                exact .inl (.inr ⟨h11, h''⟩)
              · exact .inr ⟨⟨a', m', h9, h10, h11⟩, h''⟩
    · rw [if_neg hu] at h
      obtain ⟨σ', h5, h6, h7, h8⟩ := loopMapped_spec hset hid hq hn hfo hhead hinv hnd.2
        (fun a' m' hin => hms a' m' (by simp [hin])) h
      refine ⟨σ', h5, ?_, ?_, ?_⟩
      · intro n hnn
        simp only [List.map_cons, List.mem_cons, not_or] at hnn
        exact h6 n hnn.2
      · intro a' m' hin huse
        rcases List.mem_cons.mp hin with hin | hin
        · cases hin
          exact absurd ((hn.all _).mpr huse) hu
        · exact h7 a' m' hin huse
      · intro hreal
        rw [h8 hreal]
        refine or_congr_right (and_congr_left fun _ => ?_)
        constructor
        · rintro ⟨a', m', h9, h10⟩
          exact ⟨a', m', by simp [h9], h10⟩
        · rintro ⟨a', m', h9, h10, h11⟩
          rcases List.mem_cons.mp h9 with h9 | h9
          · cases h9
            exact absurd ((hn.all _).mpr h10) hu
          · exact ⟨a', m', h9, h10, h11⟩

/-- The steps of `resolveMapped` on an ordinary query. -/
theorem resolveMapped_unfold {env : MapEnv} (idents : String → List String) (lookupDims : List String)
    {q : MQuery} (hq : PlainMQuery q) : ∃ names ids, NamesOk q names ∧ ids.Nodup ∧
      (∀ n, n ∈ ids ↔ Uses q n ∨ n ∈ lookupDims) ∧
      resolveMapped env idents lookupDims q = match classify env ids with
        | .error e => .error e
        | .ok ([], _) => .ok q
        | .ok (ms, []) => mappedOnly env names q ms
        | .ok (ms, fs) => match checkShared (fs.map (fun p => (p.1, p.2.graphs))) with
          | .error e => .error e
          | .ok _ => loopMapped env names fs (sharedGraphs (fs.map (fun p => p.2.graphs))) q ms := by
  obtain ⟨ws, hw1, hw2⟩ := clauseNames_plain idents hq.where_
  obtain ⟨hs, hh1, hh2⟩ := clauseNames_plain idents hq.having
  obtain ⟨os, ho1, ho2⟩ := clauseNames_plain idents hq.orderBy
  have hall : ∀ n, n ∈ q.metrics ++ q.dimensions ++ ws ++ hs ++ os ↔ Uses q n := by
    intro n
    simp only [List.mem_append, hw2, hh2, ho2, Uses, or_assoc]
  refine ⟨⟨ws, hs, os, q.metrics ++ q.dimensions ++ ws ++ hs ++ os⟩,
    firstOccurrences (q.metrics ++ q.dimensions ++ ws ++ hs ++ os ++
      lookupDims.filter (fun d => decide (d ∉ q.metrics ++ q.dimensions ++ ws ++ hs ++ os))),
    ⟨hw2, hh2, ho2, hall⟩, firstOccurrences_nodup, ?_, ?_⟩
  rotate_left
  · unfold resolveMapped
    simp only [hw1, hh1, ho1]
    rfl
  · intro n
    rw [mem_firstOccurrences, List.mem_append, hall, List.mem_filter]
    simp only [decide_eq_true_eq, hall]
    constructor
    · rintro (h | h)
      · exact .inl h
      · exact .inr h.1
    · rintro (h | h)
      · exact .inl h
      · by_cases hu : Uses q n
        · exact .inl hu
        · exact .inr ⟨h, hu⟩

end ML
