import Verif.Arb.Lemmas
/- C43: arbitrary merged queries. -/
set_option autoImplicit false
namespace ML
open Spec

/-! ### Validation -/

/-- C43: the given list passes the validation exactly when every item has what it must have. -/
theorem C43_validation (items : List MergeItem) : (∃ qs, cleanMergesFrom 0 items = .ok qs) ↔ WellFormedMerge items := by
  have := cleanMergesFrom_ok_iff items 0
  simp only [Nat.zero_add] at this
  exact this

theorem cleanMergesFrom_get {items : List MergeItem} : ∀ {i : ℕ} {qs : List MergeSub}, cleanMergesFrom i items = .ok qs →
    ∀ j item, items[j]? = some item → ∃ q, qs[j]? = some q ∧ cleanMerge (i + j) item = .ok q := by
  induction items with
  | nil => intro i qs _ j item hj; simp at hj
  | cons it its ih =>
    intro i qs h j item hj
    simp only [cleanMergesFrom] at h
    cases h1 : cleanMerge i it with
    | error e => rw [h1] at h; cases h
    | ok c =>
      rw [h1] at h; simp only at h
      cases h2 : cleanMergesFrom (i + 1) its with
      | error e => rw [h2] at h; cases h
      | ok cs =>
        rw [h2] at h
        injection h with h; subst h
        cases j with
        | zero => injection hj with hj; subst hj; exact ⟨c, rfl, h1⟩
        | succ j =>
          obtain ⟨q, hq, hc⟩ := ih h2 j item hj
          exact ⟨q, hq, by rwa [show i + (j + 1) = i + 1 + j by omega]⟩

theorem cleanMergesFrom_length {items : List MergeItem} : ∀ {i : ℕ} {qs : List MergeSub}, cleanMergesFrom i items = .ok qs →
    qs.length = items.length := by
  induction items with
  | nil => intro i qs h; injection h with h; subst h; rfl
  | cons it its ih =>
    intro i qs h
    simp only [cleanMergesFrom] at h
    cases h1 : cleanMerge i it with
    | error e => rw [h1] at h; cases h
    | ok c =>
      rw [h1] at h; simp only at h
      cases h2 : cleanMergesFrom (i + 1) its with
      | error e => rw [h2] at h; cases h
      | ok cs => rw [h2] at h; injection h with h; subst h; simp [ih h2]

theorem cleanJoin_mem {js : List JoinArg} : ∀ {ks : List JoinKey}, cleanJoin js = .ok ks → ∀ f s, .dict (.str f) (.str s) ∈ js →
    ⟨f.toLower, s.toLower⟩ ∈ ks := by
  induction js with
  | nil => intro ks _ f s h; cases h
  | cons j js ih =>
    intro ks h f s hm
    cases j with
    | notDict e => cases h
    | dict a b =>
      cases a with
      | missing => cases h
      | notStr => cases h
      | str a =>
        cases b with
        | missing => cases h
        | notStr => cases h
        | str b =>
          simp only [cleanJoin] at h
          cases h2 : cleanJoin js with
          | error e => rw [h2] at h; cases h
          | ok ks' =>
            rw [h2] at h
            injection h with h; subst h
            rcases List.mem_cons.mp hm with he | hm
            · injection he with h3 h4; injection h3 with h3; injection h4 with h4; subst h3; subst h4; simp
            · exact List.mem_cons_of_mem _ (ih h2 f s hm)

theorem cleanMerge_join {i : ℕ} {a : MergeArg} {q : MergeSub} {js : List JoinArg} (h : cleanMerge i (.dict a) = .ok q) (hi : 0 < i)
    (hj : a.joinFields = .list js) : cleanJoin js = .ok q.joinFields := by
  obtain ⟨m, d, fu, j, t, r⟩ := a
  simp only at hj
  subst hj
  cases m with
  | missing => cases h
  | notList => cases h
  | list ms =>
    cases d with
    | missing => cases h
    | notList => cases h
    | list ds =>
      cases fu with
      | true => cases h
      | false =>
        simp only [cleanMerge, hi, if_true, Bool.false_eq_true, if_false] at h
        split at h
        · cases h
        · cases hc : cleanJoin js with
          | error e => rw [hc] at h; cases h
          | ok ks => rw [hc] at h; injection h with h; subst h; rfl

/-- C43: in an accepted merge, every join field of a later query names a dimension of that query, and its source field a dimension
of the first query. -/
theorem C43_join_fields (env : ArbEnv) (items : List MergeItem) (filters orders : List String) (res : ArbQuery)
    (h : arbQuery env items filters orders = .ok res) :
    WellFormedMerge items ∧ items ≠ [] ∧ ∃ first e0 primary, env.resolve first e0 = .ok primary ∧
      ∀ j a js f s, 0 < j → items[j]? = some (.dict a) → a.joinFields = .list js → .dict (.str f) (.str s) ∈ js →
        ∃ q e r c c', env.resolve q e = .ok r ∧ res.subs[j]?.map (·.dimensions) = some r.dimensions ∧
          NamesDimension env r f.toLower c ∧ NamesDimension env primary s.toLower c' := by
  obtain ⟨q0, q, rest, primary, lookup, h1, h2, h3, hlen, hround, _⟩ := arbQuery_ok h
  refine ⟨(C43_validation items).mp ⟨_, h1⟩, ?_, q, _, primary, h3, ?_⟩
  · rintro rfl; cases h1
  · intro j a js f s hj hitem hjs hm
    obtain ⟨m, hm1, hm2⟩ := cleanMergesFrom_get h1 j _ hitem
    rw [Nat.zero_add] at hm2
    have hks := cleanMerge_join hm2 hj hjs
    have hkey := cleanJoin_mem hks f s hm
    obtain ⟨j, rfl⟩ : ∃ k, j = k + 1 := ⟨j - 1, by omega⟩
    simp only [List.getElem?_cons_succ] at hm1
    have hlt : j + 1 < res.subs.length := by
      have := (List.getElem?_eq_some_iff.mp hm1).1
      omega
    obtain ⟨r, hr, _, _, hd, _, hjk⟩ := hround (j + 1) m res.subs[j + 1] (by simpa using hm1) (List.getElem?_eq_getElem hlt)
    rw [if_pos (Nat.succ_pos j)] at hjk
    have hf2 := joinKeys_ok hjk
    obtain ⟨k', hk'⟩ : ∃ k' : JoinKey, NamesDimension env r f.toLower k'.field ∧ NamesDimension env primary s.toLower k'.source := by
      clear hjk hks
      revert hkey hf2
      generalize m.joinFields = l1
      generalize (res.subs[j + 1]).joinFields = l2
      intro hkey hf2
      induction hf2 with
      | nil => cases hkey
      | cons hh _ ih =>
        rcases List.mem_cons.mp hkey with rfl | hk
        · exact ⟨_, hh⟩
        · exact ih hk
    refine ⟨m, _, r, k'.field, k'.source, hr, ?_, hk'.1, hk'.2⟩
    rw [List.getElem?_eq_getElem hlt, Option.map_some, hd]

/-! ### Columns -/

/-- C43: the selected columns have distinct names, and column `a` is taken from the first sub-query that produces it, unless that
one or an earlier one is joined on it. -/
theorem C43_columns (env : ArbEnv) (items : List MergeItem) (filters orders : List String) (res : ArbQuery)
    (h : arbQuery env items filters orders = .ok res) :
    (res.columns.map (·.2)).Nodup ∧ ∀ c a, (c, a) ∈ res.columns ↔ ∃ i s, ShowsAt env res.subs i s a ∧ s.cte = c := by
  obtain ⟨_, _, _, _, _, _, _, _, _, _, _, hsel, _⟩ := arbQuery_ok h
  obtain ⟨h1, h2⟩ := select_spec hsel
  refine ⟨h1, fun c a => ?_⟩
  rw [h2]
  simp

theorem noteMappings_keys {r : SubRes} : ∀ (ms : List (String × List String)) (last : Option String) (l l' : List (String × String)),
    noteMappings r last ms l = .ok l' → ∀ n, (dictGet l' n).isSome = true → (dictGet l n).isSome = true ∨ (dictGet ms n).isSome = true := by
  intro ms
  induction ms with
  | nil => intro last l l' h n hn; injection h with h; subst h; exact Or.inl hn
  | cons m ms ih =>
    obtain ⟨name, fields⟩ := m
    intro last l l' h n hn
    unfold noteMappings at h
    by_cases hl : (dictGet l name).isSome = true
    · rw [if_pos hl] at h
      rcases ih _ _ _ h n hn with h' | h'
      · exact Or.inl h'
      · right
        simp only [dictGet]
        split
        · rfl
        · exact h'
    · rw [if_neg hl] at h
      simp only at h
      split at h
      · cases h
      · rcases ih _ _ _ h n hn with h' | h'
        · rw [dictGet_set] at h'
          split at h'
          · rename_i e; right; simp [dictGet, e]
          · exact Or.inl h'
        · right
          simp only [dictGet]
          split
          · rfl
          · exact h'

/-- A name is only renamed when some sub-query has it as a mapped name. -/
def MappedSomewhere (env : ArbEnv) (n : String) : Prop :=
  ∃ q e r, env.resolve q e = .ok r ∧ (dictGet r.mappings n).isSome = true

theorem subQueries_keys {env : ArbEnv} {primary : SubRes} : ∀ {qs : List MergeSub} {i : ℕ} {lookup l' : List (String × String)} {ss : List SubQ},
    subQueries env primary i qs lookup = .ok (ss, l') → (∀ n, (dictGet lookup n).isSome = true → MappedSomewhere env n) →
    ∀ n, (dictGet l' n).isSome = true → MappedSomewhere env n := by
  intro qs
  induction qs with
  | nil =>
    intro i lookup l' ss h hl
    injection h with h; injection h with _ h; subst h
    exact hl
  | cons q qs ih =>
    intro i lookup l' ss h hl
    simp only [subQueries] at h
    cases h1 : env.resolve q (q.joinFields.map (·.field)) with
    | error e => rw [h1] at h; cases h
    | ok r =>
      rw [h1] at h; simp only at h
      cases h2 : noteMappings r none r.mappings lookup with
      | error e => rw [h2] at h; cases h
      | ok lk =>
        rw [h2] at h; simp only at h
        cases h3 : (if 0 < i then joinKeys env primary r q.joinFields else .ok q.joinFields : Res (List JoinKey)) with
        | error e => rw [h3] at h; cases h
        | ok js =>
          rw [h3] at h; simp only at h
          cases h4 : env.build q r with
          | error e => rw [h4] at h; cases h
          | ok u =>
            rw [h4] at h; simp only at h
            cases h5 : subQueries env primary (i + 1) qs lk with
            | error e => rw [h5] at h; cases h
            | ok p =>
              obtain ⟨ss', l''⟩ := p
              rw [h5] at h; simp only at h
              injection h with h; injection h with _ h; subst h
              refine ih h5 ?_
              intro n hn
              rcases noteMappings_keys _ _ _ _ h2 n hn with h' | h'
              · exact hl n h'
              · exact ⟨q, _, r, h1, h'⟩

theorem arbQuery_rename {env : ArbEnv} {items : List MergeItem} {filters orders : List String} {res : ArbQuery}
    (h : arbQuery env items filters orders = .ok res) :
    ∃ rename : String → String, (∀ n, rename n = n ∨ MappedSomewhere env n.toLower) ∧
      useColumns env res.columns (filters.map rename) = .ok res.filters ∧ useColumns env res.columns (orders.map rename) = .ok res.orders := by
  unfold arbQuery at h
  cases h1 : cleanMergesFrom 0 items with
  | error e => rw [h1] at h; cases h
  | ok qs =>
    rw [h1] at h
    cases qs with
    | nil => cases h
    | cons q0 rest =>
      simp only at h
      cases h2 : openRaw q0 with
      | error e => rw [h2] at h; cases h
      | ok q =>
        rw [h2] at h; simp only at h
        cases h3 : env.resolve q ((q :: rest).flatMap (fun m => m.joinFields.map (·.source))) with
        | error e => rw [h3] at h; cases h
        | ok primary =>
          rw [h3] at h; simp only at h
          cases h4 : noteMappings primary none primary.mappings [] with
          | error e => rw [h4] at h; cases h
          | ok lk =>
            rw [h4] at h; simp only at h
            cases h5 : subQueries env primary 0 (q :: rest) lk with
            | error e => rw [h5] at h; cases h
            | ok p =>
              obtain ⟨subs, lookup⟩ := p
              rw [h5] at h; simp only at h
              have hkeys := subQueries_keys h5 (fun n hn => by
                rcases noteMappings_keys _ _ _ _ h4 n hn with h' | h'
                · cases h'
                · exact ⟨q, _, primary, h3, h'⟩)
              cases h6 : arbJoins env "merged_query_0" subs.tail with
              | error e => rw [h6] at h; cases h
              | ok joins =>
                rw [h6] at h; simp only at h
                cases h7 : selectColumns env [] subs with
                | error e => rw [h7] at h; cases h
                | ok cols =>
                  rw [h7] at h; simp only at h
                  cases h8 : useColumns env cols (filters.map (fun n => (dictGet lookup n.toLower).getD n)) with
                  | error e => rw [h8] at h; cases h
                  | ok fs =>
                    rw [h8] at h; simp only at h
                    cases h9 : useColumns env cols (orders.map (fun n => (dictGet lookup n.toLower).getD n)) with
                    | error e => rw [h9] at h; cases h
                    | ok os =>
                      rw [h9] at h
                      injection h with h; subst h
                      refine ⟨_, ?_, h8, h9⟩
                      intro n
                      cases hd : dictGet lookup n.toLower with
                      | none => left; rfl
                      | some v => right; exact hkeys _ (by rw [hd]; rfl)

/-- C43: every filter and every ordering, in its place, uses the column of the field it names (mapped names are replaced first),
taken from the sub-query that shows it. -/
theorem C43_resolves (env : ArbEnv) (items : List MergeItem) (filters orders : List String) (res : ArbQuery)
    (h : arbQuery env items filters orders = .ok res) :
    ∃ rename : String → String, (∀ n, rename n = n ∨ MappedSomewhere env n.toLower) ∧
      List.Forall₂ (fun n c => ∃ f i s, env.get (rename n) = .ok f ∧ ShowsAt env res.subs i s f.aliasName ∧ c = (s.cte, f.aliasName))
        (filters ++ orders) (res.filters ++ res.orders) := by
  obtain ⟨rename, hren, hf, ho⟩ := arbQuery_rename h
  obtain ⟨_, hcols⟩ := C43_columns env items filters orders res h
  refine ⟨rename, hren, ?_⟩
  have key : ∀ ns cs, useColumns env res.columns (ns.map rename) = .ok cs →
      List.Forall₂ (fun n c => ∃ f i s, env.get (rename n) = .ok f ∧ ShowsAt env res.subs i s f.aliasName ∧ c = (s.cte, f.aliasName)) ns cs := by
    intro ns cs hu
    have := useColumns_ok hu
    rw [List.forall₂_map_left_iff] at this
    refine this.imp ?_
    rintro n ⟨c, a⟩ ⟨hm, f, hg, ha⟩
    simp only at ha
    subst ha
    obtain ⟨i, s, hs, rfl⟩ := (hcols c _).mp hm
    exact ⟨f, i, s, hg, hs, rfl⟩
  exact List.rel_append (key _ _ hf) (key _ _ ho)

/-! ### Join conditions -/

theorem produces_of_names {env : ArbEnv} (hn : OneNaming env) {q : MergeSub} {e : List String} {r : SubRes} (hr : env.resolve q e = .ok r)
    {name col : String} (h : NamesDimension env r name col) {f : AField} (hg : env.get col = .ok f) (s : SubQ) (hs : s.dimensions = r.dimensions) :
    Produces env s f.aliasName := by
  rcases h with ⟨fields, _, _, hd⟩ | ⟨_, rfl, g, d, hg', hd, hid⟩
  · exact ⟨col, by rw [List.mem_append, hs]; exact Or.inr hd, f, hg, rfl⟩
  · rw [hg] at hg'; injection hg' with hg'; subst hg'
    obtain ⟨k, hk, hkid⟩ := hn.ids q e r d hr hd
    refine ⟨d, by rw [List.mem_append, hs]; exact Or.inr hd, k, hk, ?_⟩
    exact hn.aliases d col k f hk hg (by rw [hkid, hid])

theorem joinConds_ok {env : ArbEnv} {base joined : String} : ∀ {ks : List JoinKey} {cs : List JoinCond}, joinConds env base joined ks = .ok cs →
    List.Forall₂ (fun k c => ∃ jf bf, env.get k.field = .ok jf ∧ env.get k.source = .ok bf ∧ c.base = (base, bf.aliasName) ∧ c.joined = (joined, jf.aliasName)) ks cs := by
  intro ks
  induction ks with
  | nil => intro cs h; injection h with h; subst h; exact .nil
  | cons k ks ih =>
    intro cs h
    simp only [joinConds] at h
    cases h1 : env.get k.field with
    | error e => rw [h1] at h; cases h
    | ok jf =>
      rw [h1] at h; simp only at h
      cases h2 : env.get k.source with
      | error e => rw [h2] at h; cases h
      | ok bf =>
        rw [h2] at h; simp only at h
        cases h3 : joinConds env base joined ks with
        | error e => rw [h3] at h; cases h
        | ok cs' =>
          rw [h3] at h
          injection h with h; subst h
          exact .cons ⟨jf, bf, h1, h2, rfl, rfl⟩ (ih h3)

theorem arbJoins_ok {env : ArbEnv} {base : String} : ∀ {qs : List SubQ} {js : List (String × SqlJoin × List JoinCond)},
    arbJoins env base qs = .ok js → (∀ q ∈ qs, q.joinFields ≠ []) →
    List.Forall₂ (fun q j => j.1 = q.cte ∧ j.2.1 = sqlJoinOf q.joinType ∧ joinConds env base q.cte q.joinFields = .ok j.2.2) qs js := by
  intro qs
  induction qs with
  | nil => intro js h _; injection h with h; subst h; exact .nil
  | cons q qs ih =>
    intro js h hne
    have hq := hne q (by simp)
    have hq' : q.joinFields.isEmpty = false := by
      cases hjf : q.joinFields with
      | nil => exact absurd hjf hq
      | cons => rfl
    simp only [arbJoins, hq', Bool.and_false, Bool.false_eq_true, if_false] at h
    cases h1 : joinConds env base q.cte q.joinFields with
    | error e => rw [h1] at h; cases h
    | ok cs =>
      rw [h1] at h; simp only at h
      cases h2 : arbJoins env base qs with
      | error e => rw [h2] at h; cases h
      | ok js' =>
        rw [h2] at h
        injection h with h; subst h
        exact .cons ⟨rfl, rfl, h1⟩ (ih h2 (fun q hq => hne q (List.mem_cons_of_mem _ hq)))

theorem cleanMerge_join_ne {i : ℕ} {it : MergeItem} {q : MergeSub} (h : cleanMerge i it = .ok q) (hi : 0 < i) : q.joinFields ≠ [] := by
  obtain ⟨a, ms, ds, rfl, _, _, _, _, hw⟩ := (cleanMerge_ok_iff i it).mp ⟨q, h⟩
  obtain ⟨js, hjs, hne, hall⟩ := hw hi
  have hk := cleanMerge_join h hi hjs
  cases js with
  | nil => exact absurd rfl hne
  | cons j js =>
    obtain ⟨f, s, rfl⟩ := hall j (by simp)
    have := cleanJoin_mem hk f s (by simp)
    intro he
    rw [he] at this
    cases this

/-- C43: every later sub-query is joined to the first on at least one condition, and each condition compares a column the first
produces with a column the joined one produces. -/
theorem C43_join_columns (env : ArbEnv) (hn : OneNaming env) (items : List MergeItem) (filters orders : List String) (res : ArbQuery)
    (h : arbQuery env items filters orders = .ok res) :
    ∃ first rest, res.subs = first :: rest ∧ rest.length + 1 = items.length ∧
      List.Forall₂ (fun s j => j.1 = s.cte ∧ j.2.2 ≠ [] ∧ ∀ c ∈ j.2.2, c.base.1 = first.cte ∧ Produces env first c.base.2 ∧
        c.joined.1 = s.cte ∧ Produces env s c.joined.2) rest res.joins := by
  obtain ⟨q0, q, rest, primary, lookup, h1, h2, h3, hlen, hround, hj, _⟩ := arbQuery_ok h
  cases hs : res.subs with
  | nil => rw [hs] at hlen; simp at hlen
  | cons first srest =>
    rw [hs] at hlen hround hj
    refine ⟨first, srest, rfl, ?_, ?_⟩
    · have := cleanMergesFrom_length h1
      simp only [List.length_cons] at hlen this
      omega
    obtain ⟨r0, hr0, hc0, _, hd0, _, _⟩ := hround 0 q first rfl rfl
    have hd0' : first.dimensions = primary.dimensions := by
      rw [hd0]; exact (hn.extra _ _ _ _ _ hr0 h3).2
    have hper : ∀ s ∈ srest, s.joinFields ≠ [] ∧ ∃ q e r, env.resolve q e = .ok r ∧ s.dimensions = r.dimensions ∧
        ∀ k ∈ s.joinFields, (∃ n, NamesDimension env r n k.field) ∧ ∃ n, NamesDimension env primary n k.source := by
      intro s hsm
      obtain ⟨j, hjlt, hje⟩ := List.getElem_of_mem hsm
      have hlt : j < rest.length := by simp only [List.length_cons] at hlen; omega
      have hit : j + 1 < items.length := by
        have := cleanMergesFrom_length h1
        simp only [List.length_cons] at this; omega
      obtain ⟨m, hm1, hm2⟩ := cleanMergesFrom_get h1 (j + 1) _ (List.getElem?_eq_getElem hit)
      rw [Nat.zero_add] at hm2
      simp only [List.getElem?_cons_succ] at hm1
      obtain ⟨r, hr, _, _, hd, _, hjk⟩ := hround (j + 1) m s (by simpa using hm1) (by simp [List.getElem?_eq_getElem hjlt, hje])
      rw [if_pos (Nat.succ_pos j)] at hjk
      have hf2 := joinKeys_ok hjk
      refine ⟨?_, m, _, r, hr, hd, ?_⟩
      · intro he
        have hl := hf2.length_eq
        rw [he, List.length_nil] at hl
        exact cleanMerge_join_ne hm2 (Nat.succ_pos j) (List.length_eq_zero_iff.mp hl)
      · intro k hk
        clear hjk hround
        revert hk hf2
        generalize m.joinFields = l1
        generalize s.joinFields = l2
        intro hf2 hk
        induction hf2 with
        | nil => cases hk
        | cons hh _ ih =>
          rcases List.mem_cons.mp hk with rfl | hk
          · exact ⟨⟨_, hh.1⟩, ⟨_, hh.2⟩⟩
          · exact ih hk
    have hjoins := arbJoins_ok hj (fun s hsm => (hper s hsm).1)
    simp only [List.tail_cons] at hjoins
    have hcte : first.cte = "merged_query_0" := hc0
    clear hj hround hs hlen h
    revert hjoins
    generalize res.joins = js
    intro hjoins
    induction hjoins with
    | nil => exact .nil
    | @cons s j l1 l2 hh _ ih =>
      refine .cons ?_ (ih (fun t ht => hper t (List.mem_cons_of_mem _ ht)))
      obtain ⟨hne, q', e', r', hr', hd', hks⟩ := hper s (by simp)
      obtain ⟨hj1, _, hjc⟩ := hh
      have hf2 := joinConds_ok hjc
      refine ⟨hj1, ?_, ?_⟩
      · intro he
        have hl := hf2.length_eq
        rw [he, List.length_nil] at hl
        exact hne (List.length_eq_zero_iff.mp hl)
      · intro c hc
        clear hjc hne
        have hall : ∀ l1 l2, (∀ k ∈ l1, (∃ n, NamesDimension env r' n k.field) ∧ ∃ n, NamesDimension env primary n k.source) →
            List.Forall₂ (fun (k : JoinKey) (c : JoinCond) => ∃ jf bf, env.get k.field = .ok jf ∧ env.get k.source = .ok bf ∧ c.base = ("merged_query_0", bf.aliasName) ∧ c.joined = (s.cte, jf.aliasName)) l1 l2 →
            ∀ c ∈ l2, c.base.1 = first.cte ∧ Produces env first c.base.2 ∧ c.joined.1 = s.cte ∧ Produces env s c.joined.2 := by
          intro l1 l2 hk hf
          induction hf with
          | nil => intro c hc; cases hc
          | cons hh2 _ ih2 =>
            intro c hc
            rcases List.mem_cons.mp hc with rfl | hc
            · obtain ⟨jf, bf, g1, g2, e1, e2⟩ := hh2
              obtain ⟨⟨n1, hn1⟩, ⟨n2, hn2⟩⟩ := hk _ List.mem_cons_self
              rw [e1, e2]
              exact ⟨hcte.symm, produces_of_names hn h3 hn2 g2 first hd0', rfl, produces_of_names hn hr' hn1 g1 s hd'⟩
            · exact ih2 (fun k hk' => hk k (List.mem_cons_of_mem _ hk')) c hc
        exact hall _ _ hks hf2 c hc

theorem cleanMerge_joinType {i : ℕ} {a : MergeArg} {q : MergeSub} (h : cleanMerge i (.dict a) = .ok q) : q.joinType = a.joinType := by
  unfold cleanMerge at h
  simp only at h
  repeat' split at h
  all_goals first | (injection h with h; subst h; rfl) | cases h

/-- C43: each later query is joined in its place with the kind it asks for, a left join when it asks for none. -/
theorem C43_join_kind (env : ArbEnv) (items : List MergeItem) (filters orders : List String) (res : ArbQuery)
    (h : arbQuery env items filters orders = .ok res) (j : ℕ) (a : MergeArg) (ha : items[j + 1]? = some (.dict a)) :
    ∃ name kind conds, res.joins[j]? = some (name, kind, conds) ∧ name = "merged_query_" ++ toString (j + 1) ∧
      ((a.joinType = none ∨ a.joinType = some "left_outer") → kind = .left) ∧ (a.joinType = some "inner" → kind = .inner) ∧
      (a.joinType = some "full_outer" → kind = .outer) ∧ (a.joinType = some "cross" → kind = .cross) := by
  obtain ⟨q0, q, rest, primary, lookup, h1, h2, h3, hlen, hround, hj, _⟩ := arbQuery_ok h
  have hone : ∀ k, k + 1 < items.length → ∃ m s, rest[k]? = some m ∧ res.subs[k + 1]? = some s ∧ RoundOk env primary (k + 1) m s ∧
      ∀ it, items[k + 1]? = some it → cleanMerge (k + 1) it = .ok m := by
    intro k hk
    obtain ⟨m, hm1, hm2⟩ := cleanMergesFrom_get h1 (k + 1) _ (List.getElem?_eq_getElem hk)
    rw [Nat.zero_add] at hm2
    simp only [List.getElem?_cons_succ] at hm1
    have hlt : k + 1 < res.subs.length := by
      have := (List.getElem?_eq_some_iff.mp hm1).1
      omega
    refine ⟨m, _, hm1, List.getElem?_eq_getElem hlt, hround _ _ _ (by simpa using hm1) (List.getElem?_eq_getElem hlt), ?_⟩
    intro it hit
    rw [List.getElem?_eq_getElem hk] at hit
    injection hit with hit
    rw [← hit]; exact hm2
  have hjlen : j + 1 < items.length := (List.getElem?_eq_some_iff.mp ha).1
  have hlen1 := cleanMergesFrom_length h1
  simp only [List.length_cons] at hlen1
  have hne : ∀ s ∈ res.subs.tail, s.joinFields ≠ [] := by
    intro s hs
    obtain ⟨k, hk, he⟩ := List.getElem_of_mem hs
    rw [List.length_tail] at hk
    rw [List.getElem_tail] at he
    obtain ⟨m, s', hm, hs', ⟨r, _, _, _, _, _, hjk⟩, hcl⟩ := hone k (by omega)
    rw [List.getElem?_eq_getElem (by omega)] at hs'
    injection hs' with hs'
    rw [he] at hs'; subst hs'
    rw [if_pos (Nat.succ_pos k)] at hjk
    intro he'
    have hl := (joinKeys_ok hjk).length_eq
    rw [he', List.length_nil] at hl
    exact cleanMerge_join_ne (hcl _ (List.getElem?_eq_getElem (by omega))) (Nat.succ_pos k) (List.length_eq_zero_iff.mp hl)
  have hf2 := arbJoins_ok hj hne
  obtain ⟨m, s, hm, hs, ⟨r, _, hcte, _, _, hjt, _⟩, hcl⟩ := hone j hjlen
  have hjl : j < res.subs.tail.length := by rw [List.length_tail]; omega
  have hjl' : j < res.joins.length := by rw [← hf2.length_eq]; exact hjl
  have hrel := hf2.get hjl hjl'
  simp only [List.get_eq_getElem, List.getElem_tail] at hrel
  have hs2 : res.subs[j + 1] = s := by
    rw [List.getElem?_eq_getElem (by omega)] at hs; injection hs
  rw [hs2] at hrel
  obtain ⟨g1, g2, _⟩ := hrel
  have ht : s.joinType = a.joinType := by rw [hjt, cleanMerge_joinType (hcl _ ha)]
  rw [ht] at g2
  refine ⟨_, _, _, List.getElem?_eq_getElem hjl', g1.trans hcte, ?_, ?_, ?_, ?_⟩
  · rintro (h | h) <;> exact g2.trans (by rw [h]; rfl)
  all_goals (intro h; exact g2.trans (by rw [h]; rfl))

/-! ### Acceptance -/

theorem joinKeys_plain {env : ArbEnv} {p r : SubRes} (hp : p.mappings = []) (hr : r.mappings = []) : ∀ ks : List JoinKey,
    (∀ k ∈ ks, (∃ c, NamesDimension env r k.field c) ∧ ∃ c, NamesDimension env p k.source c) → joinKeys env p r ks = .ok ks := by
  have hplain : ∀ (x : SubRes) n c, x.mappings = [] → joinKeyName env x n = .ok c → c = n := by
    intro x n c hx h
    rcases joinKeyName_ok h with ⟨fields, hm, _⟩ | ⟨_, h, _⟩
    · rw [hx] at hm; cases hm
    · exact h
  intro ks
  induction ks with
  | nil => intro _; rfl
  | cons k ks ih =>
    intro h
    obtain ⟨⟨c, hc⟩, ⟨d, hd⟩⟩ := h k (by simp)
    obtain ⟨c', hc'⟩ := joinKeyName_of hc
    obtain ⟨d', hd'⟩ := joinKeyName_of hd
    have h1 := hplain _ _ _ hr hc'
    have h2 := hplain _ _ _ hp hd'
    subst h1; subst h2
    simp only [joinKeys, hc', hd', ih (fun k hk => h k (List.mem_cons_of_mem _ hk))]

/-- The sub-queries of a merge without mapped names: as asked, named by their position. -/
def Spec.plainSubs (view : MergeSub → SubRes) : ℕ → List MergeSub → List SubQ
  | _, [] => []
  | i, q :: qs => ⟨"merged_query_" ++ toString i, (view q).metrics, (view q).dimensions, q.joinFields, q.joinType⟩ :: plainSubs view (i + 1) qs

theorem subQueries_plain {env : ArbEnv} {primary : SubRes} (hp : primary.mappings = []) (view : MergeSub → SubRes) : ∀ (qs : List MergeSub) (i : ℕ),
    (∀ q ∈ qs, (∀ e, env.resolve q e = .ok (view q)) ∧ (view q).mappings = [] ∧ env.build q (view q) = .ok ()) →
    (∀ j q, 0 < i + j → qs[j]? = some q → ∀ k ∈ q.joinFields, (∃ c, NamesDimension env (view q) k.field c) ∧ ∃ c, NamesDimension env primary k.source c) →
    subQueries env primary i qs [] = .ok (plainSubs view i qs, []) := by
  intro qs
  induction qs with
  | nil => intro i _ _; rfl
  | cons q qs ih =>
    intro i h hk
    obtain ⟨h1, h2, h3⟩ := h q (by simp)
    have hj : (if 0 < i then joinKeys env primary (view q) q.joinFields else .ok q.joinFields : Res (List JoinKey)) = .ok q.joinFields := by
      split
      · rename_i hi
        exact joinKeys_plain hp h2 _ (fun k hkm => hk 0 q hi rfl k hkm)
      · rfl
    have hrest := ih (i + 1) (fun q hq => h q (List.mem_cons_of_mem _ hq)) (fun j q hj hq => hk (j + 1) q (by omega) hq)
    simp only [subQueries, h1, h2, noteMappings, hj, h3, hrest, plainSubs]

theorem aliasesOf_total {env : ArbEnv} : ∀ {ns : List String}, (∀ n ∈ ns, ∃ f, env.get n = .ok f) → ∃ as, aliasesOf env ns = .ok as := by
  intro ns
  induction ns with
  | nil => intro _; exact ⟨[], rfl⟩
  | cons n ns ih =>
    intro h
    obtain ⟨f, hf⟩ := h n (by simp)
    obtain ⟨as, has⟩ := ih (fun m hm => h m (List.mem_cons_of_mem _ hm))
    exact ⟨_, by simp only [aliasesOf, hf, has]; rfl⟩

theorem selectColumns_total {env : ArbEnv} : ∀ {ss : List SubQ} (seen : List String), (∀ s ∈ ss, (∀ n ∈ s.metrics ++ s.dimensions, ∃ f, env.get n = .ok f) ∧
    ∀ k ∈ s.joinFields, ∃ f, env.get k.field = .ok f) → ∃ cols, selectColumns env seen ss = .ok cols := by
  intro ss
  induction ss with
  | nil => intro seen _; exact ⟨[], rfl⟩
  | cons s ss ih =>
    intro seen h
    obtain ⟨h1, h2⟩ := h s (by simp)
    obtain ⟨as, has⟩ := aliasesOf_total h1
    obtain ⟨js, hjs⟩ := @aliasesOf_total env (s.joinFields.map (·.field)) (by
      intro n hn; obtain ⟨k, hk, rfl⟩ := List.mem_map.mp hn; exact h2 k hk)
    obtain ⟨cols, hcols⟩ := ih (pickColumns s.cte (seen ++ js) as).2 (fun s hs => h s (List.mem_cons_of_mem _ hs))
    exact ⟨_, by simp only [selectColumns, has, hjs, hcols]; rfl⟩

theorem joinConds_total {env : ArbEnv} (b j : String) : ∀ {ks : List JoinKey}, (∀ k ∈ ks, (∃ f, env.get k.field = .ok f) ∧ ∃ f, env.get k.source = .ok f) →
    ∃ cs, joinConds env b j ks = .ok cs := by
  intro ks
  induction ks with
  | nil => intro _; exact ⟨[], rfl⟩
  | cons k ks ih =>
    intro h
    obtain ⟨⟨f, hf⟩, ⟨g, hg⟩⟩ := h k (by simp)
    obtain ⟨cs, hcs⟩ := ih (fun k hk => h k (List.mem_cons_of_mem _ hk))
    exact ⟨_, by simp only [joinConds, hf, hg, hcs]; rfl⟩

theorem arbJoins_total {env : ArbEnv} (b : String) : ∀ {ss : List SubQ}, (∀ s ∈ ss, ∀ k ∈ s.joinFields, (∃ f, env.get k.field = .ok f) ∧ ∃ f, env.get k.source = .ok f) →
    ∃ js, arbJoins env b ss = .ok js := by
  intro ss
  induction ss with
  | nil => intro _; exact ⟨[], rfl⟩
  | cons s ss ih =>
    intro h
    obtain ⟨js, hjs⟩ := ih (fun s hs => h s (List.mem_cons_of_mem _ hs))
    obtain ⟨cs, hcs⟩ := joinConds_total b s.cte (h s (by simp))
    unfold arbJoins
    split
    · exact ⟨_, by simp only [hjs]; rfl⟩
    · exact ⟨_, by simp only [hcs, hjs]; rfl⟩

theorem plainSubs_mem (view : MergeSub → SubRes) : ∀ (qs : List MergeSub) (i : ℕ) (s : SubQ), s ∈ plainSubs view i qs → ∃ q ∈ qs,
    s.metrics = (view q).metrics ∧ s.dimensions = (view q).dimensions ∧ s.joinFields = q.joinFields := by
  intro qs
  induction qs with
  | nil => intro i s h; cases h
  | cons q qs ih =>
    intro i s h
    rcases List.mem_cons.mp h with rfl | h
    · exact ⟨q, by simp, rfl, rfl, rfl⟩
    · obtain ⟨q', hq', h'⟩ := ih (i + 1) s h
      exact ⟨q', List.mem_cons_of_mem _ hq', h'⟩

/-- C43, acceptance: when every sub-query can be built on its own and uses no mapped name, a validated merge is answered exactly when
the join fields of each later query name dimensions of it and of the first, and every filter and ordering names a shown column.
Missing for the full claim: nothing checks that there are two queries (`C43_one_query`) or that the join type is known
(`C43_join_type`). -/
theorem C43_accepts_partial (env : ArbEnv) (items : List MergeItem) (filters orders : List String) (first : MergeSub) (rest : List MergeSub)
    (view : MergeSub → SubRes) (hv : cleanMergesFrom 0 items = .ok (first :: rest)) (hfirst : first.rawJoin = [] ∧ first.joinFields = [])
    (hsub : ∀ q ∈ first :: rest, (∀ e, env.resolve q e = .ok (view q)) ∧ (view q).mappings = [] ∧ env.build q (view q) = .ok () ∧
      ∀ n ∈ (view q).metrics ++ (view q).dimensions, ∃ f, env.get n = .ok f) :
    (∃ res, arbQuery env items filters orders = .ok res) ↔
      (∀ q ∈ rest, ∀ k ∈ q.joinFields, (∃ c, NamesDimension env (view q) k.field c) ∧ ∃ c, NamesDimension env (view first) k.source c) ∧
      ∀ n ∈ filters ++ orders, ∃ f i s, env.get n = .ok f ∧ ShowsAt env (plainSubs view 0 (first :: rest)) i s f.aliasName := by
  have hopen : openRaw first = .ok first := by
    obtain ⟨m, d, j, r, t, x⟩ := first
    obtain ⟨h1, h2⟩ := hfirst
    simp only at h1 h2
    subst h1; subst h2
    rfl
  obtain ⟨f1, f2, f3, f4⟩ := hsub first (by simp)
  have hname : ∀ (r : SubRes) n c, r.mappings = [] → NamesDimension env r n c → ∃ f, env.get n = .ok f := by
    rintro r n c hr (⟨fields, hm, _⟩ | ⟨_, rfl, f, d, hg, _⟩)
    · rw [hr] at hm; cases hm
    · exact ⟨f, hg⟩
  -- what follows when the joins are right
  have hright : (∀ q ∈ rest, ∀ k ∈ q.joinFields, (∃ c, NamesDimension env (view q) k.field c) ∧ ∃ c, NamesDimension env (view first) k.source c) →
      ∃ joins cols, subQueries env (view first) 0 (first :: rest) [] = .ok (plainSubs view 0 (first :: rest), []) ∧
        arbJoins env "merged_query_0" (plainSubs view 0 (first :: rest)).tail = .ok joins ∧
        selectColumns env [] (plainSubs view 0 (first :: rest)) = .ok cols := by
    intro hk
    have hget : ∀ s ∈ (plainSubs view 0 (first :: rest)), ∀ k ∈ s.joinFields, (∃ f, env.get k.field = .ok f) ∧ ∃ f, env.get k.source = .ok f := by
      intro s hs k hkm
      obtain ⟨q, hq, _, _, h3⟩ := plainSubs_mem view _ _ s hs
      rw [h3] at hkm
      rcases List.mem_cons.mp hq with rfl | hq
      · rw [hfirst.2] at hkm; cases hkm
      · obtain ⟨⟨c, hc⟩, ⟨d, hd⟩⟩ := hk q hq k hkm
        exact ⟨hname _ _ _ (hsub q (List.mem_cons_of_mem _ hq)).2.1 hc, hname _ _ _ f2 hd⟩
    obtain ⟨joins, hj⟩ := arbJoins_total (env := env) "merged_query_0" (ss := (plainSubs view 0 (first :: rest)).tail)
      (fun s hs => hget s (List.mem_of_mem_tail hs))
    obtain ⟨cols, hc⟩ := selectColumns_total (env := env) (ss := plainSubs view 0 (first :: rest)) [] (by
      intro s hs
      refine ⟨?_, fun k hk => (hget s hs k hk).1⟩
      obtain ⟨q, hq, h1, h2, _⟩ := plainSubs_mem view _ _ s hs
      rw [h1, h2]
      exact (hsub q hq).2.2.2)
    refine ⟨joins, cols, ?_, hj, hc⟩
    apply subQueries_plain f2 view
    · intro q hq
      obtain ⟨a, b, c, _⟩ := hsub q hq
      exact ⟨a, b, c⟩
    · intro j q hj hq k hkm
      cases j with
      | zero => omega
      | succ j => exact hk q (List.mem_of_getElem? hq) k hkm
  constructor
  · rintro ⟨res, h⟩
    have hjoin : ∀ q ∈ rest, ∀ k ∈ q.joinFields, (∃ c, NamesDimension env (view q) k.field c) ∧ ∃ c, NamesDimension env (view first) k.source c := by
      obtain ⟨q0, q, rest', primary, lookup, h1, h2, h3, hlen, hround, _⟩ := arbQuery_ok h
      rw [hv] at h1
      injection h1 with h1; injection h1 with h1 h1'; subst h1; subst h1'
      rw [hopen] at h2; injection h2 with h2; subst h2
      rw [f1] at h3; injection h3 with h3; subst h3
      intro q hq k hk
      obtain ⟨j, hjlt, hje⟩ := List.getElem_of_mem hq
      have hlt : j + 1 < res.subs.length := by omega
      obtain ⟨r, hr, _, _, _, _, hjk⟩ := hround (j + 1) q _ (by simp [List.getElem?_eq_getElem hjlt, hje]) (List.getElem?_eq_getElem hlt)
      rw [if_pos (Nat.succ_pos j)] at hjk
      rw [(hsub q (List.mem_cons_of_mem _ hq)).1] at hr
      injection hr with hr; subst hr
      have hf2 := joinKeys_ok hjk
      clear hjk hround
      revert hf2 hk
      generalize q.joinFields = l1
      generalize (res.subs[j + 1]).joinFields = l2
      intro hk hf2
      induction hf2 with
      | nil => cases hk
      | cons hh _ ih =>
        rcases List.mem_cons.mp hk with rfl | hk
        · exact ⟨⟨_, hh.1⟩, ⟨_, hh.2⟩⟩
        · exact ih hk
    refine ⟨hjoin, ?_⟩
    obtain ⟨joins, cols, hs, hj, hc⟩ := hright hjoin
    obtain ⟨_, hspec⟩ := select_spec hc
    unfold arbQuery at h
    rw [hv] at h
    simp only [hopen, f1, f2, noteMappings, hs, hj, hc, dictGet, Option.getD_none, List.map_id'] at h
    have hmap : ∀ l : List String, List.map (fun n => n) l = l := fun l => List.map_id l
    cases h8 : useColumns env cols filters with
    | error e => rw [h8] at h; cases h
    | ok fs =>
      rw [h8] at h; simp only at h
      cases h9 : useColumns env cols orders with
      | error e => rw [h9] at h; cases h
      | ok os =>
        intro n hn
        have hf := List.rel_append (useColumns_ok h8) (useColumns_ok h9)
        have hall : ∀ l1 l2, List.Forall₂ (fun n (c : String × String) => c ∈ cols ∧ ∃ f, env.get n = .ok f ∧ c.2 = f.aliasName) l1 l2 → n ∈ l1 →
            ∃ f c, env.get n = .ok f ∧ (c, f.aliasName) ∈ cols := by
          intro l1 l2 hf2
          induction hf2 with
          | nil => intro h; cases h
          | cons hh _ ih =>
            intro hm
            rcases List.mem_cons.mp hm with rfl | hm
            · obtain ⟨hin, f, hg, he⟩ := hh
              exact ⟨f, _, hg, by rw [← he]; exact hin⟩
            · exact ih hm
        obtain ⟨f, c, hg, hcm⟩ := hall _ _ hf hn
        obtain ⟨_, i, s, hsh, _⟩ := (hspec _ _).mp hcm
        exact ⟨f, i, s, hg, hsh⟩
  · rintro ⟨hjoin, hcols⟩
    obtain ⟨joins, cols, hs, hj, hc⟩ := hright hjoin
    obtain ⟨_, hspec⟩ := select_spec hc
    have hn : ∀ n ∈ filters ++ orders, ∃ f c, env.get n = .ok f ∧ (c, f.aliasName) ∈ cols := by
      intro n hn
      obtain ⟨f, i, s, hg, hsh⟩ := hcols n hn
      exact ⟨f, s.cte, hg, (hspec _ _).mpr ⟨by simp, i, s, hsh, rfl⟩⟩
    obtain ⟨fs, hfs⟩ := useColumns_total (fun n h => hn n (List.mem_append_left _ h))
    obtain ⟨os, hos⟩ := useColumns_total (fun n h => hn n (List.mem_append_right _ h))
    unfold arbQuery
    rw [hv]
    simp only [hopen, f1, f2, noteMappings, hs, hj, hc, dictGet, Option.getD_none, List.map_id', hfs, hos]
    exact ⟨_, rfl⟩

/-! ### Concrete cases -/

/-- The fields of a project in which `view.field` has the alias `view_field`. -/
def arbGetEx (n : String) : Res AField :=
  if n = "orders.total" then .ok ⟨n, "orders_total", none⟩
  else if n = "orders.region" then .ok ⟨n, "orders_region", none⟩
  else if n = "visits.count" then .ok ⟨n, "visits_count", none⟩
  else if n = "visits.area" then .ok ⟨n, "visits_area", none⟩
  else if n = "visits.day" then .ok ⟨n, "visits_day", none⟩
  else .error .accessDenied

/-- A project with these fields. -/
def arbEnvEx : ArbEnv where
  get := arbGetEx
  resolve q _ := if (q.metrics ++ q.dimensions).all (fun n => match arbGetEx n with | .ok _ => true | .error _ => false)
    then .ok { metrics := q.metrics, dimensions := q.dimensions } else .error .accessDenied
  build _ _ := .ok ()

def arbItems : List MergeItem :=
  [.dict { metrics := .list ["orders.total"], dimensions := .list ["orders.region"] },
   .dict { metrics := .list ["visits.count"], dimensions := .list ["visits.area", "visits.day"],
           joinFields := .list [.dict (.str "visits.area") (.str "orders.region")], joinType := some "inner" }]

/-- A later query joined to the first on `orders.region`. -/
def itemEx (metrics dimensions : List String) (field joinType : String) : MergeItem :=
  .dict { metrics := .list metrics, dimensions := .list dimensions, joinType := some joinType,
          joinFields := .list [.dict (.str field) (.str "orders.region")] }

/-- A merge of two queries that is accepted, with a filter and an ordering. -/
example : arbQuery arbEnvEx arbItems ["visits.count"] ["orders.region"] = .ok
    { subs := [⟨"merged_query_0", ["orders.total"], ["orders.region"], [], none⟩,
               ⟨"merged_query_1", ["visits.count"], ["visits.area", "visits.day"], [⟨"visits.area", "orders.region"⟩], some "inner"⟩],
      joins := [("merged_query_1", .inner, [⟨("merged_query_0", "orders_region"), ("merged_query_1", "visits_area"), false⟩])],
      columns := [("merged_query_0", "orders_total"), ("merged_query_0", "orders_region"), ("merged_query_1", "visits_count"), ("merged_query_1", "visits_day")],
      filters := [("merged_query_1", "visits_count")], orders := [("merged_query_0", "orders_region")] } := by
  decide +kernel

/-- The hypotheses of `C43_accepts_partial` hold for these items. -/
example : ∃ first rest, cleanMergesFrom 0 arbItems = .ok (first :: rest) ∧ (first.rawJoin = [] ∧ first.joinFields = []) ∧
    (∀ q ∈ first :: rest, ∀ n ∈ q.metrics ++ q.dimensions, ∃ f, arbEnvEx.get n = .ok f) := by
  refine ⟨_, _, rfl, ⟨rfl, rfl⟩, ?_⟩
  intro q hq n hn
  simp only [List.mem_cons, List.not_mem_nil, or_false] at hq
  rcases hq with rfl | rfl <;>
    simp only [List.cons_append, List.nil_append, List.mem_cons, List.not_mem_nil, or_false] at hn <;>
    rcases hn with rfl | rfl | rfl <;> exact ⟨_, rfl⟩

/-- A join field that is not among the dimensions is rejected, and so is a filter on a column that is not shown. -/
example : arbQuery arbEnvEx [arbItems[0], itemEx ["visits.count"] ["visits.day"] "visits.area" "left_outer"] [] [] = .error .join ∧
    arbQuery arbEnvEx arbItems ["visits.area"] [] = .error .query := by
  constructor <;> decide +kernel

/-- The project of the example names every field in one way. -/
example : OneNaming arbEnvEx := by
  have hid : ∀ n f, arbGetEx n = .ok f → f.id = n ∧ ∀ g, arbGetEx n = .ok g → f = g := by
    intro n f h
    refine ⟨?_, fun g hg => by rw [h] at hg; injection hg⟩
    unfold arbGetEx at h
    repeat' split at h
    all_goals first | (injection h with h; subst h; rfl) | cases h
  have hres : ∀ q e r, arbEnvEx.resolve q e = .ok r → r = { metrics := q.metrics, dimensions := q.dimensions } ∧
      ∀ n ∈ q.metrics ++ q.dimensions, ∃ f, arbGetEx n = .ok f := by
    intro q e r h
    simp only [arbEnvEx] at h
    split at h
    · rename_i hall
      injection h with h
      refine ⟨h.symm, fun n hn => ?_⟩
      have := List.all_eq_true.mp hall n hn
      cases hg : arbGetEx n with
      | ok f => exact ⟨f, rfl⟩
      | error e => rw [hg] at this; cases this
    · cases h
  refine ⟨?_, ?_, ?_⟩
  · intro q e r d h hd
    obtain ⟨rfl, hall⟩ := hres q e r h
    obtain ⟨f, hf⟩ := hall d (List.mem_append_right _ hd)
    exact ⟨f, hf, (hid d f hf).1⟩
  · intro n m f g hn hm he
    rw [(hid n f hn).1, (hid m g hm).1] at he
    subst he
    rw [(hid n f hn).2 g hm]
  · intro q e e' r r' h h'
    rw [(hres q e r h).1, (hres q e' r' h').1]
    exact ⟨rfl, rfl⟩

/-- C43 fails in the number of queries: one query alone is accepted. -/
theorem C43_one_query : ∃ res, arbQuery arbEnvEx [arbItems[0]] [] [] = .ok res ∧ res.subs.length = 1 ∧ res.joins = [] :=
  ⟨_, rfl, rfl, rfl⟩

/-- C43 fails for the join type: an unknown one is taken as a left join. -/
theorem C43_join_type :
    (arbQuery arbEnvEx [arbItems[0], itemEx ["visits.count"] ["visits.area"] "visits.area" "sideways"] [] []).map (fun r => r.joins.map (·.2.1)) =
      .ok [.left] := by
  decide +kernel

/-- A dimension of a later query is dropped when an earlier one was joined on it: the third query asks for `visits.area` as a
dimension but the result has no such column. -/
theorem C43_lost_column :
    (arbQuery arbEnvEx [arbItems[0], itemEx ["visits.count"] ["visits.area"] "visits.area" "inner",
      itemEx [] ["visits.area", "visits.day", "orders.region"] "orders.region" "inner"] [] []).map (fun r => r.columns.map (·.2)) =
      .ok ["orders_total", "orders_region", "visits_count", "visits_day"] := by
  decide +kernel

end ML
