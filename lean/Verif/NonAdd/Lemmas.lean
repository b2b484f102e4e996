import Verif.NonAdd.Spec
/- Helper lemmas: a query reads the definitions as written, and only changes lists no definition holds. -/
set_option autoImplicit false
namespace ML
open Spec

theorem qualify_idem (v n : String) : qualifyIn v (qualifyIn v n) = qualifyIn v n := by
  unfold qualifyIn
  by_cases h : '.' ∈ n.toList
  · simp [h]
  · rw [if_neg h, if_pos]
    simp [String.toList_append]

theorem map_qualify_idem (v : String) (l : List String) : (l.map (qualifyIn v)).map (qualifyIn v) = l.map (qualifyIn v) := by
  rw [List.map_map]
  apply List.map_congr_left
  intro x _
  exact qualify_idem v x

/-- The facts about one read of the property. -/
structure Touched (view : String → String) (s s' : NStore) (id : String) : Prop where
  loaded : Loaded s'
  same : written view s' = written view s
  fields : s'.fields = s.fields
  grows : ∀ (a : ℕ) (l : List String), s.heap[a]? = some l → s'.heap[a]? = some l
  priv : ∀ id' d' a, s'.defs id' = some d' → d'.groups = some a → a < s.heap.length →
    id' ≠ id ∧ ∃ d, s.defs id' = some d ∧ d.groups = some a
  normal : ∀ d, s'.defs id = some d → written view s' id = some ⟨d.name, d.choice, d.aware, d.groups.map (fun a => s'.heap[a]?.getD [])⟩
  absent : s'.defs id = none ↔ s.defs id = none

theorem touch_spec (view : String → String) (s : NStore) (id : String) (h : Loaded s) : Touched view s (touchDef view s id) id := by
  unfold touchDef
  cases hd : s.defs id with
  | none =>
    refine ⟨h, rfl, rfl, fun _ _ h => h, ?_, ?_, by simp [hd]⟩
    · intro id' d' a h1 h2 _
      refine ⟨?_, d', h1, h2⟩
      rintro rfl
      rw [hd] at h1; cases h1
    · intro d hd'; rw [hd] at hd'; cases hd'
  | some d =>
    obtain ⟨nm, ch, aw, gr⟩ := d
    cases gr with
    | none =>
      simp only
      refine ⟨⟨?_, ?_⟩, ?_, rfl, fun _ _ h => h, ?_, ?_, ?_⟩
      · intro i e a hi he
        simp only at hi
        by_cases hid : i = id
        · subst hid
          rw [Function.update_self] at hi
          injection hi with hi; subst hi
          cases he
        · rw [Function.update_of_ne hid] at hi
          exact h.lists i e a hi he
      · intro i e i' e' a hi hi' he he'
        simp only at hi hi'
        by_cases hid : i = id
        · subst hid
          rw [Function.update_self] at hi
          injection hi with hi; subst hi
          cases he
        · by_cases hid' : i' = id
          · subst hid'
            rw [Function.update_self] at hi'
            injection hi' with hi'; subst hi'
            cases he'
          · rw [Function.update_of_ne hid] at hi
            rw [Function.update_of_ne hid'] at hi'
            exact h.own i e i' e' a hi hi' he he'
      · funext i
        by_cases hid : i = id
        · subst hid
          simp only [written, Function.update_self, hd, Option.map_some, Option.map_none, qualify_idem]
        · simp only [written, Function.update_of_ne hid]
      · intro i e a hi he _
        simp only at hi
        by_cases hid : i = id
        · subst hid
          rw [Function.update_self] at hi
          injection hi with hi; subst hi
          cases he
        · rw [Function.update_of_ne hid] at hi
          exact ⟨hid, e, hi, he⟩
      · intro e he
        simp only [Function.update_self, Option.some.injEq] at he
        subst he
        simp only [written, Function.update_self, Option.map_some, qualify_idem, Option.map_none]
      · simp [Function.update_self, hd]
    | some a =>
      obtain ⟨l, hl, hne⟩ := h.lists id _ a hd rfl
      simp only [hl, Option.getD_some, hne, if_false]
      have hget : ∀ b, b < s.heap.length → (s.heap ++ [l.map (qualifyIn (view id))])[b]? = s.heap[b]? := by
        intro b hb; exact List.getElem?_append_left hb
      have hlt : ∀ b m, s.heap[b]? = some m → b < s.heap.length := by
        intro b m hb; exact (List.getElem?_eq_some_iff.mp hb).1
      have hnew : (s.heap ++ [l.map (qualifyIn (view id))])[s.heap.length]? = some (l.map (qualifyIn (view id))) := by
        simp
      refine ⟨⟨?_, ?_⟩, ?_, rfl, ?_, ?_, ?_, ?_⟩
      · intro i e b hi he
        simp only at hi
        by_cases hid : i = id
        · subst hid
          rw [Function.update_self] at hi
          injection hi with hi; subst hi
          simp only [Option.some.injEq] at he
          subst he
          exact ⟨_, hnew, by simpa using hne⟩
        · rw [Function.update_of_ne hid] at hi
          obtain ⟨m, hm, hmn⟩ := h.lists i e b hi he
          exact ⟨m, by rw [hget b (hlt b m hm), hm], hmn⟩
      · intro i e i' e' b hi hi' he he'
        simp only at hi hi'
        have old : ∀ j f, j ≠ id → s.defs j = some f → f.groups = some b → b < s.heap.length := by
          intro j f _ hj hf
          obtain ⟨m, hm, _⟩ := h.lists j f b hj hf
          exact hlt b m hm
        by_cases hid : i = id
        · subst hid
          rw [Function.update_self] at hi
          injection hi with hi; subst hi
          simp only [Option.some.injEq] at he
          by_contra hn
          rw [Function.update_of_ne (Ne.symm hn)] at hi'
          have := old i' e' (Ne.symm hn) hi' he'
          omega
        · rw [Function.update_of_ne hid] at hi
          by_cases hid' : i' = id
          · subst hid'
            rw [Function.update_self] at hi'
            injection hi' with hi'; subst hi'
            simp only [Option.some.injEq] at he'
            have := old i e hid hi he
            omega
          · rw [Function.update_of_ne hid'] at hi'
            exact h.own i e i' e' b hi hi' he he'
      · funext i
        by_cases hid : i = id
        · subst hid
          simp only [written, Function.update_self, hd, Option.map_some, qualify_idem, hnew, Option.getD_some, map_qualify_idem, hl]
        · simp only [written, Function.update_of_ne hid]
          cases he : s.defs i with
          | none => rfl
          | some e =>
            simp only [Option.map_some, Option.some.injEq, Written.mk.injEq, true_and]
            cases hb : e.groups with
            | none => rfl
            | some b =>
              obtain ⟨m, hm, _⟩ := h.lists i e b he hb
              simp only [Option.map_some, hget b (hlt b m hm)]
      · intro b m hb
        rw [← hb]
        exact hget b (hlt b m hb)
      · intro i e b hi he hb
        simp only at hi
        by_cases hid : i = id
        · subst hid
          rw [Function.update_self] at hi
          injection hi with hi; subst hi
          simp only [Option.some.injEq] at he
          omega
        · rw [Function.update_of_ne hid] at hi
          exact ⟨hid, e, hi, he⟩
      · intro e he
        simp only [Function.update_self, Option.some.injEq] at he
        subst he
        simp only [written, Function.update_self, Option.map_some, qualify_idem, hnew, Option.getD_some, map_qualify_idem]
      · simp [Function.update_self, hd]

/-- A subquery with the list it holds instead of the address. -/
structure PCte where
  label : String
  cteAlias : String
  name : String
  choice : String
  aware : Bool
  groups : Option (List String)

def absCte (s : NStore) (c : NCte) : PCte :=
  ⟨c.label, c.cteAlias, c.name, c.choice, c.aware, c.groups.map (fun a => s.heap[a]?.getD [])⟩

/-- The lists the subqueries hold exist, are held by no definition, and are all different. -/
structure Private (s : NStore) (ctes : List NCte) : Prop where
  valid : ∀ c ∈ ctes, ∀ a, c.groups = some a → a < s.heap.length
  unheld : ∀ c ∈ ctes, ∀ a, c.groups = some a → ∀ id d, s.defs id = some d → d.groups ≠ some a
  distinct : (ctes.filterMap NCte.groups).Nodup

theorem private_touch (view : String → String) (s s' : NStore) (id : String) (ctes : List NCte) (ht : Touched view s s' id)
    (hp : Private s ctes) : Private s' ctes := by
  refine ⟨?_, ?_, hp.distinct⟩
  · intro c hc a ha
    have := hp.valid c hc a ha
    have h2 := ht.grows a _ (List.getElem?_eq_getElem this)
    exact (List.getElem?_eq_some_iff.mp h2).1
  · intro c hc a ha i d hd hg
    obtain ⟨_, d0, h1, h2⟩ := ht.priv i d a hd hg (hp.valid c hc a ha)
    exact hp.unheld c hc a ha i d0 h1 h2

theorem abs_touch (view : String → String) (s s' : NStore) (id : String) (ctes : List NCte) (ht : Touched view s s' id)
    (hp : Private s ctes) : ctes.map (absCte s') = ctes.map (absCte s) := by
  apply List.map_congr_left
  intro c hc
  unfold absCte
  cases ha : c.groups with
  | none => rfl
  | some a =>
    have := hp.valid c hc a ha
    have h1 := List.getElem?_eq_getElem this
    have h2 := ht.grows a _ h1
    simp only [Option.map_some, h1, h2]

/-- Collecting from the definitions as written. -/
def pureCollectOne (env : NEnv) (w : String → Option Written) (ctes : List PCte) (id : String) : List PCte :=
  match w id with
  | none => ctes
  | some d =>
    if nonAddCteAlias env id d.name ∈ ctes.map PCte.cteAlias then ctes
    else ctes ++ [⟨nonAddAlias env id d.choice d.name, nonAddCteAlias env id d.name, d.name, d.choice, d.aware, d.groups⟩]

theorem written_none (view : String → String) (s : NStore) (id : String) : written view s id = none ↔ s.defs id = none := by
  simp [written]

theorem collectOne_spec (env : NEnv) (s : NStore) (ctes : List NCte) (id : String) (h : Loaded s) (hp : Private s ctes) :
    Loaded (collectOne env s ctes id).1 ∧ written env.view (collectOne env s ctes id).1 = written env.view s ∧
    (collectOne env s ctes id).1.fields = s.fields ∧ Private (collectOne env s ctes id).1 (collectOne env s ctes id).2 ∧
    (collectOne env s ctes id).2.map (absCte (collectOne env s ctes id).1) =
      pureCollectOne env (written env.view s) (ctes.map (absCte s)) id := by
  have ht := touch_spec env.view s id h
  have hp1 := private_touch _ _ _ _ ctes ht hp
  have ha1 := abs_touch _ _ _ _ ctes ht hp
  unfold collectOne pureCollectOne
  simp only
  cases hd : (touchDef env.view s id).defs id with
  | none =>
    have : written env.view s id = none := (written_none _ _ _).mpr (ht.absent.mp hd)
    rw [this]
    exact ⟨ht.loaded, ht.same, ht.fields, hp1, ha1⟩
  | some d =>
    have hw : written env.view s id = some ⟨d.name, d.choice, d.aware, d.groups.map (fun a => (touchDef env.view s id).heap[a]?.getD [])⟩ := by
      rw [← ht.same]; exact ht.normal d hd
    rw [hw]
    simp only
    have hal : (ctes.map (absCte s)).map PCte.cteAlias = ctes.map NCte.cteAlias := by
      rw [List.map_map]; rfl
    rw [hal]
    by_cases hin : nonAddCteAlias env id d.name ∈ ctes.map NCte.cteAlias
    · rw [if_pos hin, if_pos hin]
      exact ⟨ht.loaded, ht.same, ht.fields, hp1, ha1⟩
    · rw [if_neg hin, if_neg hin]
      have ht2 := touch_spec env.view (touchDef env.view s id) id ht.loaded
      have hp2 := private_touch _ _ _ _ ctes ht2 hp1
      have ha2 := abs_touch _ _ _ _ ctes ht2 hp1
      refine ⟨ht2.loaded, ht2.same.trans ht.same, ht2.fields.trans ht.fields, ⟨?_, ?_, ?_⟩, ?_⟩
      · intro c hc a ha
        simp only [List.mem_append, List.mem_singleton] at hc
        rcases hc with hc | rfl
        · exact hp2.valid c hc a ha
        · obtain ⟨l, hl, _⟩ := ht.loaded.lists id d a hd ha
          exact (List.getElem?_eq_some_iff.mp (ht2.grows a l hl)).1
      · intro c hc a ha i e he hg
        simp only [List.mem_append, List.mem_singleton] at hc
        rcases hc with hc | rfl
        · exact hp2.unheld c hc a ha i e he hg
        · obtain ⟨l, hl, _⟩ := ht.loaded.lists id d a hd ha
          obtain ⟨hne, e0, h1, h2⟩ := ht2.priv i e a he hg (List.getElem?_eq_some_iff.mp hl).1
          exact hne (ht.loaded.own i e0 id d a h1 hd h2 ha)
      · rw [List.filterMap_append, List.nodup_append]
        refine ⟨hp.distinct, ?_, ?_⟩
        · cases hg : d.groups <;> simp
        · intro x hx y hy
          obtain ⟨c, hc, hcx⟩ := List.mem_filterMap.mp hx
          obtain ⟨c', hc', hcy⟩ := List.mem_filterMap.mp hy
          simp only [List.mem_singleton] at hc'
          subst hc'
          rintro rfl
          exact hp1.unheld c hc x hcx id d hd hcy
      · rw [List.map_append, ha2, ha1]
        congr 1
        simp only [List.map_cons, List.map_nil, absCte, List.cons.injEq, PCte.mk.injEq, true_and, and_true]
        cases hg : d.groups with
        | none => rfl
        | some a =>
          obtain ⟨l, hl, _⟩ := ht.loaded.lists id d a hd hg
          simp only [Option.map_some, hl, ht2.grows a l hl]

def pureCollect (env : NEnv) (w : String → Option Written) (ctes : List PCte) : List String → List PCte
  | [] => ctes
  | id :: ids => pureCollect env w (pureCollectOne env w ctes id) ids

theorem collectAll_spec (env : NEnv) (ids : List String) : ∀ (s : NStore) (ctes : List NCte), Loaded s → Private s ctes →
    Loaded (collectAll env s ctes ids).1 ∧ written env.view (collectAll env s ctes ids).1 = written env.view s ∧
    (collectAll env s ctes ids).1.fields = s.fields ∧ Private (collectAll env s ctes ids).1 (collectAll env s ctes ids).2 ∧
    (collectAll env s ctes ids).2.map (absCte (collectAll env s ctes ids).1) =
      pureCollect env (written env.view s) (ctes.map (absCte s)) ids := by
  induction ids with
  | nil => intro s ctes h hp; exact ⟨h, rfl, rfl, hp, rfl⟩
  | cons id ids ih =>
    intro s ctes h hp
    obtain ⟨h1, h2, h3, h4, h5⟩ := collectOne_spec env s ctes id h hp
    obtain ⟨k1, k2, k3, k4, k5⟩ := ih _ _ h1 h4
    refine ⟨k1, k2.trans h2, k3.trans h3, k4, ?_⟩
    show _ = pureCollect env (written env.view s) (pureCollectOne env (written env.view s) (ctes.map (absCte s)) id) ids
    rw [← h5, ← h2]
    exact k5

/-- The SQL of the metrics from the definitions as written. -/
def pureRender (w : String → Option Written) : List String → List NRendered
  | [] => []
  | id :: ids =>
    match w id with
    | none => pureRender w ids
    | some d => ⟨id, d.name, d.choice, d.groups.getD []⟩ :: pureRender w ids

theorem renderAll_spec (env : NEnv) (ids : List String) : ∀ (s : NStore) (ctes : List NCte), Loaded s → Private s ctes →
    Loaded (renderAll env s ids).1 ∧ written env.view (renderAll env s ids).1 = written env.view s ∧
    (renderAll env s ids).1.fields = s.fields ∧ Private (renderAll env s ids).1 ctes ∧
    ctes.map (absCte (renderAll env s ids).1) = ctes.map (absCte s) ∧ (renderAll env s ids).2 = pureRender (written env.view s) ids := by
  induction ids with
  | nil => intro s ctes h hp; exact ⟨h, rfl, rfl, hp, rfl, rfl⟩
  | cons id ids ih =>
    intro s ctes h hp
    have ht := touch_spec env.view s id h
    have hp1 := private_touch _ _ _ _ ctes ht hp
    have ha1 := abs_touch _ _ _ _ ctes ht hp
    obtain ⟨k1, k2, k3, k4, k5, k6⟩ := ih _ ctes ht.loaded hp1
    rw [ht.same] at k2 k6
    rw [ht.fields] at k3
    rw [ha1] at k5
    simp only [renderAll, pureRender]
    cases hd : (touchDef env.view s id).defs id with
    | none =>
      have : written env.view s id = none := (written_none _ _ _).mpr (ht.absent.mp hd)
      rw [this]
      exact ⟨k1, k2, k3, k4, k5, k6⟩
    | some d =>
      have hw : written env.view s id = some ⟨d.name, d.choice, d.aware, d.groups.map (fun a => (touchDef env.view s id).heap[a]?.getD [])⟩ := by
        rw [← ht.same]; exact ht.normal d hd
      rw [hw]
      exact ⟨k1, k2, k3, k4, k5, by simp only [k6]⟩

/-! ### The temporary field -/

theorem updateFirst_names (view name : String) (fs : List (String × List String)) :
    (addField.updateFirst view name fs).map Prod.fst = fs.map Prod.fst := by
  induction fs with
  | nil => rfl
  | cons v vs ih =>
    simp only [addField.updateFirst]
    split
    · split <;> rfl
    · simp only [List.map_cons, ih]

theorem removeField_names (view name : String) (fs : List (String × List String)) :
    (removeField view name fs).map Prod.fst = fs.map Prod.fst := by
  induction fs with
  | nil => rfl
  | cons v vs ih =>
    simp only [removeField]
    split
    · rfl
    · simp only [List.map_cons, ih]

theorem remove_update (view name : String) (fs : List (String × List String)) (h : TempFree fs view name) :
    removeField view name (addField.updateFirst view name fs) = fs := by
  induction fs with
  | nil => rfl
  | cons v vs ih =>
    simp only [addField.updateFirst]
    by_cases hv : v.1 = view
    · rw [if_pos hv]
      have hv2 := h v (by simp) hv
      have hany : v.2.any (fun f => lower f == lower name) = false := by
        rw [List.any_eq_false]
        intro f hf
        simpa using hv2 f hf
      rw [if_neg (by rw [hany]; simp)]
      simp only [removeField]
      rw [if_pos hv]
      have hfil : v.2.filter (fun f => f != name) = v.2 := by
        rw [List.filter_eq_self]
        intro f hf
        have := hv2 f hf
        simp only [bne_iff_ne, ne_eq]
        rintro rfl
        exact this rfl
      rw [List.filter_append, hfil]
      simp
    · rw [if_neg hv]
      simp only [removeField]
      rw [if_neg hv, ih (fun p hp => h p (List.mem_cons_of_mem _ hp))]

/-- The subqueries from the lists they hold. -/
def pureLoop (env : NEnv) (views : List String) (dims : List String) : List PCte → Res (List (String × List String))
  | [] => .ok []
  | c :: cs =>
    let groups := firstSeen (c.groups.getD [] ++ addedDims env dims c.aware c.name)
    if env.dimView c.name ∈ views then
      match env.nested c.cteAlias groups with
      | .error e => .error e
      | .ok _ =>
        match pureLoop env views dims cs with
        | .error e => .error e
        | .ok rest => .ok ((c.cteAlias, groups) :: rest)
    else .error .accessDenied

def tempName (c : NCte) : String := c.choice ++ "_" ++ lastPart c.name

theorem cteLoop_spec (env : NEnv) (dims : List String) (ctes : List NCte) : ∀ (s : NStore), Loaded s → Private s ctes →
    Loaded (cteLoop env dims s ctes).1 ∧ written env.view (cteLoop env dims s ctes).1 = written env.view s ∧
    (cteLoop env dims s ctes).1.fields.map Prod.fst = s.fields.map Prod.fst ∧
    (cteLoop env dims s ctes).2 = pureLoop env (s.fields.map Prod.fst) dims (ctes.map (absCte s)) ∧
    ((∃ o, (cteLoop env dims s ctes).2 = .ok o) → (∀ c ∈ ctes, TempFree s.fields (env.dimView c.name) (tempName c)) →
      (cteLoop env dims s ctes).1.fields = s.fields) := by
  induction ctes with
  | nil => intro s h _; exact ⟨h, rfl, rfl, rfl, fun _ _ => rfl⟩
  | cons c cs ih =>
    intro s h hp
    -- the state after extending the list of `c`
    set base := (c.groups.map (fun a => s.heap[a]?.getD [])).getD [] with hbase
    set all := base ++ addedDims env dims c.aware c.name with hall
    set s1 : NStore := (match c.groups with | none => s | some a => { s with heap := s.heap.set a all }) with hs1
    have hdefs : s1.defs = s.defs := by rw [hs1]; cases c.groups <;> rfl
    have hflds : s1.fields = s.fields := by rw [hs1]; cases c.groups <;> rfl
    have hheap : ∀ b, c.groups ≠ some b → s1.heap[b]? = s.heap[b]? := by
      intro b hb
      rw [hs1]
      cases hg : c.groups with
      | none => rfl
      | some a =>
        simp only
        rw [List.getElem?_set_ne]
        rintro rfl
        exact hb hg
    have hlen : s1.heap.length = s.heap.length := by
      rw [hs1]; cases c.groups <;> simp
    have hunheld : ∀ id d a, s.defs id = some d → d.groups = some a → c.groups ≠ some a := by
      intro id d a hd hg hc
      exact hp.unheld c (by simp) a hc id d hd hg
    have hl1 : Loaded s1 := by
      refine ⟨?_, ?_⟩
      · intro id d a hd hg
        rw [hdefs] at hd
        rw [hheap a (hunheld id d a hd hg)]
        exact h.lists id d a hd hg
      · intro id d id' d' a hd hd'
        rw [hdefs] at hd hd'
        exact h.own id d id' d' a hd hd'
    have hw1 : written env.view s1 = written env.view s := by
      funext id
      unfold written
      rw [hdefs]
      cases hd : s.defs id with
      | none => rfl
      | some d =>
        simp only [Option.map_some, Option.some.injEq, Written.mk.injEq, true_and]
        cases hg : d.groups with
        | none => rfl
        | some a => simp only [Option.map_some, hheap a (hunheld id d a hd hg)]
    have hdist := hp.distinct
    have hne : ∀ c' ∈ cs, ∀ a, c'.groups = some a → c.groups ≠ some a := by
      intro c' hc' a ha hca
      rw [List.filterMap_cons, hca] at hdist
      simp only [List.nodup_cons] at hdist
      exact hdist.1 (List.mem_filterMap.mpr ⟨c', hc', ha⟩)
    have hp1 : Private s1 cs := by
      refine ⟨?_, ?_, ?_⟩
      · intro c' hc' a ha
        rw [hlen]
        exact hp.valid c' (List.mem_cons_of_mem _ hc') a ha
      · intro c' hc' a ha id d hd
        rw [hdefs] at hd
        exact hp.unheld c' (List.mem_cons_of_mem _ hc') a ha id d hd
      · rw [List.filterMap_cons] at hdist
        cases hg : c.groups with
        | none => rw [hg] at hdist; exact hdist
        | some a => rw [hg] at hdist; exact (List.nodup_cons.mp hdist).2
    have ha1 : cs.map (absCte s1) = cs.map (absCte s) := by
      apply List.map_congr_left
      intro c' hc'
      unfold absCte
      cases hg : c'.groups with
      | none => rfl
      | some a => simp only [Option.map_some, hheap a (hne c' hc' a hg)]
    have heq : cteLoop env dims s (c :: cs) = (match nestedCte env s1 c (firstSeen all) with
        | (s2, .error e) => (s2, .error e)
        | (s2, .ok _) =>
          match cteLoop env dims s2 cs with
          | (s3, .error e) => (s3, .error e)
          | (s3, .ok rest) => (s3, .ok ((c.cteAlias, firstSeen all) :: rest))) := rfl
    have hpure : pureLoop env (s.fields.map Prod.fst) dims ((c :: cs).map (absCte s)) =
        (if env.dimView c.name ∈ s.fields.map Prod.fst then
          match env.nested c.cteAlias (firstSeen all) with
          | .error e => .error e
          | .ok _ =>
            match pureLoop env (s.fields.map Prod.fst) dims (cs.map (absCte s)) with
            | .error e => .error e
            | .ok rest => .ok ((c.cteAlias, firstSeen all) :: rest)
        else .error .accessDenied) := rfl
    rw [heq, hpure]
    clear_value s1 all
    clear heq hpure
    unfold nestedCte addField
    simp only [hflds]
    by_cases hv : env.dimView c.name ∈ s.fields.map Prod.fst
    · simp only [if_pos hv]
      cases hn : env.nested c.cteAlias (firstSeen all) with
      | error e =>
        simp only
        refine ⟨⟨hl1.lists, hl1.own⟩, hw1, updateFirst_names _ _ _, trivial, ?_⟩
        rintro ⟨o, ho⟩; cases ho
      | ok u =>
        simp only
        set s2 : NStore := ⟨s1.heap, s1.defs, removeField (env.dimView c.name) (c.choice ++ "_" ++ lastPart c.name)
          (addField.updateFirst (env.dimView c.name) (c.choice ++ "_" ++ lastPart c.name) s.fields)⟩ with hs2
        have hl2 : Loaded s2 := ⟨hl1.lists, hl1.own⟩
        have hp2 : Private s2 cs := ⟨hp1.valid, hp1.unheld, hp1.distinct⟩
        have hf2 : s2.fields.map Prod.fst = s.fields.map Prod.fst := by
          rw [hs2]; simp only; rw [removeField_names, updateFirst_names]
        have hw2 : written env.view s2 = written env.view s := hw1
        have ha2 : cs.map (absCte s2) = cs.map (absCte s) := ha1
        obtain ⟨k1, k2, k3, k4, k5⟩ := ih s2 hl2 hp2
        rw [hf2, ha2] at k4
        cases hr : cteLoop env dims s2 cs with
        | mk s3 r =>
          rw [hr] at k1 k2 k3 k4 k5
          simp only at k1 k2 k3 k4 k5
          rw [← k4]
          cases r with
          | error e =>
            refine ⟨k1, k2.trans hw2, k3.trans hf2, rfl, ?_⟩
            rintro ⟨o, ho⟩; cases ho
          | ok rest =>
            refine ⟨k1, k2.trans hw2, k3.trans hf2, rfl, ?_⟩
            intro _ hfree
            have hrem : s2.fields = s.fields := remove_update _ _ _ (hfree c (by simp))
            rw [k5 ⟨rest, rfl⟩ (by
              intro c' hc'
              rw [hrem]
              exact hfree c' (List.mem_cons_of_mem _ hc')), hrem]
    · simp only [if_neg hv]
      refine ⟨hl1, hw1, by rw [hflds], trivial, ?_⟩
      rintro ⟨o, ho⟩; cases ho

end ML
