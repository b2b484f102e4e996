import Verif.JoinOn.Props
import Verif.FieldCheck.Lemmas
/-
C73: which joins can be made, and the conditions of joins that are not written but come from shared identifiers.
-/
set_option autoImplicit false
namespace ML
open Spec

theorem hasKey_isSome (d : FDef) (k : String) : (dictGet d k).isSome = true ↔ HasKey d k := by
  unfold HasKey Given
  cases dictGet d k <;> simp

theorem withDefault_get (d : FDef) (k k' : String) (v : Yaml) :
    dictGet (withDefault d k v) k' = if k = k' then some ((dictGet d k).getD v) else dictGet d k' := by
  unfold withDefault
  cases c : dictGet d k with
  | none => simp only [dictGet_set, Option.getD_none]
  | some w =>
    simp only [Option.getD_some]
    by_cases h : k = k'
    · rw [if_pos h, ← h, c]
    · rw [if_neg h]

theorem joinDefaults_keep (d : FDef) (k : String) (h1 : k ≠ "type") (h2 : k ≠ "relationship") : dictGet (joinDefaults d) k = dictGet d k := by
  unfold joinDefaults
  rw [withDefault_get, if_neg (Ne.symm h2), withDefault_get, if_neg (Ne.symm h1)]

theorem joinDefaults_type (d : FDef) : dictGet (joinDefaults d) "type" = some ((dictGet d "type").getD (.str "left_outer")) := by
  unfold joinDefaults
  rw [withDefault_get, if_neg (by decide), withDefault_get, if_pos rfl]

theorem joinDefaults_rel (d : FDef) : dictGet (joinDefaults d) "relationship" = some ((dictGet d "relationship").getD (.str "many_to_one")) := by
  unfold joinDefaults
  rw [withDefault_get, if_pos rfl, withDefault_get, if_neg (by decide)]

theorem uses_args (d : FDef) :
    ((joinArguments (joinDefaults d)).all (fun b => !b) = false ∧ (joinArguments (joinDefaults d)).countP (fun b => b) ≤ 1) ↔ ∃! u, JoinsBy d u := by
  have u4 : JoinsBy d .cross ↔ isCross (joinDefaults d) = true := by
    unfold isCross
    rw [joinDefaults_type]
    change Given d "type" (.str "cross") ↔ _
    rw [Given]
    cases c : dictGet d "type" with
    | none => simp
    | some v => cases v <;> simp
  have u1 : JoinsBy d .condition ↔ (dictGet d "sql_on").isSome = true := (hasKey_isSome d "sql_on").symm
  have u2 : JoinsBy d .key ↔ (dictGet d "foreign_key").isSome = true := (hasKey_isSome d "foreign_key").symm
  have u3 : JoinsBy d .sql ↔ (dictGet d "sql").isSome = true := (hasKey_isSome d "sql").symm
  unfold joinArguments
  rw [joinDefaults_keep d _ (by decide) (by decide), joinDefaults_keep d _ (by decide) (by decide), joinDefaults_keep d _ (by decide) (by decide)]
  generalize (dictGet d "sql_on").isSome = a at u1
  generalize (dictGet d "foreign_key").isSome = b at u2
  generalize (dictGet d "sql").isSome = c at u3
  generalize isCross (joinDefaults d) = e at u4
  generalize JoinsBy d = U at u1 u2 u3 u4
  have key : (∃! u, U u) ↔ ∃ u, U u ∧ ∀ u', U u' → u' = u := Iff.rfl
  rw [key]
  constructor
  · rintro ⟨hall, hcount⟩
    cases a <;> cases b <;> cases c <;> cases e <;> simp at hall hcount
    · exact ⟨.cross, u4.mpr rfl, fun u hu => by cases u <;> simp_all⟩
    · exact ⟨.sql, u3.mpr rfl, fun u hu => by cases u <;> simp_all⟩
    · exact ⟨.key, u2.mpr rfl, fun u hu => by cases u <;> simp_all⟩
    · exact ⟨.condition, u1.mpr rfl, fun u hu => by cases u <;> simp_all⟩
  · rintro ⟨u, hu, huni⟩
    have d1 := huni .condition
    have d2 := huni .key
    have d3 := huni .sql
    have d4 := huni .cross
    rw [u1] at d1; rw [u2] at d2; rw [u3] at d3; rw [u4] at d4
    cases u with
    | condition => rw [u1] at hu; cases a <;> cases b <;> cases c <;> cases e <;> simp_all
    | key => rw [u2] at hu; cases a <;> cases b <;> cases c <;> cases e <;> simp_all
    | sql => rw [u3] at hu; cases a <;> cases b <;> cases c <;> cases e <;> simp_all
    | cross => rw [u4] at hu; cases a <;> cases b <;> cases c <;> cases e <;> simp_all

/-- C73 (f): a join is accepted exactly when it names both views and says in exactly one way how they are joined; what is accepted is what was written, with the type
`left_outer` and the relationship `many_to_one` where there is none. -/
theorem C73_made (d : FDef) :
    (HasKey d "base_view_name" ∧ HasKey d "join_view_name" ∧ (∃! u, JoinsBy d u) ↔ ∃ d', joinInit d = .ok d') ∧
    (∀ e, joinInit d = .error e → e = .query) ∧
    ∀ d', joinInit d = .ok d' →
      (∀ k, k ≠ "type" → k ≠ "relationship" → dictGet d' k = dictGet d k) ∧
      dictGet d' "type" = some ((dictGet d "type").getD (.str "left_outer")) ∧
      dictGet d' "relationship" = some ((dictGet d "relationship").getD (.str "many_to_one")) := by
  have keys : ["base_view_name", "join_view_name", "relationship", "type"].any (fun k => (dictGet (joinDefaults d) k).isNone) = false ↔
      HasKey d "base_view_name" ∧ HasKey d "join_view_name" := by
    simp only [List.any_cons, List.any_nil, joinDefaults_keep d "base_view_name" (by decide) (by decide),
      joinDefaults_keep d "join_view_name" (by decide) (by decide), joinDefaults_type, joinDefaults_rel, Option.isNone_some, Bool.or_false,
      Bool.or_eq_false_iff]
    unfold HasKey Given
    cases dictGet d "base_view_name" <;> cases dictGet d "join_view_name" <;> simp
  have u := uses_args d
  unfold joinInit joinValidate
  by_cases hk : ["base_view_name", "join_view_name", "relationship", "type"].any (fun k => (dictGet (joinDefaults d) k).isNone) = true
  · rw [if_pos hk]
    refine ⟨⟨fun h => ?_, fun ⟨d', h⟩ => by cases h⟩, fun e h => by cases h; rfl, fun d' h => by cases h⟩
    rw [keys.mpr ⟨h.1, h.2.1⟩] at hk; cases hk
  · rw [if_neg hk]
    rw [Bool.not_eq_true] at hk
    obtain ⟨k1, k2⟩ := keys.mp hk
    by_cases ha : (joinArguments (joinDefaults d)).all (fun b => !b) = true
    · rw [if_pos ha]
      refine ⟨⟨fun h => ?_, fun ⟨d', h⟩ => by cases h⟩, fun e h => by cases h; rfl, fun d' h => by cases h⟩
      have := (u.mpr h.2.2).1
      rw [ha] at this; cases this
    · rw [if_neg ha]
      by_cases hc : 1 < (joinArguments (joinDefaults d)).countP (fun b => b)
      · rw [if_pos hc]
        refine ⟨⟨fun h => ?_, fun ⟨d', h⟩ => by cases h⟩, fun e h => by cases h; rfl, fun d' h => by cases h⟩
        have := (u.mpr h.2.2).2
        omega
      · rw [if_neg hc]
        refine ⟨⟨fun _ => ⟨_, rfl⟩, fun _ => ⟨k1, k2, u.mp ⟨by simpa using ha, by omega⟩⟩⟩, (fun e h => by cases h), fun d' h => ?_⟩
        cases h
        exact ⟨fun k h1 h2 => joinDefaults_keep d k h1 h2, joinDefaults_type d, joinDefaults_rel d⟩

/-- C73 (g): a join written as an identifier of type `join` is made between its view and the one it refers to, with the condition written, unless it also has a
property `foreign_key` or `sql`; it is never a cross join to the query generator, whatever its `join_type` is, and so has a condition. -/
theorem C73_written (i edge : FDef) (a b : String) (hj : Given i "type" (.str "join")) (on : Yaml) (hon : Given i "sql_on" on)
    (h : verifyJoin i = .ok edge) :
    ((∃ d, getJoin edge a b = .ok d) ↔ ¬ HasKey i "foreign_key" ∧ ¬ HasKey i "sql") ∧
    ∀ d, getJoin edge a b = .ok d → Given d "sql_on" on ∧ Given d "type" (.str "join") ∧
      Given d "base_view_name" (.str a) ∧ Given d "join_view_name" (.str b) ∧ dictGet d "join_type" = dictGet i "join_type" ∧
      (∀ v, Given i "relationship" v → Given d "relationship" v) := by
  unfold verifyJoin at h
  rw [show dictGet i "sql_on" = some on from hon] at h
  simp only [Except.ok.injEq] at h
  subst h
  set edge := dictSet (dictSet (dictSet i "type" ((dictGet i "type").getD (.str "left_outer"))) "relationship"
      ((dictGet i "relationship").getD (.str "many_to_one"))) "sql_on" on with hedge
  have g : ∀ k, k ≠ "type" → k ≠ "relationship" → k ≠ "sql_on" → dictGet edge k = dictGet i k := by
    intro k h1 h2 h3
    rw [hedge, dictGet_set, if_neg (Ne.symm h3), dictGet_set, if_neg (Ne.symm h2), dictGet_set, if_neg (Ne.symm h1)]
  have gt : dictGet edge "type" = some (.str "join") := by
    rw [hedge, dictGet_set, if_neg (by decide), dictGet_set, if_neg (by decide), dictGet_set, if_pos rfl,
      show dictGet i "type" = some (.str "join") from hj]; rfl
  have gs : dictGet edge "sql_on" = some on := by rw [hedge, dictGet_set, if_pos rfl]
  have gr : dictGet edge "relationship" = some ((dictGet i "relationship").getD (.str "many_to_one")) := by
    rw [hedge, dictGet_set, if_neg (by decide), dictGet_set, if_pos rfl]
  clear_value edge
  unfold getJoin
  set full := dictSet (dictSet edge "base_view_name" (.str a)) "join_view_name" (.str b) with hfull
  have f : ∀ k, k ≠ "base_view_name" → k ≠ "join_view_name" → dictGet full k = dictGet edge k := by
    intro k h1 h2
    rw [hfull, dictGet_set, if_neg (Ne.symm h2), dictGet_set, if_neg (Ne.symm h1)]
  have fb : dictGet full "base_view_name" = some (.str a) := by rw [hfull, dictGet_set, if_neg (by decide), dictGet_set, if_pos rfl]
  have fj : dictGet full "join_view_name" = some (.str b) := by rw [hfull, dictGet_set, if_pos rfl]
  clear_value full
  have t : dictGet full "type" = some (.str "join") := by rw [f _ (by decide) (by decide), gt]
  have s : dictGet full "sql_on" = some on := by rw [f _ (by decide) (by decide), gs]
  have fk : dictGet full "foreign_key" = dictGet i "foreign_key" := by rw [f _ (by decide) (by decide), g _ (by decide) (by decide) (by decide)]
  have sq : dictGet full "sql" = dictGet i "sql" := by rw [f _ (by decide) (by decide), g _ (by decide) (by decide) (by decide)]
  obtain ⟨m1, -, m3⟩ := C73_made full
  constructor
  · rw [← m1]
    constructor
    · rintro ⟨-, -, u, hu, huni⟩
      have hon : u = .condition := (huni .condition (show HasKey full "sql_on" from ⟨on, s⟩)).symm
      constructor
      · rintro ⟨v, hv⟩
        have := huni .key (show HasKey full "foreign_key" from ⟨v, by rw [Given, fk]; exact hv⟩)
        rw [hon] at this; cases this
      · rintro ⟨v, hv⟩
        have := huni .sql (show HasKey full "sql" from ⟨v, by rw [Given, sq]; exact hv⟩)
        rw [hon] at this; cases this
    · rintro ⟨h1, h2⟩
      refine ⟨⟨_, fb⟩, ⟨_, fj⟩, .condition, (show HasKey full "sql_on" from ⟨on, s⟩), ?_⟩
      intro u hu
      cases u with
      | condition => rfl
      | key => obtain ⟨v, hv⟩ := hu; exact absurd ⟨v, by rw [Given, ← fk]; exact hv⟩ h1
      | sql => obtain ⟨v, hv⟩ := hu; exact absurd ⟨v, by rw [Given, ← sq]; exact hv⟩ h2
      | cross => change dictGet full "type" = _ at hu; rw [t] at hu; exact absurd hu (by simp)
  · intro d hd
    obtain ⟨k1, k2, k3⟩ := m3 d hd
    refine ⟨by rw [Given, k1 _ (by decide) (by decide)]; exact s, by rw [Given, k2, t]; rfl, by rw [Given, k1 _ (by decide) (by decide)]; exact fb,
      by rw [Given, k1 _ (by decide) (by decide)]; exact fj,
      by rw [k1 _ (by decide) (by decide), f _ (by decide) (by decide), g _ (by decide) (by decide) (by decide)], fun v hv => ?_⟩
    rw [Given, k3, f _ (by decide) (by decide), gr, show dictGet i "relationship" = some v from hv]
    rfl

/-- The clause an identifier contributes, in pieces: the field of its name, or its SQL with bare names qualified by its view. -/
def Spec.ClauseOf (i : Ident) (view : String) (ps : List Piece) : Prop :=
  (i.sql = none ∧ GoodName i.name.toList ∧ ps = [.ref (view.toList ++ '.' :: i.name.toList)]) ∨
  ∃ qs, OrdinaryText qs ∧ i.sql = some (String.ofList (render qs)) ∧ ps = qs.map (qualifyPiece view.toList)

theorem clause_render (i : Ident) (view : String) (hview : GoodName view.toList) (ps : List Piece) (h : ClauseOf i view ps) :
    (identClause i view).toList = render ps ∧ ∀ p ∈ ps, GoodPiece p := by
  rcases h with ⟨hs, hn, rfl⟩ | ⟨qs, hq, hs, rfl⟩
  · constructor
    · unfold identClause
      rw [hs]
      simp [render]
    · intro p hp
      rw [List.mem_singleton.mp hp]
      intro c hc
      rcases List.mem_append.mp hc with hc | hc
      · exact hview c hc
      · rcases List.mem_cons.mp hc with rfl | hc
        · decide
        · exact hn c hc
  · constructor
    · rw [C45_join_clause i view qs hq hview hs, String.toList_ofList]
    · intro p hp
      obtain ⟨q, hq', rfl⟩ := List.mem_map.mp hp
      have hg := (ordinary_iff qs).mp hq q hq'
      cases q with
      | lit l => exact hg
      | ref n =>
        simp only [qualifyPiece]
        split
        · exact fun hm => absurd (hview _ hm) (by decide)
        · split
          · exact hg
          · intro c hc
            rcases List.mem_append.mp hc with hc | hc
            · exact hview c hc
            · rcases List.mem_cons.mp hc with rfl | hc
              · decide
              · exact hg c hc

theorem fill_append (v : List Char → List Char) (ps qs : List Piece) : fill v (ps ++ qs) = fill v ps ++ fill v qs := by
  induction ps with
  | nil => rfl
  | cons p ps ih => cases p <;> simp [fill, ih]

theorem refNames_append (ps qs : List Piece) : refNames (ps ++ qs) = refNames ps ++ refNames qs := by
  induction ps with
  | nil => rfl
  | cons p ps ih => cases p <;> simp [refNames, ih]

/-- C73 (h): the condition of a join by a shared identifier is that what the identifier stands for in the one view equals what it stands for in the other. -/
theorem C73_shared (env : JoinEnv) (r : Rel) (i j : Ident) (a b : String) (ha : GoodName a.toList) (hb : GoodName b.toList) (ps qs : List Piece)
    (hi : ClauseOf i a ps) (hj : ClauseOf j b qs) (v : List Char → List Char)
    (hv : ∀ n, n ∈ refNames ps ∨ n ∈ refNames qs → RefStandsFor env n (v n) ∧ '{' ∉ v n) :
    onText env (identJoin r i a j b).sqlOn.toList = .ok (fill v ps ++ '=' :: fill v qs) := by
  obtain ⟨h1, g1⟩ := clause_render i a ha ps hi
  obtain ⟨h2, g2⟩ := clause_render j b hb qs hj
  have e : (identJoin r i a j b).sqlOn.toList = render (ps ++ [.lit ['=']] ++ qs) := by
    unfold identJoin
    simp only [String.toList_append, h1, h2, render_append, render]
    simp
  rw [e, C73_condition env _ ?_ v ?_]
  · simp [fill_append, fill]
  · rw [ordinary_iff]
    intro p hp
    rcases List.mem_append.mp hp with hp | hp
    · rcases List.mem_append.mp hp with hp | hp
      · exact g1 p hp
      · rw [List.mem_singleton.mp hp]; exact by decide
    · exact g2 p hp
  · intro n hn
    apply hv
    rw [refNames_append, refNames_append] at hn
    simpa [refNames] using hn

/-- C73 (i): the views a condition needs are those its references name, each once; a reference without a view adds None. -/
theorem C73_required (ps : List Piece) (hps : OrdinaryText ps) (hne : render ps ≠ []) (a b : String) :
    (requiredViewNames (render ps) a b).Nodup ∧
    (∀ v, some v ∈ requiredViewNames (render ps) a b ↔ ∃ r ∈ refNames ps, ∃ f, RefNames r v f) ∧
    (none ∈ requiredViewNames (render ps) a b ↔ ∃ r ∈ refNames ps, NoView r) := by
  rw [ordinary_iff] at hps
  unfold requiredViewNames
  rw [if_neg hne, fieldsToReplace_render _ hps]
  refine ⟨List.nodup_dedup _, fun v => ?_, ?_⟩
  · rw [List.mem_dedup, List.mem_map]
    refine exists_congr (fun r => and_congr_right (fun _ => ?_))
    rcases ref_cases r with hn | ⟨v', f', hr⟩
    · rw [parts_of_none hn]
      constructor
      · intro h; cases h
      · rintro ⟨f, h⟩; exact absurd hn (refers_some h)
    · obtain ⟨e, hp⟩ := parts_of_refers hr
      rw [hp]
      constructor
      · intro h; cases h; exact ⟨f', hr⟩
      · rintro ⟨f, h⟩; rw [(refers_unique hr h).1]
  · rw [List.mem_dedup, List.mem_map]
    refine exists_congr (fun r => and_congr_right (fun _ => ?_))
    rcases ref_cases r with hn | ⟨v', f', hr⟩
    · rw [parts_of_none hn]; simp [hn]
    · obtain ⟨e, hp⟩ := parts_of_refers hr
      rw [hp]
      constructor
      · intro h; cases h
      · intro h; exact absurd h (refers_some hr)

/-! ### Cases -/

/-- Views `orders` and `customers`, each with the fields `customer_id` and `region`. -/
def Spec.joinSample : JoinEnv where
  getView v := if v = "orders" ∨ v = "customers" then .ok v else .error .accessDenied
  getField f _ := if f = "customer_id" ∨ f = "region" then .ok () else .error .accessDenied
  sqlQuery f v := .ok (v.toList ++ '.' :: f.toList)

/-- A condition with one reference twice. -/
example : onText joinSample "${orders.customer_id}=${customers.customer_id} and (${orders.customer_id} > 3 or ${m.customers.region} = 'EU')".toList =
    .ok "orders.customer_id=customers.customer_id and (orders.customer_id > 3 or customers.region = 'EU')".toList := by decide +kernel

/-- The hypotheses of (a) are met by it. -/
example : OrdinaryText [.ref "orders.customer_id".toList, .lit "=".toList, .ref "customers.customer_id".toList] ∧
    ∀ n ∈ refNames [.ref "orders.customer_id".toList, .lit "=".toList, .ref "customers.customer_id".toList],
      RefStandsFor joinSample n n ∧ '{' ∉ n := by
  refine ⟨(ordinary_iff _).mpr ?_, ?_⟩
  · intro p hp
    simp only [List.mem_cons, List.not_mem_nil, or_false] at hp
    rcases hp with rfl | rfl | rfl
    · exact (by decide : GoodName "orders.customer_id".toList)
    · exact (by decide : '{' ∉ "=".toList)
    · exact (by decide : GoodName "customers.customer_id".toList)
  intro n hn
  simp only [refNames, List.mem_cons, List.not_mem_nil, or_false] at hn
  rcases hn with rfl | rfl
  · exact ⟨⟨"orders", "customer_id", "orders", ⟨by decide, by decide, .inl rfl⟩, rfl, rfl, rfl⟩, by decide⟩
  · exact ⟨⟨"customers", "customer_id", "customers", ⟨by decide, by decide, .inl rfl⟩, rfl, rfl, rfl⟩, by decide⟩

/-- A bare reference, as is usual in the SQL of fields, and its condition. Validation reports it. -/
example : onText joinSample "${customer_id}=${customers.customer_id}".toList = .ok "None".toList ∧
    joinErrors joinSample [("sql_on", .str "${customer_id}=${customers.customer_id} and ${orders.city}=1 and ${shop.region}=2")] "orders" "customers" =
      .ok [.noView "customer_id", .unknownField "orders" "city", .unknownView "shop"] := by
  constructor
  · decide +kernel
  · rfl

/-- A join identifier with the property `sql` cannot be used. -/
example : (verifyJoin [("name", .str "j"), ("type", .str "join"), ("sql_on", .str "x"), ("sql", .str "y")]).bind (fun e => getJoin e "a" "b") =
    .error .query := by rfl

/-- A join by a shared identifier with SQL of its own in one of the views. -/
example : onText joinSample (identJoin .manyToOne ⟨"customer", .foreign, [], [], some "lower(${customer_id})"⟩ "orders"
      ⟨"customer_id", .primary, [], [], none⟩ "customers").sqlOn.toList =
    .ok "lower(orders.customer_id)=customers.customer_id".toList := by decide +kernel

/-- The hypotheses of (h) are met by it. -/
example : ClauseOf ⟨"customer", .foreign, [], [], some "lower(${customer_id})"⟩ "orders"
      [.lit "lower(".toList, .ref "orders.customer_id".toList, .lit ")".toList] ∧
    ClauseOf ⟨"customer_id", .primary, [], [], none⟩ "customers" [.ref "customers.customer_id".toList] ∧
    GoodName "orders".toList ∧ GoodName "customers".toList := by
  refine ⟨.inr ⟨[.lit "lower(".toList, .ref "customer_id".toList, .lit ")".toList], (ordinary_iff _).mpr ?_, by decide +kernel, by decide +kernel⟩,
    .inl ⟨rfl, by decide, by decide +kernel⟩, by decide, by decide⟩
  intro p hp
  simp only [List.mem_cons, List.not_mem_nil, or_false] at hp
  rcases hp with rfl | rfl | rfl
  · exact (by decide : '{' ∉ "lower(".toList)
  · exact (by decide : GoodName "customer_id".toList)
  · exact (by decide : '{' ∉ ")".toList)

/-- C73 (c), for what is no text: a condition that is nothing is not looked at, and any other value is a TypeError. -/
theorem C73_odd (env : JoinEnv) (d : FDef) (base joined : String) (hk : ¬ IsSet d "foreign_key") :
    ((¬ HasKey d "sql_on" ∨ ∃ v, Given d "sql_on" v ∧ Nothing v) → joinErrors env d base joined = .ok []) ∧
    (∀ v, Given d "sql_on" v → ¬ Nothing v → ¬ Text v → joinErrors env d base joined = .error .typeError) := by
  have hkey : truthyOpt (dictGet d "foreign_key") = false := (truthyOpt_false_iff d _).mpr hk
  constructor
  · rintro (h | ⟨v, hv, hn⟩)
    · have : dictGet d "sql_on" = none := by
        cases c : dictGet d "sql_on" with
        | none => rfl
        | some v => exact absurd ⟨v, c⟩ h
      unfold joinErrors
      rw [hkey, this]; rfl
    · unfold joinErrors
      rw [hkey, show dictGet d "sql_on" = some v from hv]
      cases hn with
      | zero' => simp [Yaml.truthy]
      | _ => rfl
  · intro v hv hn ht
    have htr : v.truthy = true := by
      cases c : v.truthy with
      | true => rfl
      | false => exact absurd ((truthy_iff v).mp c) hn
    unfold joinErrors
    rw [hkey, show dictGet d "sql_on" = some v from hv]
    cases v with
    | str s => exact absurd ⟨s, rfl⟩ ht
    | _ => simp only [htr, if_true]; rfl

/-- A condition that is a number. -/
example : joinErrors joinSample [("sql_on", .int 3)] "orders" "customers" = .error .typeError := by rfl

end ML
