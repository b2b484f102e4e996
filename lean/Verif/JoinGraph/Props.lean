import Verif.JoinGraph.Order
/-
C12 Fan-out joins are never created implicitly.
C13 The join graph keeps the most preferable join per pair.
C14 only_join is honoured by both sides.
C15 Relationships are consistent in both directions.
C16 Join-graph names identify mutually joinable views.
-/
set_option autoImplicit false
namespace ML
open Spec

/-- The join type of the last explicit declaration for the pair; a left join when there is none. -/
def declaredType (views : List GView) (a b : String) : String :=
  match (explicitFor views a b).getLast? with
  | some d => d.2.2.getD "left_outer"
  | none => "left_outer"

/-- Where an edge comes from: the last explicit declaration for the pair or a shared identifier. -/
theorem edge_origin {views : List GView} {g : Graph} (h : buildGraph views = .ok g) {a b : String}
    {e : JoinInfo} (he : edgeAt g a b = some e) :
    ∃ v ∈ views, v.name = a ∧
      ((∃ d, (explicitFor views a b).getLast? = some d ∧ e = declInfo d) ∨
       ∃ w i j r, Shared views v w i j r ∧ w.name = b ∧
         e = { identJoin r i a j b with jtype := declaredType views a b }) := by
  obtain ⟨hn, h0, h1⟩ := buildGraph_spec h
  by_cases ha : a ∈ views.map (·.name)
  · obtain ⟨v, hv, rfl⟩ := List.mem_map.mp ha
    refine ⟨v, hv, rfl, ?_⟩
    rw [h1 v hv b] at he
    obtain ⟨e0, he0, rfl⟩ := Option.map_eq_some_iff.mp he
    rcases ((foldl_better _ _).2 e0 he0).1 with hd | hm
    · obtain ⟨d, h2, h3⟩ := Option.map_eq_some_iff.mp hd
      refine .inl ⟨d, h2, ?_⟩
      rw [h2, ← h3]; rfl
    · obtain ⟨i, hi, hm⟩ := List.mem_flatMap.mp hm
      obtain ⟨w, j, r, hs, hw, rfl⟩ := (mem_candsOf hn hv hi b e0).mp hm
      refine .inr ⟨w, i, j, r, hs, hw, ?_⟩
      unfold declaredType
      cases (explicitFor views v.name b).getLast? <;> rfl
  · rw [h0 a b ha] at he; cases he

/-! ### C12 -/

/-- C12: an edge that fans out was declared in that direction, or comes from an identifier that
allows the fan-out to that view. -/
theorem C12_fanout_declared (views : List GView) (g : Graph) (h : buildGraph views = .ok g)
    (a b : String) (e : JoinInfo) (he : edgeAt g a b = some e) (hf : FansOut e.rel) :
    ∃ v ∈ views, v.name = a ∧
      ((∃ sqlOn t, DeclaresJoin v b e.rel sqlOn t) ∨
       ∃ i ∈ v.idents, b ∈ i.allowedFanouts ∧
         ∃ w ∈ views, w.name = b ∧ ∃ j ∈ w.idents, j.name = i.name ∧ RelOf i.kind j.kind e.rel) := by
  obtain ⟨v, hv, rfl, ⟨d, hd, rfl⟩ | ⟨w, i, j, r, hs, rfl, rfl⟩⟩ := edge_origin h he
  · rcases explicitFor_mem (List.mem_of_getLast? hd) with ⟨u, hu, hun, hdec⟩ | ⟨hnf, -⟩
    · exact ⟨u, hu, hun, .inl ⟨_, _, hdec⟩⟩
    · exact absurd hf hnf
  · refine ⟨v, hv, rfl, .inr ⟨i, hs.iin, hs.fan hf, w, hs.win, rfl, j, ?_, ?_, hs.rel⟩⟩
    · obtain ⟨pre, post, e, -⟩ := hs.named; rw [e]; simp
    · obtain ⟨-, -, -, e, -⟩ := hs.named; exact e

/-! ### C13 -/

/-- C13 (a): there is an edge exactly when there is an explicit declaration for the pair or an
admissible shared identifier; views outside the project have no outgoing edge. -/
theorem C13_edge_iff (views : List GView) (g : Graph) (h : buildGraph views = .ok g) (a b : String) :
    (∃ e, edgeAt g a b = some e) ↔ ∃ v ∈ views, v.name = a ∧
      ((∃ d, d ∈ explicitFor views a b) ∨ ∃ w i j r, Shared views v w i j r ∧ w.name = b) := by
  constructor
  · rintro ⟨e, he⟩
    obtain ⟨v, hv, hn, ⟨d, hd, -⟩ | ⟨w, i, j, r, hs, hw, -⟩⟩ := edge_origin h he
    · exact ⟨v, hv, hn, .inl ⟨d, List.mem_of_getLast? hd⟩⟩
    · exact ⟨v, hv, hn, .inr ⟨w, i, j, r, hs, hw⟩⟩
  · rintro ⟨v, hv, rfl, hc⟩
    obtain ⟨hn, -, h1⟩ := buildGraph_spec h
    rw [h1 v hv b]
    cases hf : (v.idents.flatMap (fun i => candsOf views v.name i b)).foldl better
        (((explicitFor views v.name b).getLast?).map declInfo) with
    | some e => exact ⟨_, rfl⟩
    | none =>
      exfalso
      obtain ⟨h2, h3⟩ := (foldl_better _ _).1.mp hf
      rcases hc with ⟨d, hd⟩ | ⟨w, i, j, r, hs, hw⟩
      · simp only [Option.map_eq_none_iff, List.getLast?_eq_none_iff] at h2
        rw [h2] at hd
        cases hd
      · have : identJoin r i v.name j b ∈ v.idents.flatMap (fun i => candsOf views v.name i b) :=
          List.mem_flatMap.mpr ⟨i, hs.iin, (mem_candsOf hn hv hs.iin b _).mpr ⟨w, j, r, hs, hw, rfl⟩⟩
        rw [h3] at this
        cases this

/-- C13 (b): the relationship kept ranks at least as well as every admissible shared identifier and
the last explicit declaration for the pair. Among several explicit declarations for one pair the
last one counts, whatever its rank, so this is partial. -/
theorem C13_best_partial (views : List GView) (g : Graph) (h : buildGraph views = .ok g)
    (v : GView) (hv : v ∈ views) (b : String) (e : JoinInfo) (he : edgeAt g v.name b = some e) :
    (∀ w i j r, Shared views v w i j r → w.name = b → rank e.rel ≤ rank r) ∧
    (∀ d, (explicitFor views v.name b).getLast? = some d → rank e.rel ≤ rank d.1) := by
  obtain ⟨hn, -, h1⟩ := buildGraph_spec h
  rw [h1 v hv b] at he
  obtain ⟨e, he0, rfl⟩ := Option.map_eq_some_iff.mp he
  obtain ⟨-, h2, h3, -⟩ := (foldl_better _ _).2 e he0
  simp only [retype_rel]
  constructor
  · intro w i j r hs hw
    exact h3 (identJoin r i v.name j b) (List.mem_flatMap.mpr ⟨i, hs.iin,
      (mem_candsOf hn hv hs.iin b _).mpr ⟨w, j, r, hs, hw, rfl⟩⟩)
  · intro d hd
    exact h2 (declInfo d) (by rw [hd]; rfl)

/-- C13 (c): with at most one explicit declaration for the pair the kept relationship is the best of
all the candidates and is one of them. -/
theorem C13_best (views : List GView) (g : Graph) (h : buildGraph views = .ok g)
    (v : GView) (hv : v ∈ views) (b : String) (e : JoinInfo) (he : edgeAt g v.name b = some e)
    (hone : (explicitFor views v.name b).length ≤ 1) :
    (∀ w i j r, Shared views v w i j r → w.name = b → rank e.rel ≤ rank r) ∧
    (∀ d ∈ explicitFor views v.name b, rank e.rel ≤ rank d.1) ∧
    ((∃ d ∈ explicitFor views v.name b, e.rel = d.1) ∨
      ∃ w i j, Shared views v w i j e.rel ∧ w.name = b) := by
  obtain ⟨h1, h2⟩ := C13_best_partial views g h v hv b e he
  refine ⟨h1, ?_, ?_⟩
  · intro d hd
    apply h2 d
    cases hl : explicitFor views v.name b with
    | nil => rw [hl] at hd; cases hd
    | cons x xs =>
      rw [hl] at hone hd
      have : xs = [] := by
        cases xs with
        | nil => rfl
        | cons y ys => simp at hone
      subst this
      simp only [List.mem_singleton] at hd
      rw [hd]; rfl
  · obtain ⟨u, hu, hun, ⟨d, hd, rfl⟩ | ⟨w, i, j, r, hs, hw, rfl⟩⟩ := edge_origin h he
    · exact .inl ⟨d, List.mem_of_getLast? hd, rfl⟩
    · have : u = v := nodup_names_eq (buildGraph_spec h).1 hu hv hun
      subst this
      exact .inr ⟨w, i, j, hs, hw⟩

/-- C13 (d), the tie rule: an explicit declaration is kept unless an identifier is strictly better;
otherwise the first identifier, in the order of the view, with the best relationship is kept, with
the join type of the explicit declaration it displaces (a left join when there is none). -/
theorem C13_ties (views : List GView) (g : Graph) (h : buildGraph views = .ok g) (v : GView)
    (hv : v ∈ views) (b : String) :
    (∀ d, (explicitFor views v.name b).getLast? = some d →
      (∀ w i j r, Shared views v w i j r → w.name = b → rank d.1 ≤ rank r) →
      edgeAt g v.name b = some ⟨d.1, d.2.2.getD "left_outer", d.2.1, weightOf d.1⟩) ∧
    (∀ pre i post w j r, v.idents = pre ++ i :: post → Shared views v w i j r → w.name = b →
      (∀ d, (explicitFor views v.name b).getLast? = some d → rank r < rank d.1) →
      (∀ i' ∈ pre, ∀ j' r', Shared views v w i' j' r' → rank r < rank r') →
      (∀ i' ∈ post, ∀ j' r', Shared views v w i' j' r' → rank r ≤ rank r') →
      edgeAt g v.name b = some ⟨r, declaredType views v.name b,
        identClause i v.name ++ "=" ++ identClause j b, weightOf r⟩) := by
  simp only [← edgeWeight_eq]
  obtain ⟨hn, -, h1⟩ := buildGraph_spec h
  constructor
  · intro d hd hbest
    obtain ⟨e, he⟩ := (C13_edge_iff views g h v.name b).mpr
      ⟨v, hv, rfl, .inl ⟨d, List.mem_of_getLast? hd⟩⟩
    rw [he]
    rw [h1 v hv b, hd] at he
    obtain ⟨e, he0, rfl⟩ := Option.map_eq_some_iff.mp he
    obtain ⟨-, -, h4, pre, post, h5, h6⟩ := (foldl_better _ _).2 e he0
    cases pre with
    | nil =>
      simp only [Option.map_some, Option.toList_some, List.cons_append, List.nil_append,
        List.cons.injEq] at h5
      rw [← h5.1]; rfl
    | cons p pre =>
      exfalso
      simp only [Option.map_some, Option.toList_some, List.cons_append, List.nil_append,
        List.cons.injEq] at h5
      have hlt := h6 p (by simp)
      rw [← h5.1] at hlt
      have hmem : e ∈ v.idents.flatMap (fun i => candsOf views v.name i b) := by rw [h5.2]; simp
      obtain ⟨i, hi, hm⟩ := List.mem_flatMap.mp hmem
      obtain ⟨w, j, r, hs, hw, rfl⟩ := (mem_candsOf hn hv hi b e).mp hm
      have := hbest w i j r hs hw
      simp only [declInfo, identJoin] at hlt
      omega
  · intro pre i post w j r hsplit hs hw hexp hpre hpost
    obtain ⟨e, he⟩ := (C13_edge_iff views g h v.name b).mpr
      ⟨v, hv, rfl, .inr ⟨w, i, j, r, hs, hw⟩⟩
    obtain ⟨hb1, hb2⟩ := C13_best_partial views g h v hv b e he
    have hle : rank e.rel ≤ rank r := hb1 w i j r hs hw
    rw [he]
    rw [h1 v hv b] at he
    obtain ⟨e, he0, rfl⟩ := Option.map_eq_some_iff.mp he
    simp only [retype_rel] at hle
    obtain ⟨ho, -, -, p, q, h5, h6⟩ := (foldl_better _ _).2 e he0
    have hi : i ∈ v.idents := by rw [hsplit]; simp
    -- which candidates come before those of `i`
    have hbefore : ∀ x ∈ (((explicitFor views v.name b).getLast?).map declInfo).toList ++
        pre.flatMap (fun i => candsOf views v.name i b), rank r < rank x.rel := by
      intro x hx
      simp only [List.mem_append, Option.mem_toList, Option.map_eq_some_iff] at hx
      rcases hx with ⟨d, hd, rfl⟩ | hx
      · exact hexp d hd
      · obtain ⟨i', hi', hm⟩ := List.mem_flatMap.mp hx
        have hi'' : i' ∈ v.idents := by rw [hsplit]; simp [hi']
        obtain ⟨w', j', r', hs', hw', rfl⟩ := (mem_candsOf hn hv hi'' b x).mp hm
        have : w' = w := nodup_names_eq hn hs'.win hs.win (hw'.trans hw.symm)
        subst this
        exact hpre i' hi' j' r' hs'
    have hself : identJoin r i v.name j b ∈ candsOf views v.name i b :=
      (mem_candsOf hn hv hi b _).mpr ⟨w, j, r, hs, hw, rfl⟩
    rw [hsplit, List.flatMap_append, List.flatMap_cons, ← List.append_assoc] at h5
    have hall : ∀ x ∈ candsOf views v.name i b, x = identJoin r i v.name j b :=
      fun x hx => candsOf_all_eq hn hv hi b hx hself
    have hafter : ∀ x ∈ candsOf views v.name i b ++ post.flatMap (fun i => candsOf views v.name i b),
        rank r ≤ rank x.rel := by
      intro x hx
      rcases List.mem_append.mp hx with hx | hx
      · rw [hall x hx]; exact Nat.le_refl _
      · obtain ⟨i', hi', hm⟩ := List.mem_flatMap.mp hx
        have hi'' : i' ∈ v.idents := by rw [hsplit]; simp [hi']
        obtain ⟨w', j', r', hs', hw', rfl⟩ := (mem_candsOf hn hv hi'' b x).mp hm
        have : w' = w := nodup_names_eq hn hs'.win hs.win (hw'.trans hw.symm)
        subst this
        exact hpost i' hi' j' r' hs'
    have hgoal : e = identJoin r i v.name j b := by
      cases hC : candsOf views v.name i b with
      | nil => rw [hC] at hself; cases hself
      | cons c cs =>
        have hcc : c = identJoin r i v.name j b := hall c (by rw [hC]; simp)
        rw [hC] at h5 hafter
        rcases List.append_eq_append_iff.mp h5 with ⟨a', h7, h8⟩ | ⟨c', h7, h8⟩
        · cases a' with
          | nil =>
            simp only [List.nil_append, List.cons_append, List.cons.injEq] at h8
            rw [← h8.1, hcc]
          | cons y ys =>
            exfalso
            simp only [List.cons_append, List.cons.injEq] at h8
            have h9 := h6 y (by rw [h7]; simp)
            rw [← h8.1, hcc] at h9
            have h10 := hafter e (by rw [List.cons_append, h8.2]; simp)
            simp only [identJoin] at h9
            omega
        · cases c' with
          | nil =>
            simp only [List.nil_append, List.cons_append, List.cons.injEq] at h8
            rw [h8.1, hcc]
          | cons y ys =>
            exfalso
            simp only [List.cons_append, List.cons.injEq] at h8
            have := hbefore e (by rw [h7, h8.1]; simp)
            omega
    rw [hgoal]
    unfold declaredType
    cases (explicitFor views v.name b).getLast? <;> rfl

/-- C13: an identifier join that displaces an explicit one keeps the explicit one's join type. -/
example : (buildGraph [⟨"a", [⟨"x", .join "b" .manyToMany "s1" (some "inner"), [], [], none⟩,
      ⟨"k", .foreign, [], [], none⟩]⟩, ⟨"b", [⟨"k", .primary, [], [], none⟩]⟩]).map
    (fun g => edgeAt g "a" "b") = .ok (some ⟨.manyToOne, "inner", "${a.k}=${b.k}", 2⟩) := by decide

/-- C13 (e): "best-ranked among all the candidates" is false for two explicit declarations on one
pair: the later, worse one is kept. -/
theorem C13_last_declaration_wins :
    ∃ (views : List GView) (g : Graph) (a b : String) (e : JoinInfo) (d : Rel × String × Option String),
      buildGraph views = .ok g ∧ edgeAt g a b = some e ∧ d ∈ explicitFor views a b ∧
      rank d.1 < rank e.rel := by
  refine ⟨[⟨"a", [⟨"x", .join "b" .oneToOne "s1" none, [], [], none⟩,
                  ⟨"y", .join "b" .manyToOne "s2" none, [], [], none⟩]⟩, ⟨"b", []⟩],
    ⟨["a", "b"], [(("a", "b"), ⟨.manyToOne, "left_outer", "s2", 2⟩),
      (("b", "a"), ⟨.oneToOne, "left_outer", "s1", 1⟩)]⟩, "a", "b",
    ⟨.manyToOne, "left_outer", "s2", 2⟩, (.oneToOne, "s1", none), ?_, ?_, ?_, ?_⟩ <;> decide

/-! ### C14 -/

/-- C14 (a): an edge on a pair without an explicit declaration comes from two identifiers each of
whose `only_join` lists is empty or names the other view. -/
theorem C14_both_sides (views : List GView) (g : Graph) (h : buildGraph views = .ok g)
    (a b : String) (e : JoinInfo) (he : edgeAt g a b = some e)
    (hno : explicitFor views a b = []) :
    ∃ v ∈ views, v.name = a ∧ ∃ w ∈ views, w.name = b ∧ ∃ i ∈ v.idents, ∃ j ∈ w.idents,
      i.name = j.name ∧ (i.onlyJoin = [] ∨ b ∈ i.onlyJoin) ∧ (j.onlyJoin = [] ∨ a ∈ j.onlyJoin) ∧
      RelOf i.kind j.kind e.rel := by
  obtain ⟨v, hv, rfl, ⟨d, hd, rfl⟩ | ⟨w, i, j, r, hs, rfl, rfl⟩⟩ := edge_origin h he
  · rw [hno] at hd; cases hd
  · obtain ⟨pre, post, e1, e2, -⟩ := hs.named
    exact ⟨v, hv, rfl, w, hs.win, rfl, i, hs.iin, j, by rw [e1]; simp, e2.symm, hs.onlyI, hs.onlyJ,
      hs.rel⟩

/-- C14 (b): more generally, the condition text of a kept edge is an explicit declaration's, or that
of two identifiers that let each other's view through. -/
theorem C14_text_origin (views : List GView) (g : Graph) (h : buildGraph views = .ok g)
    (a b : String) (e : JoinInfo) (he : edgeAt g a b = some e) :
    (∃ d ∈ explicitFor views a b, e.rel = d.1 ∧ e.sqlOn = d.2.1) ∨
    ∃ v w i j, Shared views v w i j e.rel ∧ v.name = a ∧ w.name = b ∧
      e.sqlOn = identClause i a ++ "=" ++ identClause j b := by
  obtain ⟨v, hv, rfl, ⟨d, hd, rfl⟩ | ⟨w, i, j, r, hs, rfl, rfl⟩⟩ := edge_origin h he
  · exact .inl ⟨d, List.mem_of_getLast? hd, rfl, rfl⟩
  · exact .inr ⟨v, w, i, j, hs, rfl, rfl, rfl⟩

/-- C14 (c): the build succeeds exactly when view names are unique and every match of identifiers
that it has to consider has a known relationship (both are `primary` or `foreign`). -/
theorem C14_raises_iff (views : List GView) :
    (∃ g, buildGraph views = .ok g) ↔ (views.map (·.name)).Nodup ∧
      ∀ v ∈ views, ∀ i ∈ v.idents, ∀ w ∈ views, ∀ j, v.name ≠ w.name → FirstNamed w i.name j →
        (∃ k ∈ w.idents, k.name = i.name ∧ NotJoin k.kind) → Lets i.onlyJoin w.name →
        Lets j.onlyJoin v.name → ∃ r, RelOf i.kind j.kind r :=
  ⟨fun ⟨_, h⟩ => ⟨(buildGraph_spec h).1, buildGraph_determined h⟩,
   fun ⟨h1, h2⟩ => buildGraph_ok h1 h2⟩

theorem considerJoin_error {views : List GView} (hn : (views.map (·.name)).Nodup) {v : String} {i : Ident} {g : Graph} {x : String}
    (hx : x ∈ identifierMap views i.name) {e : Err} (h : considerJoin views v i g x = .error e) : e = .query := by
  obtain ⟨w, hw, rfl, k, hk, hkn, -⟩ := (mem_identifierMap views i.name x).mp hx
  unfold considerJoin at h
  split at h
  · rw [(find_view hn w w hw).mpr rfl] at h
    simp only at h
    split at h
    · next hf =>
      have := List.find?_eq_none.mp hf k hk
      simp [hkn] at this
    · next j _ =>
      split at h
      · cases h
      · cases hd : deriveRel i.kind j.kind with
        | ok r => rw [hd] at h; simp only at h; split at h <;> cases h
        | error e' =>
          rw [hd] at h
          cases h
          unfold deriveRel at hd
          split at hd <;> cases hd
          rfl
  · cases h

theorem foldRes_error {α β : Type} {f : β → α → Res β} {e : Err} : ∀ (l : List α) (b : β), (∀ a ∈ l, ∀ b, f b a = .error e → e = .query) →
    foldRes f b l = .error e → e = .query
  | [], _, _, h => by cases h
  | a :: l, b, hf, h => by
    simp only [foldRes] at h
    split at h
    · next e' he => cases h; exact hf a (by simp) b he
    · exact foldRes_error l _ (fun a ha => hf a (by simp [ha])) h

/-- C14 (d): when view names are unique, the only exception is QueryError. -/
theorem C14_raises_query (views : List GView) (hn : (views.map (·.name)).Nodup) (e : Err) (h : buildGraph views = .error e) : e = .query := by
  have key : ∀ (vs : List GView) (seen : List String) (g : Graph), buildGo views (referenceMap views) seen g vs = .error e → e = .query := by
    intro vs
    induction vs with
    | nil => intro seen g h; cases h
    | cons v vs ih =>
      intro seen g h
      simp only [buildGo] at h
      split at h
      · cases h; rfl
      · split at h
        · next e' he =>
          cases h
          unfold buildView at he
          exact foldRes_error _ _ (fun i _ b hb => foldRes_error _ _ (fun x hx b' hb' => considerJoin_error hn hx hb') hb) he
        · exact ih _ _ h
  exact key views [] {} h

/-! ### C15 -/

/-- C15 (a): inverting twice is the identity. -/
theorem C15_invert_twice (r : Rel) : invertRel (invertRel r) = r := by cases r <;> rfl

/-- C15 (b): the relationship derived from A to B is the inverse of the one from B to A, and one is
known exactly when the other is. -/
theorem C15_derive_inverse (i j : IdKind) (r : Rel) :
    deriveRel i j = .ok r ↔ deriveRel j i = .ok (invertRel r) := by
  rw [deriveRel_iff, deriveRel_iff]
  constructor
  · intro h; cases h <;> constructor
  · intro h
    generalize hr : invertRel r = r' at h
    have : r = invertRel r' := by rw [← hr, C15_invert_twice]
    subst this
    cases h <;> constructor

/-- C15 (c): an explicit join declared by `v` towards `u` is usable from `u` to `v` when the reverse
does not fan out. -/
theorem C15_reverse_exists (views : List GView) (g : Graph) (h : buildGraph views = .ok g)
    (u v : GView) (hu : u ∈ views) (hv : v ∈ views) (r : Rel) (s : String) (t : Option String)
    (hd : DeclaresJoin v u.name r s t) (hf : ¬ FansOut (invertRel r)) :
    ∃ e, edgeAt g u.name v.name = some e :=
  (C13_edge_iff views g h u.name v.name).mpr
    ⟨u, hu, rfl, .inl ⟨_, (mem_explicitFor hv).2 rfl hd hf⟩⟩

/-- C15 (d): when nothing else joins `u` to `v`, the reverse edge exists exactly when some
declaration of `v` towards `u` has a reverse that does not fan out, and it carries the inverse
relationship and the condition of such a declaration. -/
theorem C15_reverse_iff (views : List GView) (g : Graph) (h : buildGraph views = .ok g)
    (u v : GView) (hu : u ∈ views) (hv : v ∈ views)
    (hown : ∀ r s t, ¬ DeclaresJoin u v.name r s t) (hshared : ∀ i j r, ¬ Shared views u v i j r) :
    ((∃ e, edgeAt g u.name v.name = some e) ↔
      ∃ r s t, DeclaresJoin v u.name r s t ∧ ¬ FansOut (invertRel r)) ∧
    ∀ e, edgeAt g u.name v.name = some e →
      ∃ r s t, DeclaresJoin v u.name r s t ∧ ¬ FansOut (invertRel r) ∧ e.rel = invertRel r ∧ e.sqlOn = s := by
  have hn := (buildGraph_spec h).1
  have key : ∀ e, edgeAt g u.name v.name = some e →
      ∃ r s t, DeclaresJoin v u.name r s t ∧ ¬ FansOut (invertRel r) ∧ e.rel = invertRel r ∧ e.sqlOn = s := by
    intro e he
    obtain ⟨u', hu', hun, ⟨d, hd, rfl⟩ | ⟨w, i, j, r, hs, hw, rfl⟩⟩ := edge_origin h he
    · rcases explicitFor_mem (List.mem_of_getLast? hd) with ⟨x, hx, hxn, hdec⟩ | ⟨hnf, x, hx, hxn, hdec⟩
      · have : x = u := nodup_names_eq hn hx hu hxn
        subst this
        exact absurd hdec (hown _ _ _)
      · have : x = v := nodup_names_eq hn hx hv hxn
        subst this
        exact ⟨_, _, _, hdec, by rw [C15_invert_twice]; exact hnf, by rw [C15_invert_twice]; rfl, rfl⟩
    · have h1 : u' = u := nodup_names_eq hn hu' hu hun
      have h2 : w = v := nodup_names_eq hn hs.win hv hw
      subst h1 h2
      exact absurd hs (hshared i j r)
  refine ⟨⟨?_, ?_⟩, key⟩
  · rintro ⟨e, he⟩
    obtain ⟨r, s, t, hd, hf, -⟩ := key e he
    exact ⟨r, s, t, hd, hf⟩
  · rintro ⟨r, s, t, hd, hf⟩
    exact C15_reverse_exists views g h u v hu hv r s t hd hf

/-! ### C16 -/

/-- C16 (a): every view of the project, and every node of the graph, has a join-graph name; names
outside the graph raise. -/
theorem C16_named (views : List GView) (g : Graph) (h : buildGraph views = .ok g)
    (comps : List (List String)) (hs : IsScc g comps) :
    (∀ v ∈ views, ∃ n, joinGraphHash comps v.name = .ok n) ∧
    ∀ x, (∃ n, joinGraphHash comps x = .ok n) ↔ x ∈ g.nodes := by
  refine ⟨fun v hv => hash_exists hs (buildGraph_nodes h v hv), fun x => ⟨?_, hash_exists hs⟩⟩
  rintro ⟨n, hn⟩
  exact hash_node hs hn

/-- C16 (b): two views have the same name exactly when each is reachable from the other. -/
theorem C16_same_name_iff (g : Graph) (comps : List (List String)) (hs : IsScc g comps)
    (a b na nb : String) (ha : joinGraphHash comps a = .ok na) (hb : joinGraphHash comps b = .ok nb) :
    na = nb ↔ Reach g a b ∧ Reach g b a := by
  obtain ⟨i, c, hi, hac, rfl⟩ := (hash_iff hs a na).mp ha
  obtain ⟨j, d, hj, hbd, rfl⟩ := (hash_iff hs b nb).mp hb
  have hc := sorted_comp hs (List.mem_of_getElem? hi)
  constructor
  · intro e
    have := subqueryName_inj e
    subst this
    rw [hi] at hj
    cases hj
    exact (hc.2.2.2 a hac b (hc.2.1 b hbd)).mp hbd
  · intro hm
    have : b ∈ c := (hc.2.2.2 a hac b (hash_node hs hb)).mpr hm
    have h2 := (hash_iff hs b _).mpr ⟨i, c, hi, this, rfl⟩
    rw [h2] at hb
    exact Except.ok.inj hb

/-- C16 (c): a view is listed as usable with a join graph exactly when it is reachable from some
view of that join graph. -/
theorem C16_usable_iff (g : Graph) (hw : WF g) (comps : List (List String)) (hs : IsScc g comps)
    (v n : String) :
    n ∈ weakHashes g comps v ↔ ∃ u, joinGraphHash comps u = .ok n ∧ Reach g u v := by
  simp only [weakHashes, List.mem_map, List.mem_filter, List.contains_iff_mem]
  constructor
  · rintro ⟨⟨c, i⟩, ⟨hci, hv⟩, rfl⟩
    have hget := List.mem_zipIdx_iff_getElem?.mp hci
    have hc := sorted_comp hs (List.mem_of_getElem? hget)
    obtain ⟨y, hy, hr⟩ := (mem_subgraphNodes hw hc.1 hc.2.1 v).mp hv
    exact ⟨y, (hash_iff hs y _).mpr ⟨i, c, hget, hy, rfl⟩, hr⟩
  · rintro ⟨u, hu, hr⟩
    obtain ⟨i, c, hi, huc, rfl⟩ := (hash_iff hs u n).mp hu
    have hc := sorted_comp hs (List.mem_of_getElem? hi)
    exact ⟨(c, i), ⟨List.mem_zipIdx_iff_getElem?.mpr hi,
      (mem_subgraphNodes hw hc.1 hc.2.1 v).mpr ⟨u, huc, hr⟩⟩, rfl⟩

/-- C16 (d): the views reported as joinable with `v` are the others reachable from a view that also
reaches `v`, each once, in alphabetical order. -/
theorem C16_joinable (g : Graph) (hw : WF g) (comps : List (List String)) (hs : IsScc g comps)
    (v : String) :
    (∀ w, w ∈ joinableViews g comps v ↔ w ≠ v ∧ ∃ u ∈ g.nodes, Reach g u v ∧ Reach g u w) ∧
    (joinableViews g comps v).Nodup ∧ (joinableViews g comps v).Pairwise (· ≤ ·) := by
  refine ⟨?_, ?_, ?_⟩
  · intro w
    simp only [joinableViews, sortedSet, List.mem_filter, mem_sortStr, List.mem_eraseDups,
      List.mem_flatMap, decide_eq_true_eq]
    rw [and_comm]
    refine and_congr_right (fun _ => ?_)
    constructor
    · rintro ⟨c, hc, hm⟩
      have h2 := sorted_comp hs hc
      split at hm
      · rename_i hv
        rw [List.contains_iff_mem, mem_subgraphNodes hw h2.1 h2.2.1] at hv
        rw [mem_subgraphNodes hw h2.1 h2.2.1] at hm
        obtain ⟨y, hy, hr⟩ := hv
        obtain ⟨z, hz, hr'⟩ := hm
        have := (h2.2.2.2 y hy z (h2.2.1 z hz)).mp hz
        exact ⟨y, h2.2.1 y hy, hr, this.1.trans hr'⟩
      · cases hm
    · rintro ⟨u, hu, hr, hr'⟩
      obtain ⟨n, hn⟩ := hash_exists hs hu
      obtain ⟨i, c, hi, huc, -⟩ := (hash_iff hs u n).mp hn
      have hc := List.mem_of_getElem? hi
      have h2 := sorted_comp hs hc
      refine ⟨c, hc, ?_⟩
      rw [if_pos (by
        rw [List.contains_iff_mem, mem_subgraphNodes hw h2.1 h2.2.1]
        exact ⟨u, huc, hr⟩)]
      rw [mem_subgraphNodes hw h2.1 h2.2.1]
      exact ⟨u, huc, hr'⟩
  · exact (nodup_sortStr (nodup_eraseDups _)).filter _
  · exact (sorted_sortStr _).filter _

/-- C16 (e): the listed names are exactly the names given to views, each once. -/
theorem C16_listed (g : Graph) (comps : List (List String)) (hs : IsScc g comps) :
    (∀ n, n ∈ listJoinGraphs comps ↔ ∃ u, joinGraphHash comps u = .ok n) ∧
    (listJoinGraphs comps).Nodup := by
  constructor
  · intro n
    simp only [listJoinGraphs, List.mem_map, List.mem_range]
    constructor
    · rintro ⟨i, hi, rfl⟩
      have hc := sorted_comp hs (List.getElem_mem hi)
      obtain ⟨x, hx⟩ := List.exists_mem_of_ne_nil _ hc.2.2.1
      exact ⟨x, (hash_iff hs x _).mpr ⟨i, _, List.getElem?_eq_getElem hi, hx, rfl⟩⟩
    · rintro ⟨u, hu⟩
      obtain ⟨i, c, hi, -, rfl⟩ := (hash_iff hs u n).mp hu
      exact ⟨i, (List.getElem?_eq_some_iff.mp hi).1, rfl⟩
  · rw [List.nodup_iff_pairwise_ne, listJoinGraphs, List.pairwise_map]
    have := List.nodup_range (n := (sortComponents comps).length)
    rw [List.nodup_iff_pairwise_ne] at this
    exact this.imp (fun h c => h (subqueryName_inj c))

/-- C16 (f): the order networkx returns the components in does not matter: any two answers that
meet its promise give every view the same name. -/
theorem C16_order_irrelevant (g : Graph) (comps comps' : List (List String)) (hs : IsScc g comps)
    (hs' : IsScc g comps') (v : String) : joinGraphHash comps v = joinGraphHash comps' v := by
  unfold joinGraphHash
  rw [sortComponents_unique hs hs']

/-- C16 (g): the hypotheses of the statements above are met by every graph the build returns. -/
theorem C16_built_graphs (views : List GView) (g : Graph) (h : buildGraph views = .ok g) :
    WF g ∧ IsScc g (scc g) :=
  ⟨buildGraph_wf h, scc_isScc (buildGraph_wf h)⟩

/-! ### Concrete cases

`orders` has a foreign `cust` and a one-to-many join to `items`; `customers` has a primary `cust`
that may fan out to `orders`; `regions` restricts its `reg` identifier to `customers`. -/

def orders : GView := ⟨"orders", [⟨"cust", .foreign, [], [], none⟩,
  ⟨"to_items", .join "items" .oneToMany "${orders.id}=${items.oid}" (some "inner"), [], [], none⟩]⟩
def customers : GView := ⟨"customers", [⟨"cust", .primary, [], ["orders"], none⟩,
  ⟨"reg", .foreign, [], [], none⟩]⟩
def items : GView := ⟨"items", []⟩
def regions : GView := ⟨"regions", [⟨"reg", .primary, ["customers"], [], none⟩]⟩
def shop : List GView := [orders, customers, items, regions]
def shopGraph : Graph := ⟨["orders", "items", "customers", "regions"],
  [(("orders", "items"), ⟨.oneToMany, "inner", "${orders.id}=${items.oid}", 3⟩),
   (("orders", "customers"), ⟨.manyToOne, "left_outer", "${orders.cust}=${customers.cust}", 2⟩),
   (("customers", "orders"), ⟨.oneToMany, "left_outer", "${customers.cust}=${orders.cust}", 3⟩),
   (("customers", "regions"), ⟨.manyToOne, "left_outer", "${customers.reg}=${regions.reg}", 2⟩),
   (("items", "orders"), ⟨.manyToOne, "inner", "${orders.id}=${items.oid}", 2⟩)]⟩

example : buildGraph shop = .ok shopGraph := by decide

-- C12: both ways for a fan-out edge to exist
example : (edgeAt shopGraph "orders" "items").map (·.rel) = some .oneToMany ∧
    (edgeAt shopGraph "customers" "orders").map (·.rel) = some .oneToMany ∧
    edgeAt shopGraph "regions" "customers" = none := by decide

-- C13: an identifier join against a worse explicit one, and against an equal explicit one
example : (buildGraph [⟨"a", [⟨"k", .foreign, [], [], none⟩,
      ⟨"j", .join "b" .manyToMany "s" none, [], [], none⟩]⟩,
    ⟨"b", [⟨"k", .primary, [], [], none⟩]⟩]).map (fun g => edgeAt g "a" "b") =
    .ok (some ⟨.manyToOne, "left_outer", "${a.k}=${b.k}", 2⟩) := by decide
example : (buildGraph [⟨"a", [⟨"k", .foreign, [], [], none⟩,
      ⟨"j", .join "b" .manyToOne "s" none, [], [], none⟩]⟩,
    ⟨"b", [⟨"k", .primary, [], [], none⟩]⟩]).map (fun g => edgeAt g "a" "b") =
    .ok (some ⟨.manyToOne, "left_outer", "s", 2⟩) := by decide

-- C14: `only_join` of either side is enough to stop the join; duplicate names raise
example : (buildGraph [⟨"a", [⟨"k", .foreign, ["c"], [], none⟩]⟩,
    ⟨"b", [⟨"k", .primary, [], [], none⟩]⟩]).map (fun g => edgeAt g "a" "b") = .ok none := by decide
example : (buildGraph [⟨"a", [⟨"k", .foreign, [], [], none⟩]⟩,
    ⟨"b", [⟨"k", .primary, ["c"], [], none⟩]⟩]).map (fun g => edgeAt g "a" "b") = .ok none := by decide
example : buildGraph [⟨"a", []⟩, ⟨"a", []⟩] = .error .query := by decide
-- a duplicate name can also surface as another exception, raised before the names are compared
example : buildGraph [⟨"u", [⟨"i", .foreign, [], [], none⟩]⟩, ⟨"x", []⟩,
    ⟨"x", [⟨"i", .primary, [], [], none⟩]⟩] = .error .attributeError := by decide

-- C15: the hypotheses of `C15_reverse_iff` for `items` and `orders`
example : DeclaresJoin orders "items" .oneToMany "${orders.id}=${items.oid}" (some "inner") ∧
    ¬ FansOut (invertRel .oneToMany) ∧ (∀ r s t, ¬ DeclaresJoin items "orders" r s t) ∧
    (∀ i j r, ¬ Shared shop items orders i j r) := by
  refine ⟨⟨_, List.mem_cons_of_mem _ (List.mem_cons_self ..), rfl⟩, by simp [FansOut, invertRel],
    ?_, ?_⟩
  · rintro r s t ⟨i, hi, -⟩; cases hi
  · rintro i j r hs; cases hs.iin

-- C16: the four views fall into two join graphs, and `regions` can be used with both
set_option maxRecDepth 20000 in
example : (["orders", "items", "customers", "regions"].map (joinGraphHash (scc shopGraph))) =
    [.ok "subquery_0", .ok "subquery_0", .ok "subquery_0", .ok "subquery_1"] ∧
    weakHashes shopGraph (scc shopGraph) "regions" = ["subquery_0", "subquery_1"] ∧
    weakHashes shopGraph (scc shopGraph) "items" = ["subquery_0"] ∧
    joinableViews shopGraph (scc shopGraph) "items" = ["customers", "orders", "regions"] ∧
    joinGraphHash (scc shopGraph) "nope" = .error .query := by decide

end ML
