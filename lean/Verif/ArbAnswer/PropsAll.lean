import Verif.ArbAnswer.Props
import Std.Data.String.ToNat
/- C91: the lines of a merge with any kinds of joins. -/
set_option autoImplicit false
namespace ML
open Spec
variable {α : Type} [DecidableEq α]

theorem kind_any {s : SubQ} {env : ArbEnv} {j : String × SqlJoin × List JoinCond} (hj : JoinFor env s j) :
    (s.joinType ≠ some "full_outer" ∧ KeepsAll s ∧ j.2.1 = .left) ∨ (s.joinType = some "full_outer" ∧ KeepsAll s ∧ j.2.1 = .outer) ∨
      (s.joinType ≠ some "full_outer" ∧ ¬ KeepsAll s ∧ (j.2.1 = .inner ∨ j.2.1 = .cross)) := by
  rw [hj.2.1]
  unfold KeepsAll
  by_cases h1 : s.joinType = some "inner"
  · exact .inr (.inr ⟨by rw [h1]; simp, fun h => h.1 h1, .inl (by rw [h1]; rfl)⟩)
  · by_cases h2 : s.joinType = some "cross"
    · exact .inr (.inr ⟨by rw [h2]; simp, fun h => h.2 h2, .inr (by rw [h2]; rfl)⟩)
    · by_cases h3 : s.joinType = some "full_outer"
      · exact .inr (.inl ⟨h3, ⟨h1, h2⟩, by rw [h3]; rfl⟩)
      · refine .inl ⟨h3, ⟨h1, h2⟩, ?_⟩
        unfold sqlJoinOf
        split
        · exact absurd ‹_› h1
        · exact absurd ‹_› h3
        · exact absurd ‹_› h2
        · rfl

theorem mem_leftA {env : ArbEnv} {cast : α → α} {tables : String → List (MLine α)} {s : SubQ} {j : String × SqlJoin × List JoinCond}
    (hj : JoinFor env s j) (hs : KeepsAll s) (l : MLine α) (r x : MJRow α) :
    x ∈ leftRowsA cast j.1 j.2.2 (tables j.1) (("merged_query_0", some l) :: r) ↔
      ∃ p, Contributes env cast tables l s p ∧ x = ("merged_query_0", some l) :: (r ++ [(s.cte, p)]) := by
  have := mem_stepRow (cast := cast) (tables := tables) (s := { s with joinType := none }) (j := (j.1, .left, j.2.2))
    (env := env) ⟨hj.1, rfl, hj.2.2⟩ (.inl rfl) l r x
  simp only [stepRow, if_true] at this
  rw [this]
  have hg : ∀ p, Contributes env cast tables l { s with joinType := none } p ↔ Contributes env cast tables l s p := by
    intro p
    cases p with
    | none => simp [Contributes, hs, Belongs]; simp [KeepsAll]
    | some t => exact Iff.rfl
  simp only [hg]

theorem mem_innerA {env : ArbEnv} {cast : α → α} {tables : String → List (MLine α)} {s : SubQ} {j : String × SqlJoin × List JoinCond}
    (hj : JoinFor env s j) (hs : ¬ KeepsAll s) (l : MLine α) (r x : MJRow α) :
    x ∈ innerRowsA cast j.1 j.2.2 (tables j.1) (("merged_query_0", some l) :: r) ↔
      ∃ p, Contributes env cast tables l s p ∧ x = ("merged_query_0", some l) :: (r ++ [(s.cte, p)]) := by
  have := mem_stepRow (cast := cast) (tables := tables) (s := { s with joinType := some "inner" }) (j := (j.1, .inner, j.2.2))
    (env := env) ⟨hj.1, rfl, hj.2.2⟩ (.inr (.inr rfl)) l r x
  rw [stepRow, if_neg (by simp)] at this
  rw [this]
  have hg : ∀ p, Contributes env cast tables l { s with joinType := some "inner" } p ↔ Contributes env cast tables l s p := by
    intro p
    cases p with
    | none => simp [Contributes, hs]; simp [KeepsAll]
    | some t => exact Iff.rfl
  simp only [hg]

/-- No line of the first query that is still there has a partner in line `t` of query `s`, which follows the queries `before`
(for the proofs; it models no file in /repo). -/
def Alone (env : ArbEnv) (cast : α → α) (tables : String → List (MLine α)) (before : List SubQ) (s : SubQ) (t : MLine α) : Prop :=
  ∀ l ∈ tables "merged_query_0", (∃ ps, List.Forall₂ (Contributes env cast tables l) before ps) → ¬ Belongs env cast s l t

/-- The rows after some joins (for the proofs; it models no file in /repo). -/
def RowsAre (env : ArbEnv) (cast : α → α) (tables : String → List (MLine α)) (pre : List SubQ) (rows : List (MJRow α)) : Prop :=
  ∀ x, x ∈ rows ↔
    (∃ l ∈ tables "merged_query_0", ∃ ps, List.Forall₂ (Contributes env cast tables l) pre ps ∧
      x = ("merged_query_0", some l) :: rowOf pre ps) ∨
    (∃ a s b, pre = a ++ s :: b ∧ s.joinType = some "full_outer" ∧ (∀ s' ∈ b, KeepsAll s') ∧ ∃ t ∈ tables s.cte,
      Alone env cast tables a s t ∧ x = (s.cte, some t) :: rowOf b (b.map (fun _ => none)))

omit [DecidableEq α] in
theorem rowOf_append : ∀ {ss : List SubQ} {ps : List (Option (MLine α))} (s : SubQ) (p : Option (MLine α)), ss.length = ps.length →
    rowOf (ss ++ [s]) (ps ++ [p]) = rowOf ss ps ++ [(s.cte, p)] := by
  intro ss
  induction ss with
  | nil => intro ps s p h; cases ps with
    | nil => rfl
    | cons _ _ => simp at h
  | cons s0 ss ih => intro ps s p h; cases ps with
    | nil => simp at h
    | cons p0 ps =>
      simp only [List.cons_append, rowOf]
      rw [ih s p (by simpa using h)]

omit [DecidableEq α] in
theorem dictGet_rowOf_none {c : String} : ∀ {ss : List SubQ} {ps : List (Option (MLine α))}, (∀ s ∈ ss, s.cte ≠ c) → dictGet (rowOf ss ps) c = none := by
  intro ss
  induction ss with
  | nil => intro ps _; simp [rowOf, dictGet]
  | cons s ss ih =>
    intro ps h
    cases ps with
    | nil => simp [rowOf, dictGet]
    | cons p ps =>
      have h0 := h s (List.mem_cons_self ..)
      have := ih (ps := ps) (fun s hs => h s (List.mem_cons_of_mem _ hs))
      simp only [rowOf, dictGet, h0, if_false]
      exact this

/-- A row without a line of the first query meets no join condition. -/
theorem joinHit_alone {env : ArbEnv} {cast : α → α} {s : SubQ} {j : String × SqlJoin × List JoinCond} (hj : JoinFor env s j)
    (hne : s.joinFields ≠ []) (r : MJRow α) (hr : dictGet r "merged_query_0" = none) (t : MLine α) : joinHit cast j.2.2 r t = false := by
  obtain ⟨_, _, hf⟩ := hj
  generalize hks : s.joinFields = ks at hf hne
  generalize j.2.2 = cs at hf ⊢
  cases hf with
  | nil => exact absurd rfl hne
  | cons h _ =>
    obtain ⟨jf, bf, _, _, hb, _⟩ := h
    unfold joinHit
    rw [List.all_cons, hb]
    simp [cellAt, hr, condEq]

omit [DecidableEq α] in
theorem forall₂_snoc {β γ : Type} {R : β → γ → Prop} {l : List β} {b : β} {m : List γ} :
    List.Forall₂ R (l ++ [b]) m ↔ ∃ m' c, List.Forall₂ R l m' ∧ R b c ∧ m = m' ++ [c] := by
  constructor
  · intro h
    induction l generalizing m with
    | nil =>
      cases h with
      | cons h hn => cases hn; exact ⟨[], _, .nil, h, rfl⟩
    | cons a l ih =>
      cases h with
      | cons h hn =>
        obtain ⟨m', c, h1, h2, rfl⟩ := ih hn
        exact ⟨_ :: m', c, .cons h h1, h2, rfl⟩
  · rintro ⟨m', c, h1, h2, rfl⟩
    induction h1 with
    | nil => exact .cons h2 .nil
    | cons h _ ih => exact .cons h ih

theorem rows_step {env : ArbEnv} {cast : α → α} {tables : String → List (MLine α)} {pre : List SubQ} {rows : List (MJRow α)} {s : SubQ}
    {j : String × SqlJoin × List JoinCond} (hr : RowsAre env cast tables pre rows) (hj : JoinFor env s j) (hne : s.joinFields ≠ [])
    (hcte : ∀ s' ∈ pre, s'.cte ≠ "merged_query_0") : RowsAre env cast tables (pre ++ [s]) (arbStep cast tables rows j) := by
  have halone : ∀ a s' b (t : MLine α), pre = a ++ s' :: b →
      dictGet ((s'.cte, some t) :: rowOf b (b.map (fun _ => (none : Option (MLine α))))) "merged_query_0" = none := by
    intro a s' b t he
    have h1 := hcte s' (by rw [he]; simp)
    have h2 := dictGet_rowOf_none (c := "merged_query_0") (ss := b) (ps := b.map (fun _ => (none : Option (MLine α))))
      (fun s'' hs => hcte s'' (by rw [he]; simp [hs]))
    simp only [dictGet, h1, if_false]
    exact h2
  have hnohit : ∀ a s' b (t t' : MLine α), pre = a ++ s' :: b →
      joinHit cast j.2.2 ((s'.cte, some t) :: rowOf b (b.map (fun _ => none))) t' = false :=
    fun a s' b t t' he => joinHit_alone hj hne _ (halone a s' b t he) t'
  -- rows kept when the join keeps lines without partner
  have hleft : KeepsAll s → ∀ x, (x ∈ rows.flatMap (leftRowsA cast j.1 j.2.2 (tables j.1)) ↔
      (∃ l ∈ tables "merged_query_0", ∃ ps, List.Forall₂ (Contributes env cast tables l) (pre ++ [s]) ps ∧
        x = ("merged_query_0", some l) :: rowOf (pre ++ [s]) ps) ∨
      (∃ a s' b, pre = a ++ s' :: b ∧ s'.joinType = some "full_outer" ∧ (∀ s'' ∈ b, KeepsAll s'') ∧ ∃ t ∈ tables s'.cte,
        Alone env cast tables a s' t ∧ x = (s'.cte, some t) :: rowOf (b ++ [s]) ((b ++ [s]).map (fun _ => none)))) := by
    intro hk x
    rw [List.mem_flatMap]
    constructor
    · rintro ⟨y, hy, hx⟩
      rcases (hr y).mp hy with ⟨l, hl, ps, hps, rfl⟩ | ⟨a, s', b, he, ho, hb, t, ht, hal, rfl⟩
      · obtain ⟨p, hp, rfl⟩ := (mem_leftA hj hk l _ x).mp hx
        exact .inl ⟨l, hl, ps ++ [p], forall₂_snoc.mpr ⟨ps, p, hps, hp, rfl⟩, by rw [rowOf_append _ _ hps.length_eq]⟩
      · refine .inr ⟨a, s', b, he, ho, hb, t, ht, hal, ?_⟩
        unfold leftRowsA at hx
        rw [if_neg (by rw [List.any_eq_true]; rintro ⟨t', _, h'⟩; rw [hnohit a s' b t t' he] at h'; cases h'), List.mem_singleton] at hx
        rw [hx, hj.1, List.map_append, List.map_cons, List.map_nil, rowOf_append _ _ (by simp)]
        rfl
    · rintro (⟨l, hl, ps, hps, rfl⟩ | ⟨a, s', b, he, ho, hb, t, ht, hal, rfl⟩)
      · obtain ⟨ps', p, h1, h2, rfl⟩ := forall₂_snoc.mp hps
        refine ⟨_, (hr _).mpr (.inl ⟨l, hl, ps', h1, rfl⟩), (mem_leftA hj hk l _ _).mpr ⟨p, h2, ?_⟩⟩
        rw [rowOf_append _ _ h1.length_eq]
      · refine ⟨_, (hr _).mpr (.inr ⟨a, s', b, he, ho, hb, t, ht, hal, rfl⟩), ?_⟩
        unfold leftRowsA
        rw [if_neg (by rw [List.any_eq_true]; rintro ⟨t', _, h'⟩; rw [hnohit a s' b t t' he] at h'; cases h'), List.mem_singleton,
          hj.1, List.map_append, List.map_cons, List.map_nil, rowOf_append _ _ (by simp)]
        rfl
  have hsplit : ∀ a s' b, pre ++ [s] = a ++ s' :: b ↔ (∃ b', b = b' ++ [s] ∧ pre = a ++ s' :: b') ∨ (b = [] ∧ a = pre ∧ s' = s) := by
    intro a s' b
    rcases List.eq_nil_or_concat b with rfl | ⟨b', z, rfl⟩
    · constructor
      · intro h
        have := List.append_inj' h rfl
        refine .inr ⟨rfl, this.1.symm, ?_⟩
        simpa using this.2.symm
      · rintro (⟨b', h, _⟩ | ⟨_, rfl, rfl⟩)
        · simp at h
        · rfl
    · constructor
      · intro h
        have h' : pre ++ [s] = (a ++ s' :: b') ++ [z] := by simpa using h
        obtain ⟨h1, h2⟩ := List.append_inj' h' rfl
        have : s = z := by simpa using h2
        subst this
        exact .inl ⟨b', by simp, h1⟩
      · rintro (⟨b'', h, rfl⟩ | ⟨h, _⟩)
        · rw [h]; simp
        · simp at h
  intro x
  rcases kind_any hj with ⟨hnf, hk, hkind⟩ | ⟨hf, hk, hkind⟩ | ⟨hnf, hk, hkind⟩
  · have : arbStep cast tables rows j = rows.flatMap (leftRowsA cast j.1 j.2.2 (tables j.1)) := by unfold arbStep; rw [hkind]
    rw [this, hleft hk]
    refine or_congr Iff.rfl ?_
    constructor
    · rintro ⟨a, s', b, he, ho, hb, t, ht, hal, rfl⟩
      refine ⟨a, s', b ++ [s], (hsplit _ _ _).mpr (.inl ⟨b, rfl, he⟩), ho, ?_, t, ht, hal, rfl⟩
      intro s'' hs''
      rcases List.mem_append.mp hs'' with h | h
      · exact hb s'' h
      · rw [List.mem_singleton.mp h]; exact hk
    · rintro ⟨a, s', b, he, ho, hb, t, ht, hal, rfl⟩
      rcases (hsplit _ _ _).mp he with ⟨b', rfl, he'⟩ | ⟨_, _, rfl⟩
      · exact ⟨a, s', b', he', ho, fun s'' h => hb s'' (List.mem_append_left _ h), t, ht, hal, rfl⟩
      · exact absurd ho hnf
  · have : arbStep cast tables rows j = rows.flatMap (leftRowsA cast j.1 j.2.2 (tables j.1)) ++
        ((tables j.1).filter (fun t => rows.all (fun r => !joinHit cast j.2.2 r t))).map (fun t => [(j.1, some t)]) := by
      unfold arbStep; rw [hkind]
    rw [this, List.mem_append, hleft hk]
    have hal' : ∀ t : MLine α, rows.all (fun r => !joinHit cast j.2.2 r t) = true ↔ Alone env cast tables pre s t := by
      intro t
      rw [List.all_eq_true]
      constructor
      · rintro hx l hl ⟨ps, hps⟩ hb
        have := hx _ ((hr _).mpr (.inl ⟨l, hl, ps, hps, rfl⟩))
        rw [(joinHit_iff hj l t _).mpr hb] at this
        cases this
      · intro hx y hy
        rw [Bool.not_eq_true', Bool.eq_false_iff]
        rcases (hr y).mp hy with ⟨l, hl, ps, hps, rfl⟩ | ⟨a, s', b, he, ho, hb, t', ht, hal, rfl⟩
        · exact fun hh => hx l hl ⟨ps, hps⟩ ((joinHit_iff hj l t _).mp hh)
        · rw [hnohit a s' b t' t he]; simp
    rw [or_assoc]
    refine or_congr Iff.rfl ?_
    constructor
    · rintro (⟨a, s', b, he, ho, hb, t, ht, hal, rfl⟩ | hx)
      · refine ⟨a, s', b ++ [s], (hsplit _ _ _).mpr (.inl ⟨b, rfl, he⟩), ho, ?_, t, ht, hal, rfl⟩
        intro s'' hs''
        rcases List.mem_append.mp hs'' with h | h
        · exact hb s'' h
        · rw [List.mem_singleton.mp h]; exact hk
      · simp only [List.mem_map, List.mem_filter, hal'] at hx
        obtain ⟨t, ⟨ht, hal⟩, rfl⟩ := hx
        rw [hj.1] at ht ⊢
        exact ⟨pre, s, [], rfl, hf, by simp, t, ht, hal, rfl⟩
    · rintro ⟨a, s', b, he, ho, hb, t, ht, hal, rfl⟩
      rcases (hsplit _ _ _).mp he with ⟨b', rfl, he'⟩ | ⟨rfl, rfl, rfl⟩
      · exact .inl ⟨a, s', b', he', ho, fun s'' h => hb s'' (List.mem_append_left _ h), t, ht, hal, rfl⟩
      · refine .inr ?_
        simp only [List.mem_map, List.mem_filter, hal']
        rw [hj.1]
        exact ⟨t, ⟨ht, hal⟩, rfl⟩
  · have : arbStep cast tables rows j = rows.flatMap (innerRowsA cast j.1 j.2.2 (tables j.1)) := by
      unfold arbStep; rcases hkind with h | h <;> rw [h]
    rw [this, List.mem_flatMap]
    constructor
    · rintro ⟨y, hy, hx⟩
      rcases (hr y).mp hy with ⟨l, hl, ps, hps, rfl⟩ | ⟨a, s', b, he, ho, hb, t, ht, hal, rfl⟩
      · obtain ⟨p, hp, rfl⟩ := (mem_innerA hj hk l _ x).mp hx
        exact .inl ⟨l, hl, ps ++ [p], forall₂_snoc.mpr ⟨ps, p, hps, hp, rfl⟩, by rw [rowOf_append _ _ hps.length_eq]⟩
      · unfold innerRowsA at hx
        simp only [List.mem_map, List.mem_filter] at hx
        obtain ⟨t', ⟨_, h'⟩, _⟩ := hx
        rw [hnohit a s' b t t' he] at h'
        cases h'
    · rintro (⟨l, hl, ps, hps, rfl⟩ | ⟨a, s', b, he, ho, hb, t, ht, hal, rfl⟩)
      · obtain ⟨ps', p, h1, h2, rfl⟩ := forall₂_snoc.mp hps
        refine ⟨_, (hr _).mpr (.inl ⟨l, hl, ps', h1, rfl⟩), (mem_innerA hj hk l _ _).mpr ⟨p, h2, ?_⟩⟩
        rw [rowOf_append _ _ h1.length_eq]
      · rcases (hsplit _ _ _).mp he with ⟨b', rfl, _⟩ | ⟨_, _, rfl⟩
        · exact absurd (hb s (by simp)) hk
        · exact absurd ho hnf

theorem rows_all {env : ArbEnv} {cast : α → α} {tables : String → List (MLine α)} {ss : List SubQ}
    {js : List (String × SqlJoin × List JoinCond)} (hj : List.Forall₂ (JoinFor env) ss js) (hne : ∀ s ∈ ss, s.joinFields ≠ []) :
    ∀ {pre : List SubQ} {rows : List (MJRow α)}, RowsAre env cast tables pre rows → (∀ s ∈ pre ++ ss, s.cte ≠ "merged_query_0") →
      RowsAre env cast tables (pre ++ ss) (js.foldl (arbStep cast tables) rows) := by
  induction hj with
  | nil => intro pre rows h _; simpa using h
  | @cons s j ss js h _ ih =>
    intro pre rows hr hc
    have h1 := rows_step hr h (hne s (List.mem_cons_self ..)) (fun s' hs => hc s' (List.mem_append_left _ hs))
    have h2 := ih (fun s hs => hne s (List.mem_cons_of_mem _ hs)) h1 (by simpa using hc)
    simpa using h2

omit [DecidableEq α] in
theorem valueIn_skip {c : String × String} {s : SubQ} {b : List SubQ} {p : List (Option (MLine α))} : ∀ {a : List SubQ},
    ((a ++ s :: b).map (·.cte)).Nodup → valueIn (a ++ s :: b) (a.map (fun _ => none) ++ p) c =
      if c.1 ∈ a.map (·.cte) then none else valueIn (s :: b) p c := by
  intro a
  induction a with
  | nil => intro _; simp
  | cons s0 a ih =>
    intro h
    simp only [List.cons_append, List.map_cons, valueIn]
    rw [List.cons_append, List.map_cons, List.nodup_cons] at h
    by_cases hc : s0.cte = c.1
    · simp [hc]
    · rw [if_neg hc, ih h.2]
      have : c.1 ≠ s0.cte := fun h => hc h.symm
      simp [this]

/-- C91: the lines of a merge with any kinds of joins and any number of queries. They are of two sorts: a line of the first query
with what each later query contributes to it; and a line `t` of a query with a full outer join, if it belongs to no line of the
first query that found its partners in the inner-joined queries before, and if no inner join follows. The latter has NULL in the
columns of all other queries. -/
theorem C91_all_kinds (env : ArbEnv) (items : List MergeItem) (orders : List String) (res : ArbQuery)
    (h : arbQuery env items [] orders = .ok res) (cast : α → α) (tables : String → List (MLine α)) (line : List (String × Option α)) :
    line ∈ arbAnswer cast tables [] res ↔
      (∃ l ∈ tables "merged_query_0", ∃ ps, List.Forall₂ (Contributes env cast tables l) res.subs.tail ps ∧ line = lineOf res (some l :: ps)) ∨
      (∃ before s after, res.subs.tail = before ++ s :: after ∧ s.joinType = some "full_outer" ∧ (∀ s' ∈ after, KeepsAll s') ∧
        ∃ t ∈ tables s.cte, (∀ l ∈ tables "merged_query_0", (∃ ps, List.Forall₂ (Contributes env cast tables l) before ps) →
          ¬ Belongs env cast s l t) ∧
        line = lineOf res (none :: (before.map (fun _ => none) ++ some t :: after.map (fun _ => none)))) := by
  obtain ⟨s0, ss, hs, hc, hj, hct, hne⟩ := arbQuery_parts h
  have hinj : ∀ m n : ℕ, "merged_query_" ++ toString m = "merged_query_" ++ toString n → m = n := by
    intro m n hmn
    have h1 := congrArg String.toList hmn
    rw [String.toList_append, String.toList_append] at h1
    have h2 := List.append_cancel_left h1
    exact Nat.repr_injective (String.toList_inj.mp (by simpa [Nat.toString_eq_repr] using h2))
  have hnd : (res.subs.map (·.cte)).Nodup := by
    have hall : ∀ (i : ℕ) (s : SubQ), res.subs[i]? = some s → s.cte = "merged_query_" ++ toString i := by
      intro i s hi
      rw [hs] at hi
      cases i with
      | zero => simp only [List.getElem?_cons_zero, Option.some.injEq] at hi; subst hi; exact hc
      | succ i => exact hct i s (by simpa using hi)
    refine List.pairwise_iff_getElem.mpr (fun i j hi hjl hij heq => ?_)
    rw [List.length_map] at hi hjl
    simp only [List.getElem_map] at heq
    rw [hall i _ (List.getElem?_eq_getElem hi), hall j _ (List.getElem?_eq_getElem hjl)] at heq
    have := hinj _ _ heq
    omega
  have hcne : ∀ s ∈ ss, s.cte ≠ "merged_query_0" := by
    intro s hm he
    rw [hs, List.map_cons, List.nodup_cons, hc] at hnd
    exact hnd.1 (List.mem_map.mpr ⟨s, hm, he⟩)
  have hbase : RowsAre env cast tables [] ((tables "merged_query_0").map (fun l => [("merged_query_0", some l)])) := by
    intro x
    rw [List.mem_map]
    constructor
    · rintro ⟨l, hl, rfl⟩; exact .inl ⟨l, hl, [], .nil, rfl⟩
    · rintro (⟨l, hl, ps, hps, rfl⟩ | ⟨a, s, b, he, _⟩)
      · exact ⟨l, hl, rfl⟩
      · simp at he
  have hrows := rows_all hj hne hbase (by simpa using hcne)
  rw [List.nil_append] at hrows
  have hrow1 : ∀ (l : MLine α) ps, showLine res.columns (("merged_query_0", some l) :: rowOf ss ps) = lineOf res (some l :: ps) := by
    intro l ps
    rw [← showLine_rowOf, hs]; simp [rowOf, hc]
  have hrow2 : ∀ a s b (t : MLine α), ss = a ++ s :: b → showLine res.columns ((s.cte, some t) :: rowOf b (b.map (fun _ => none))) =
      lineOf res (none :: (a.map (fun _ => none) ++ some t :: b.map (fun _ => none))) := by
    intro a s b t he
    unfold showLine lineOf
    refine List.map_congr_left (fun c _ => ?_)
    have h1 : cellAt ((s.cte, some t) :: rowOf b (b.map (fun _ => none))) c = valueIn (s :: b) (some t :: b.map (fun _ => none)) c := by
      rw [← cellAt_rowOf]; rfl
    have hsub : res.subs = (s0 :: a) ++ s :: b := by rw [hs, he]; rfl
    have hnd' := hnd
    rw [hsub] at hnd'
    have h2 := valueIn_skip (c := c) (p := some t :: b.map (fun _ => none)) hnd'
    rw [h1, hsub]
    have h3 : (none :: (a.map (fun _ => (none : Option (MLine α))) ++ some t :: b.map (fun _ => none))) =
        (s0 :: a).map (fun _ => none) ++ some t :: b.map (fun _ => none) := rfl
    rw [h3, h2]
    by_cases hm : c.1 ∈ (s0 :: a).map (·.cte)
    · rw [if_pos hm]
      have hnot : ∀ s' ∈ s :: b, s'.cte ≠ c.1 := by
        intro s' hs' heq
        rw [List.map_append] at hnd'
        exact (List.nodup_append.mp hnd').2.2 _ hm _ (List.mem_map.mpr ⟨s', hs', rfl⟩) heq.symm
      have := dictGet_rowOf_none (c := c.1) (ss := s :: b) (ps := some t :: b.map (fun _ => (none : Option (MLine α)))) hnot
      rw [← cellAt_rowOf]
      unfold cellAt
      rw [this]
    · rw [if_neg hm]
  unfold arbAnswer arbRows
  simp only [List.zip_nil_right, List.all_nil, List.filter_true, List.mem_map]
  rw [show res.subs.tail = ss by rw [hs]; rfl]
  constructor
  · rintro ⟨x, hx, rfl⟩
    rcases (hrows x).mp hx with ⟨l, hl, ps, hps, rfl⟩ | ⟨a, s, b, he, ho, hb, t, ht, hal, rfl⟩
    · exact .inl ⟨l, hl, ps, hps, hrow1 l ps⟩
    · exact .inr ⟨a, s, b, he, ho, hb, t, ht, hal, hrow2 a s b t he⟩
  · rintro (⟨l, hl, ps, hps, rfl⟩ | ⟨a, s, b, he, ho, hb, t, ht, hal, rfl⟩)
    · exact ⟨_, (hrows _).mpr (.inl ⟨l, hl, ps, hps, rfl⟩), hrow1 l ps⟩
    · exact ⟨_, (hrows _).mpr (.inr ⟨a, s, b, he, ho, hb, t, ht, hal, rfl⟩), hrow2 a s b t he⟩

end ML
