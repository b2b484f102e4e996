import Verif.ArbAnswer.Lemmas
/- C91: which lines a merge of arbitrary queries answers. -/
set_option autoImplicit false
namespace ML
open Spec
variable {α : Type} [DecidableEq α]

theorem showLine_rowOf {res : ArbQuery} (ls : List (Option (MLine α))) : showLine res.columns (rowOf res.subs ls) = lineOf res ls := by
  unfold showLine lineOf
  exact List.map_congr_left (fun c _ => by rw [cellAt_rowOf])

/-- C91: with left and inner joins, the answer is made of exactly these lines: a line of the first query, with for each later query
one of its lines that belong to it (or nothing, if there is none and the join is not an inner one), if all filters hold for it. -/
theorem C91_lines (env : ArbEnv) (items : List MergeItem) (filters orders : List String) (res : ArbQuery)
    (h : arbQuery env items filters orders = .ok res) (hk : LeftOrInner res) (cast : α → α) (tables : String → List (MLine α))
    (tests : List (Option α → Bool)) (line : List (String × Option α)) :
    line ∈ arbAnswer cast tables tests res ↔
      ∃ l ∈ tables "merged_query_0", ∃ ps, List.Forall₂ (Contributes env cast tables l) res.subs.tail ps ∧
        (∀ p ∈ res.filters.zip tests, p.2 (valueIn res.subs (some l :: ps) p.1) = true) ∧ line = lineOf res (some l :: ps) := by
  obtain ⟨s0, ss, hs, hc, hj, _⟩ := arbQuery_parts h
  have hk' : ∀ s ∈ ss, s.joinType = none ∨ s.joinType = some "left_outer" ∨ s.joinType = some "inner" := by
    intro s hm; exact hk s (by rw [hs]; exact hm)
  have hrow : ∀ (l : MLine α) ps, ("merged_query_0", some l) :: rowOf ss ps = rowOf res.subs (some l :: ps) := by
    intro l ps; rw [hs]; simp [rowOf, hc]
  have hmem : ∀ x, x ∈ arbRows cast tables res ↔ ∃ l ∈ tables "merged_query_0", ∃ ps, List.Forall₂ (Contributes env cast tables l) ss ps ∧
      x = rowOf res.subs (some l :: ps) := by
    intro x
    unfold arbRows
    rw [foldl_step (kinds_of hj hk'), List.mem_flatMap]
    simp only [List.mem_map]
    constructor
    · rintro ⟨_, ⟨l, hl, rfl⟩, hx⟩
      obtain ⟨ps, hps, rfl⟩ := (mem_fold hj hk' l x []).mp hx
      exact ⟨l, hl, ps, hps, by rw [← hrow]; rfl⟩
    · rintro ⟨l, hl, ps, hps, rfl⟩
      exact ⟨_, ⟨l, hl, rfl⟩, (mem_fold hj hk' l _ []).mpr ⟨ps, hps, by rw [← hrow]; rfl⟩⟩
  unfold arbAnswer
  simp only [List.mem_map, List.mem_filter, List.all_eq_true, hmem]
  rw [show res.subs.tail = ss by rw [hs]; rfl]
  constructor
  · rintro ⟨_, ⟨⟨l, hl, ps, hps, rfl⟩, ht⟩, rfl⟩
    refine ⟨l, hl, ps, hps, fun p hp => ?_, showLine_rowOf _⟩
    rw [← cellAt_rowOf]; exact ht p hp
  · rintro ⟨l, hl, ps, hps, ht, rfl⟩
    refine ⟨_, ⟨⟨l, hl, ps, hps, rfl⟩, fun p hp => ?_⟩, showLine_rowOf _⟩
    rw [cellAt_rowOf]; exact ht p hp

theorem forall₂_flatMap {β γ : Type} {R : β → γ → Prop} {keep : β → Bool} {F : β → List γ} (l : List β)
    (h1 : ∀ b ∈ l, keep b = true → ∃ x, F b = [x] ∧ R b x) (h2 : ∀ b ∈ l, keep b = false → F b = []) :
    List.Forall₂ R (l.filter keep) (l.flatMap F) := by
  induction l with
  | nil => exact .nil
  | cons b l ih =>
    have ih' := ih (fun c hc => h1 c (List.mem_cons_of_mem _ hc)) (fun c hc => h2 c (List.mem_cons_of_mem _ hc))
    rw [List.flatMap_cons]
    cases hb : keep b with
    | true =>
      obtain ⟨x, hx, hr⟩ := h1 b (List.mem_cons_self ..) hb
      rw [List.filter_cons_of_pos hb, hx]
      exact .cons hr ih'
    | false =>
      rw [List.filter_cons_of_neg (by simp [hb]), h2 b (List.mem_cons_self ..) hb]
      exact ih'

theorem forall₂_left_ex {β γ : Type} {R : β → γ → Prop} {l : List β} {m : List γ} (h : List.Forall₂ R l m) {b : β} (hb : b ∈ l) :
    ∃ c, R b c := by
  induction h with
  | nil => simp at hb
  | cons hr _ ih =>
    rcases List.mem_cons.mp hb with rfl | hb
    · exact ⟨_, hr⟩
    · exact ih hb

omit [DecidableEq α] in
/-- A later query that is joined on all its dimensions has at most one line for a line of the first (for the proofs). -/
theorem grouped_once {env : ArbEnv} {cast : α → α} (hcast : env.bigquery = true → ∀ x y, cast x = cast y → x = y) {s : SubQ}
    {table : List (MLine α)} (hg : OneLineEach env s table) (hall : JoinedOnAll env s) :
    table.Pairwise (fun t t' => ∀ l, ¬ (Belongs env cast s l t ∧ Belongs env cast s l t')) := by
  refine List.Pairwise.imp ?_ hg
  rintro t t' ⟨d, hd, f, hf, hne⟩ l ⟨hb, hb'⟩
  obtain ⟨k, hk, f', hf', ha⟩ := hall d hd f hf
  obtain ⟨bf, jf, x, y, e1, e2, e3, e4, e5⟩ := hb k hk
  obtain ⟨bf', jf', x', y', g1, g2, g3, g4, g5⟩ := hb' k hk
  rw [e1] at g1; injection g1 with g1; subst g1
  rw [e2] at g2; injection g2 with g2; subst g2
  rw [e2] at hf'; injection hf' with hf'; subst hf'
  rw [e3] at g3; injection g3 with g3; subst g3
  apply hne
  rw [← ha, e4, g4]
  rcases e5 with ⟨c, e5⟩ | ⟨c, e5⟩ <;> rcases g5 with ⟨c', g5⟩ | ⟨c', g5⟩
  · rw [hcast c.1 y y' (e5.symm.trans g5)]
  · exact absurd c c'
  · exact absurd c' c
  · rw [← e5, ← g5]

open Classical in
/-- C91: if every later query is joined on all its dimensions, no line of the first query is repeated: without filters, the
answer has, in order, exactly one line for each line of the first query that has a line in every inner-joined query, with the
values of the lines that belong to it. (On BigQuery, different values must be different as timestamps.) -/
theorem C91_one_line_each (env : ArbEnv) (items : List MergeItem) (orders : List String) (res : ArbQuery)
    (h : arbQuery env items [] orders = .ok res) (hk : LeftOrInner res) (cast : α → α) (tables : String → List (MLine α))
    (hcast : env.bigquery = true → ∀ x y, cast x = cast y → x = y)
    (hg : ∀ s ∈ res.subs.tail, OneLineEach env s (tables s.cte)) (hall : ∀ s ∈ res.subs.tail, JoinedOnAll env s) :
    List.Forall₂ (fun l line => ∃ ps, List.Forall₂ (Contributes env cast tables l) res.subs.tail ps ∧ line = lineOf res (some l :: ps))
      ((tables "merged_query_0").filter (fun l => decide (∀ s ∈ res.subs.tail, s.joinType = some "inner" →
        ∃ t ∈ tables s.cte, Belongs env cast s l t)))
      (arbAnswer cast tables [] res) := by
  obtain ⟨s0, ss, hs, hc, hj, _⟩ := arbQuery_parts h
  rw [show res.subs.tail = ss by rw [hs]; rfl] at hg hall ⊢
  have hk' : ∀ s ∈ ss, s.joinType = none ∨ s.joinType = some "left_outer" ∨ s.joinType = some "inner" := by
    intro s hm; exact hk s (by rw [hs]; exact hm)
  have hrow : ∀ (l : MLine α) ps, ("merged_query_0", some l) :: rowOf ss ps = rowOf res.subs (some l :: ps) := by
    intro l ps; rw [hs]; simp [rowOf, hc]
  have hans : arbAnswer cast tables [] res = (tables "merged_query_0").flatMap (fun l =>
      (res.joins.foldl (arbStep cast tables) [[("merged_query_0", some l)]]).map (showLine res.columns)) := by
    unfold arbAnswer arbRows
    rw [foldl_step (kinds_of hj hk')]
    simp only [List.zip_nil_right, List.all_nil, List.filter_true, List.flatMap_map, List.map_flatMap]
  rw [hans]
  apply forall₂_flatMap
  · intro l hl hkeep
    rw [decide_eq_true_eq] at hkeep
    have hex : ∀ ss' : List SubQ, (∀ s ∈ ss', s ∈ ss) → ∃ ps, List.Forall₂ (Contributes env cast tables l) ss' ps := by
      intro ss'
      induction ss' with
      | nil => intro _; exact ⟨[], .nil⟩
      | cons s ss' ih =>
        intro hsub
        obtain ⟨ps, hps⟩ := ih (fun s hs => hsub s (List.mem_cons_of_mem _ hs))
        by_cases ht : ∃ t ∈ tables s.cte, Belongs env cast s l t
        · obtain ⟨t, ht⟩ := ht
          exact ⟨some t :: ps, .cons ht hps⟩
        · refine ⟨none :: ps, .cons ⟨⟨fun hi => ht (hkeep s (hsub s (List.mem_cons_self ..)) hi), fun hi => by
            rcases hk' s (hsub s (List.mem_cons_self ..)) with h | h | h <;> rw [h] at hi <;> simp at hi⟩, fun t hm hb => ht ⟨t, hm, hb⟩⟩ hps⟩
    obtain ⟨ps, hps⟩ := hex ss (fun _ h => h)
    have hm := (mem_fold (cast := cast) (tables := tables) hj hk' l (("merged_query_0", some l) :: rowOf ss ps) []).mpr ⟨ps, hps, rfl⟩
    have hlen := fold_short (cast := cast) (tables := tables) hj hk' (fun s hs => grouped_once hcast (hg s hs) (hall s hs)) l []
    match hf : res.joins.foldl (arbStep cast tables) [[("merged_query_0", some l)]], hlen with
    | [], _ => rw [hf] at hm; simp at hm
    | [x], _ =>
      rw [hf, List.mem_singleton] at hm
      refine ⟨showLine res.columns x, rfl, ps, hps, ?_⟩
      rw [← hm, hrow, showLine_rowOf]
    | _ :: _ :: _, hlen => simp at hlen
  · intro l hl hno
    rw [decide_eq_false_iff_not] at hno
    push Not at hno
    obtain ⟨s, hsm, hin, hnone⟩ := hno
    rw [List.map_eq_nil_iff, List.eq_nil_iff_forall_not_mem]
    intro x hx
    obtain ⟨ps, hps, _⟩ := (mem_fold (cast := cast) (tables := tables) hj hk' l x []).mp hx
    obtain ⟨p, hp⟩ := forall₂_left_ex hps hsm
    cases p with
    | none => exact hp.1.1 hin
    | some t => exact hnone t hp.1 hp.2

/-- C91: when no later query asks for an inner join and each is joined on all its dimensions, the answer without filters has
exactly one line for each line of the first query, in order. -/
theorem C91_keeps_first (env : ArbEnv) (items : List MergeItem) (orders : List String) (res : ArbQuery)
    (h : arbQuery env items [] orders = .ok res) (hk : ∀ s ∈ res.subs.tail, s.joinType = none ∨ s.joinType = some "left_outer")
    (cast : α → α) (tables : String → List (MLine α)) (hcast : env.bigquery = true → ∀ x y, cast x = cast y → x = y)
    (hg : ∀ s ∈ res.subs.tail, OneLineEach env s (tables s.cte)) (hall : ∀ s ∈ res.subs.tail, JoinedOnAll env s) :
    List.Forall₂ (fun l line => ∃ ps, List.Forall₂ (Contributes env cast tables l) res.subs.tail ps ∧ line = lineOf res (some l :: ps))
      (tables "merged_query_0") (arbAnswer cast tables [] res) := by
  classical
  have := C91_one_line_each env items orders res h (fun s hs => (hk s hs).imp id .inl) cast tables hcast hg hall
  rwa [List.filter_eq_self.mpr] at this
  intro l _
  rw [decide_eq_true_eq]
  intro s hs hi
  rcases hk s hs with h | h <;> rw [h] at hi <;> simp at hi

theorem useColumns_first {env : ArbEnv} {cols : List (String × String)} : ∀ {ns : List String} {cs : List (String × String)},
    useColumns env cols ns = .ok cs → ∀ c ∈ cs, cols.find? (fun d => d.2 == c.2) = some c := by
  intro ns
  induction ns with
  | nil => intro cs h c hc; injection h with h; subst h; simp at hc
  | cons n ns ih =>
    intro cs h c hc
    simp only [useColumns] at h
    cases h1 : useColumn env cols n with
    | error e => rw [h1] at h; cases h
    | ok c1 =>
      rw [h1] at h; simp only at h
      cases h2 : useColumns env cols ns with
      | error e => rw [h2] at h; cases h
      | ok cs' =>
        rw [h2] at h; injection h with h; subst h
        rcases List.mem_cons.mp hc with rfl | hc
        · unfold useColumn at h1
          cases hg : env.get n with
          | error e => rw [hg] at h1; cases h1
          | ok f =>
            rw [hg] at h1; simp only at h1
            cases hf : cols.find? (fun c => decide (c.2 = f.aliasName)) with
            | none => rw [hf] at h1; cases h1
            | some c' =>
              rw [hf] at h1; injection h1 with h1; subst h1
              have ha := List.find?_some hf
              rw [decide_eq_true_eq] at ha
              rw [← hf, ha]
              congr 1
        · exact ih h2 c hc

omit [DecidableEq α] in
theorem under_showLine {row : MJRow α} {c : String × String} : ∀ {cols : List (String × String)},
    cols.find? (fun d => d.2 == c.2) = some c → under (showLine cols row) c.2 = cellAt row c := by
  intro cols
  induction cols with
  | nil => intro h; simp at h
  | cons d cols ih =>
    intro h
    unfold under showLine at ih ⊢
    rw [List.find?_cons] at h
    rw [List.map_cons, List.find?_cons]
    cases hd : d.2 == c.2 with
    | true =>
      rw [hd] at h
      injection h with h; subst h
      simp
    | false =>
      rw [hd] at h
      exact ih h

/-- C91: a filter of the merge looks only at what is shown. The merge without its filters is accepted too, and the answer with
them is its answer, keeping the lines whose shown values pass the tests. This holds for all kinds of joins. -/
theorem C91_filters (env : ArbEnv) (items : List MergeItem) (filters orders : List String) (res : ArbQuery)
    (h : arbQuery env items filters orders = .ok res) (cast : α → α) (tables : String → List (MLine α)) (tests : List (Option α → Bool)) :
    ∃ res0, arbQuery env items [] orders = .ok res0 ∧
      arbAnswer cast tables tests res = (arbAnswer cast tables [] res0).filter (fun line =>
        (res.filters.zip tests).all (fun p => p.2 (under line p.1.2))) := by
  refine ⟨{ res with filters := [] }, ?_, ?_⟩
  · unfold arbQuery at h ⊢
    repeat' split at h
    all_goals first | cases h | skip
    simp_all only [useColumns, List.map_nil]
    split at h
    · cases h
    · split at h
      · cases h
      · rename_i hos
        injection h with h
        subst h
        simp only [hos]
  · obtain ⟨_, _, _, _, _, _, _, _, _, _, _, _, hf, _⟩ := arbQuery_ok h
    have hfirst := useColumns_first hf
    unfold arbAnswer
    rw [List.filter_map]
    simp only [List.zip_nil_left, List.all_nil, List.filter_true]
    congr 1
    refine List.filter_congr (fun r _ => ?_)
    simp only [Function.comp]
    rw [Bool.eq_iff_iff, List.all_eq_true, List.all_eq_true]
    refine forall₂_congr (fun p hp => ?_)
    rw [under_showLine (hfirst p.1 (List.of_mem_zip hp).1)]

/-- C91: a second query with a full outer join: the answer has the lines of the first with what belongs to them, as in a left
join, and every line of the second that belongs to no line of the first, with NULL in the columns of the first. -/
theorem C91_full_outer (env : ArbEnv) (items : List MergeItem) (orders : List String) (res : ArbQuery) (s0 s1 : SubQ)
    (h : arbQuery env items [] orders = .ok res) (hsubs : res.subs = [s0, s1]) (ht : s1.joinType = some "full_outer")
    (cast : α → α) (tables : String → List (MLine α)) (line : List (String × Option α)) :
    line ∈ arbAnswer cast tables [] res ↔
      (∃ l ∈ tables "merged_query_0", ∃ p, Contributes env cast tables l s1 p ∧ line = lineOf res [some l, p]) ∨
      (∃ t ∈ tables s1.cte, (∀ l ∈ tables "merged_query_0", ¬ Belongs env cast s1 l t) ∧ line = lineOf res [none, some t]) := by
  obtain ⟨s0', ss, hs, hc, hj, hc1, _⟩ := arbQuery_parts h
  rw [hsubs] at hs
  injection hs with e1 e2
  subst e1; subst e2
  have hc1 : s1.cte = "merged_query_1" := hc1 0 s1 rfl
  generalize hjs : res.joins = js at hj
  cases hj with
  | @cons _ j _ _ hj hnil =>
    cases hnil
    have hkind : j.2.1 = .outer := by rw [hj.2.1, ht]; rfl
    have hrow : ∀ (l : MLine α) p, showLine res.columns (("merged_query_0", some l) :: [(s1.cte, p)]) = lineOf res [some l, p] := by
      intro l p
      rw [← showLine_rowOf, hsubs]; simp [rowOf, hc]
    have hrow2 : ∀ t : MLine α, showLine res.columns [(s1.cte, some t)] = lineOf res [none, some t] := by
      intro t
      unfold showLine lineOf
      refine List.map_congr_left (fun c _ => ?_)
      rw [hsubs]
      by_cases h0 : "merged_query_0" = c.1
      · simp [cellAt, dictGet, valueIn, hc, hc1, ← h0]
      · simp only [cellAt, dictGet, valueIn, hc, h0, if_false]
        by_cases h1 : s1.cte = c.1
        · simp [h1]
        · simp [h1]
    have hleft : ∀ (l : MLine α) x, x ∈ leftRowsA cast j.1 j.2.2 (tables j.1) [("merged_query_0", some l)] ↔
        ∃ p, Contributes env cast tables l s1 p ∧ x = ("merged_query_0", some l) :: [(s1.cte, p)] := by
      intro l x
      have := mem_stepRow (cast := cast) (tables := tables) (s := { s1 with joinType := none }) (j := (j.1, .left, j.2.2))
        (env := env) ⟨hj.1, rfl, hj.2.2⟩ (.inl rfl) l [] x
      simp only [stepRow, if_true, List.nil_append] at this
      rw [this]
      have hg : ∀ p, Contributes env cast tables l { s1 with joinType := none } p ↔ Contributes env cast tables l s1 p := by
        intro p
        cases p with
        | none => simp [Contributes, KeepsAll, ht, Belongs]
        | some t => exact Iff.rfl
      simp only [hg]
    unfold arbAnswer arbRows
    rw [hjs]
    simp only [List.zip_nil_right, List.all_nil, List.filter_true, List.foldl_cons, List.foldl_nil, arbStep, hkind, List.map_append,
      List.mem_append, List.mem_map, List.mem_flatMap, List.mem_filter, List.all_eq_true]
    refine or_congr ?_ ?_
    · constructor
      · rintro ⟨x, ⟨_, ⟨l, hl, rfl⟩, hx⟩, rfl⟩
        obtain ⟨p, hp, rfl⟩ := (hleft l x).mp hx
        exact ⟨l, hl, p, hp, hrow l p⟩
      · rintro ⟨l, hl, p, hp, rfl⟩
        exact ⟨_, ⟨_, ⟨l, hl, rfl⟩, (hleft l _).mpr ⟨p, hp, rfl⟩⟩, hrow l p⟩
    · have hno : ∀ t : MLine α, (∀ x : MJRow α, (∃ a ∈ tables "merged_query_0", [("merged_query_0", some a)] = x) →
          (!joinHit cast j.2.2 x t) = true) ↔ ∀ l ∈ tables "merged_query_0", ¬ Belongs env cast s1 l t := by
        intro t
        constructor
        · intro hx l hl hb
          have := hx _ ⟨l, hl, rfl⟩
          rw [(joinHit_iff hj l t []).mpr hb] at this
          cases this
        · rintro hx _ ⟨l, hl, rfl⟩
          rw [Bool.not_eq_true', Bool.eq_false_iff]
          exact fun hh => hx l hl ((joinHit_iff hj l t []).mp hh)
      constructor
      · rintro ⟨_, ⟨t, ⟨hm, hx⟩, rfl⟩, rfl⟩
        rw [hj.1] at hm ⊢
        exact ⟨t, hm, (hno t).mp hx, hrow2 t⟩
      · rintro ⟨t, hm, hx, rfl⟩
        exact ⟨_, ⟨t, ⟨by rw [hj.1]; exact hm, (hno t).mpr hx⟩, rfl⟩, by rw [hj.1]; exact hrow2 t⟩

omit [DecidableEq α] in
/-- C91 fails for a full outer join in one point: the fields a query is joined on are not shown from that query. Two lines of the
second query that belong to no line of the first and differ only in the join fields look the same in the answer. -/
theorem C91_outer_hides (env : ArbEnv) (items : List MergeItem) (filters orders : List String) (res : ArbQuery) (s0 s1 : SubQ)
    (h : arbQuery env items filters orders = .ok res) (hsubs : res.subs = [s0, s1]) (t t' : MLine α)
    (ht : ∀ a, ¬ JoinsOn env s1 a → t a = t' a) : lineOf res [none, some t] = lineOf res [none, some t'] := by
  obtain ⟨s0', ss, hs, hc, hj, hc1, _⟩ := arbQuery_parts h
  rw [hsubs] at hs
  injection hs with e1 e2
  subst e1; subst e2
  unfold lineOf
  refine List.map_congr_left (fun c hcm => ?_)
  rw [hsubs]
  by_cases h0 : s0.cte = c.1
  · simp [valueIn, h0]
  · by_cases h1 : s1.cte = c.1
    · simp only [valueIn, h0, h1, if_false, if_true]
      obtain ⟨i, s, hsh, hcte⟩ := ((C43_columns env items filters orders res h).2 c.1 c.2).mp hcm
      rw [hsubs] at hsh
      have hi : i = 1 := by
        have hlt := (List.getElem?_eq_some_iff.mp hsh.1).1
        simp only [List.length_cons, List.length_nil] at hlt
        rcases Nat.lt_or_ge i 1 with hi | hi
        · have : i = 0 := by omega
          subst this
          have := hsh.1
          simp only [List.getElem?_cons_zero, Option.some.injEq] at this
          subst this
          exact absurd hcte h0
        · omega
      subst hi
      rw [ht c.2 (hsh.2.2.2 1 s1 (Nat.le_refl _) (by simp))]
    · simp [valueIn, h0, h1]

end ML
