import Verif.ArbAnswer.Spec
import Verif.Arb.PropsMore
/- Lemmas for C91. -/
set_option autoImplicit false
namespace ML
open Spec
variable {α : Type} [DecidableEq α]

/-- What is known of one join (for the proofs; it models no file in /repo). -/
def JoinFor (env : ArbEnv) (s : SubQ) (j : String × SqlJoin × List JoinCond) : Prop :=
  j.1 = s.cte ∧ j.2.1 = sqlJoinOf s.joinType ∧
    List.Forall₂ (fun k c => ∃ jf bf, env.get k.field = .ok jf ∧ env.get k.source = .ok bf ∧ c.base = ("merged_query_0", bf.aliasName) ∧
        c.joined = (s.cte, jf.aliasName) ∧ (c.cast = true ↔ env.bigquery = true ∧ bf.datatype ≠ jf.datatype)) s.joinFields j.2.2

theorem arbJoins_full {env : ArbEnv} : ∀ {ss : List SubQ} {js : List (String × SqlJoin × List JoinCond)},
    arbJoins env "merged_query_0" ss = .ok js → (∀ s ∈ ss, s.joinFields ≠ []) → List.Forall₂ (JoinFor env) ss js := by
  intro ss
  induction ss with
  | nil => intro js h _; injection h with h; subst h; exact .nil
  | cons s ss ih =>
    intro js h hne
    have h0 : s.joinFields.isEmpty = false := by
      have := hne s (List.mem_cons_self ..)
      cases hh : s.joinFields with
      | nil => exact absurd hh this
      | cons _ _ => rfl
    simp only [arbJoins, h0, Bool.and_false, Bool.false_eq_true, if_false] at h
    cases h1 : joinConds env "merged_query_0" s.cte s.joinFields with
    | error e => rw [h1] at h; cases h
    | ok cs =>
      rw [h1] at h; simp only at h
      cases h2 : arbJoins env "merged_query_0" ss with
      | error e => rw [h2] at h; cases h
      | ok js' =>
        rw [h2] at h; injection h with h; subst h
        exact .cons ⟨rfl, rfl, joinConds_casts h1⟩ (ih h2 (fun s hs => hne s (List.mem_cons_of_mem _ hs)))

/-- The parts of a merged query that was built (for the proofs). -/
theorem arbQuery_parts {env : ArbEnv} {items : List MergeItem} {filters orders : List String} {res : ArbQuery}
    (h : arbQuery env items filters orders = .ok res) :
    ∃ s0 ss, res.subs = s0 :: ss ∧ s0.cte = "merged_query_0" ∧ List.Forall₂ (JoinFor env) ss res.joins ∧
      (∀ i s, ss[i]? = some s → s.cte = "merged_query_" ++ toString (i + 1)) ∧ ∀ s ∈ ss, s.joinFields ≠ [] := by
  obtain ⟨q0, q, rest, primary, lookup, h1, h2, h3, hlen, hround, hj, _⟩ := arbQuery_ok h
  have hlen1 := cleanMergesFrom_length h1
  simp only [List.length_cons] at hlen1
  have hone : ∀ k, k + 1 < items.length → ∃ m s, rest[k]? = some m ∧ res.subs[k + 1]? = some s ∧ RoundOk env primary (k + 1) m s ∧
      ∀ it, items[k + 1]? = some it → cleanMerge (k + 1) it = .ok m := by
    intro k hk
    obtain ⟨m, hm1, hm2⟩ := cleanMergesFrom_get h1 (k + 1) _ (List.getElem?_eq_getElem hk)
    rw [Nat.zero_add] at hm2
    simp only [List.getElem?_cons_succ] at hm1
    have hlt : k + 1 < res.subs.length := by
      have := (List.getElem?_eq_some_iff.mp hm1).1
      omega
    refine ⟨m, _, hm1, List.getElem?_eq_getElem hlt, hround _ _ _ (by simpa using hm1) (List.getElem?_eq_getElem hlt), ?_⟩
    intro it hit
    rw [List.getElem?_eq_getElem hk] at hit
    injection hit with hit
    rw [← hit]; exact hm2
  have hne : ∀ s ∈ res.subs.tail, s.joinFields ≠ [] := by
    intro s hs
    obtain ⟨k, hk, he⟩ := List.getElem_of_mem hs
    rw [List.length_tail] at hk
    rw [List.getElem_tail] at he
    obtain ⟨m, s', hm, hs', ⟨r, _, _, _, _, _, hjk⟩, hcl⟩ := hone k (by omega)
    rw [List.getElem?_eq_getElem (by omega)] at hs'
    injection hs' with hs'
    rw [he] at hs'; subst hs'
    rw [if_pos (Nat.succ_pos k)] at hjk
    intro he'
    have hl := (joinKeys_ok hjk).length_eq
    rw [he', List.length_nil] at hl
    exact cleanMerge_join_ne (hcl _ (List.getElem?_eq_getElem (by omega))) (Nat.succ_pos k) (List.length_eq_zero_iff.mp hl)
  have hf := arbJoins_full hj hne
  cases hs : res.subs with
  | nil => rw [hs] at hlen; simp at hlen
  | cons s0 ss =>
    refine ⟨s0, ss, rfl, ?_, ?_, ?_, ?_⟩
    · obtain ⟨r, _, hc, _⟩ := hround 0 q s0 (by simp) (by rw [hs]; rfl)
      rw [hc]; rfl
    · rw [hs] at hf; exact hf
    · intro i s1 h1
      have hs1 : res.subs[i + 1]? = some s1 := by rw [hs, List.getElem?_cons_succ]; exact h1
      have hlt := (List.getElem?_eq_some_iff.mp hs1).1
      obtain ⟨m, hm⟩ : ∃ m, rest[i]? = some m := ⟨rest[i]'(by omega), List.getElem?_eq_getElem _⟩
      obtain ⟨r, _, hc, _⟩ := hround (i + 1) m s1 (by simpa using hm) hs1
      exact hc
    · rw [hs] at hne; exact hne

/-- The row of a first line and the lines the others contribute (for the proofs; it models no file in /repo). -/
def rowOf : List SubQ → List (Option (MLine α)) → MJRow α
  | s :: ss, l :: ls => (s.cte, l) :: rowOf ss ls
  | _, _ => []

theorem cellAt_rowOf (c : String × String) : ∀ (ss : List SubQ) (ls : List (Option (MLine α))), cellAt (rowOf ss ls) c = valueIn ss ls c := by
  intro ss
  induction ss with
  | nil => intro ls; simp [rowOf, valueIn, cellAt, dictGet]
  | cons s ss ih =>
    intro ls
    cases ls with
    | nil => simp [rowOf, valueIn, cellAt, dictGet]
    | cons l ls =>
      have := ih ls
      unfold cellAt at this
      by_cases hc : s.cte = c.1
      · simp only [rowOf, valueIn, cellAt, dictGet, hc, if_true]
        cases l <;> simp
      · simp only [rowOf, valueIn, cellAt, dictGet, hc, if_false]
        simpa using this

theorem joinHit_iff {env : ArbEnv} {cast : α → α} {s : SubQ} {j : String × SqlJoin × List JoinCond} (hj : JoinFor env s j)
    (l t : MLine α) (r : MJRow α) : joinHit cast j.2.2 (("merged_query_0", some l) :: r) t = true ↔ Belongs env cast s l t := by
  obtain ⟨_, _, hf⟩ := hj
  unfold joinHit Belongs
  generalize s.joinFields = ks at hf ⊢
  generalize j.2.2 = cs at hf ⊢
  induction hf with
  | nil => simp
  | @cons k c ks cs h _ ih =>
    obtain ⟨jf, bf, g1, g2, g3, g4, g5⟩ := h
    rw [List.all_cons, Bool.and_eq_true, ih]
    have hcell : cellAt (("merged_query_0", some l) :: r) c.base = l bf.aliasName := by
      rw [g3]; simp [cellAt, dictGet]
    rw [hcell, g4]
    have key : condEq cast c (l bf.aliasName) (t jf.aliasName) = true ↔ ∃ bf jf x y, env.get k.source = .ok bf ∧ env.get k.field = .ok jf ∧
        l bf.aliasName = some x ∧ t jf.aliasName = some y ∧
        ((env.bigquery = true ∧ bf.datatype ≠ jf.datatype) ∧ cast x = cast y ∨
        ¬ (env.bigquery = true ∧ bf.datatype ≠ jf.datatype) ∧ x = y) := by
      rw [g1, g2]
      constructor
      · intro h
        cases hx : l bf.aliasName with
        | none => rw [hx] at h; simp [condEq] at h
        | some x =>
          cases hy : t jf.aliasName with
          | none => rw [hx, hy] at h; simp [condEq] at h
          | some y =>
            rw [hx, hy] at h
            refine ⟨bf, jf, x, y, rfl, rfl, hx, hy, ?_⟩
            cases hc : c.cast with
            | true =>
              simp only [condEq, hc, if_true, decide_eq_true_eq] at h
              exact .inl ⟨g5.mp hc, h⟩
            | false =>
              simp only [condEq, hc, Bool.false_eq_true, if_false, decide_eq_true_eq] at h
              exact .inr ⟨fun hh => (by rw [g5.mpr hh] at hc; cases hc), h⟩
      · rintro ⟨bf', jf', x, y, e1, e2, hx, hy, h⟩
        injection e1 with e1; injection e2 with e2
        subst e1; subst e2
        rw [hx, hy]
        rcases h with ⟨hc, h⟩ | ⟨hc, h⟩
        · simp [condEq, g5.mpr hc, h]
        · have : c.cast = false := by
            cases hh : c.cast with
            | true => exact absurd (g5.mp hh) hc
            | false => rfl
          simp [condEq, this, h]
    rw [key]
    simp only [List.mem_cons, forall_eq_or_imp]

/-- What one row of the first query becomes, for left and inner joins (for the proofs; it models no file in /repo). -/
def stepRow (cast : α → α) (tables : String → List (MLine α)) (j : String × SqlJoin × List JoinCond) (r : MJRow α) : List (MJRow α) :=
  if j.2.1 = .left then leftRowsA cast j.1 j.2.2 (tables j.1) r else innerRowsA cast j.1 j.2.2 (tables j.1) r

theorem arbStep_eq {cast : α → α} {tables : String → List (MLine α)} {j : String × SqlJoin × List JoinCond}
    (h : j.2.1 = .left ∨ j.2.1 = .inner) (rows : List (MJRow α)) : arbStep cast tables rows j = rows.flatMap (stepRow cast tables j) := by
  unfold arbStep stepRow
  rcases h with h | h <;> simp [h]

theorem foldl_step {cast : α → α} {tables : String → List (MLine α)} : ∀ {js : List (String × SqlJoin × List JoinCond)},
    (∀ j ∈ js, j.2.1 = .left ∨ j.2.1 = .inner) → ∀ rows : List (MJRow α),
    js.foldl (arbStep cast tables) rows = rows.flatMap (fun r => js.foldl (arbStep cast tables) [r]) := by
  intro js
  induction js with
  | nil => intro _ rows; simp
  | cons j js ih =>
    intro hk rows
    have hk' := fun j hj => hk j (List.mem_cons_of_mem _ hj)
    simp only [List.foldl_cons]
    rw [arbStep_eq (hk j (List.mem_cons_self ..)), ih hk', List.flatMap_assoc]
    congr 1
    funext r
    rw [arbStep_eq (hk j (List.mem_cons_self ..)), ← ih hk']
    simp

theorem kind_of {s : SubQ} {env : ArbEnv} {j : String × SqlJoin × List JoinCond} (hj : JoinFor env s j)
    (h : s.joinType = none ∨ s.joinType = some "left_outer" ∨ s.joinType = some "inner") :
    (KeepsAll s ∧ j.2.1 = .left) ∨ (s.joinType = some "inner" ∧ j.2.1 = .inner) := by
  rw [hj.2.1]
  rcases h with h | h | h <;> rw [h]
  · exact .inl ⟨by simp [KeepsAll, h], rfl⟩
  · exact .inl ⟨by simp [KeepsAll, h], rfl⟩
  · exact .inr ⟨rfl, rfl⟩

theorem mem_stepRow {env : ArbEnv} {cast : α → α} {tables : String → List (MLine α)} {s : SubQ} {j : String × SqlJoin × List JoinCond}
    (hj : JoinFor env s j) (h : s.joinType = none ∨ s.joinType = some "left_outer" ∨ s.joinType = some "inner")
    (l : MLine α) (r x : MJRow α) : x ∈ stepRow cast tables j (("merged_query_0", some l) :: r) ↔
      ∃ p, Contributes env cast tables l s p ∧ x = ("merged_query_0", some l) :: (r ++ [(s.cte, p)]) := by
  have hin : ∀ x, x ∈ innerRowsA cast j.1 j.2.2 (tables j.1) (("merged_query_0", some l) :: r) ↔
      ∃ t, (t ∈ tables s.cte ∧ Belongs env cast s l t) ∧ x = ("merged_query_0", some l) :: (r ++ [(s.cte, some t)]) := by
    intro x
    unfold innerRowsA
    simp only [List.mem_map, List.mem_filter, joinHit_iff hj, hj.1, List.cons_append]
    constructor
    · rintro ⟨t, h, rfl⟩; exact ⟨t, h, rfl⟩
    · rintro ⟨t, h, rfl⟩; exact ⟨t, h, rfl⟩
  rcases kind_of hj h with ⟨hs, hk⟩ | ⟨hs, hk⟩
  · unfold stepRow leftRowsA
    rw [if_pos hk]
    by_cases ha : (tables j.1).any (joinHit cast j.2.2 (("merged_query_0", some l) :: r)) = true
    · rw [if_pos ha, hin]
      rw [List.any_eq_true] at ha
      obtain ⟨t0, m0, h0⟩ := ha
      rw [joinHit_iff hj] at h0
      rw [hj.1] at m0
      constructor
      · rintro ⟨t, h1, h2⟩; exact ⟨some t, h1, h2⟩
      · rintro ⟨p, h1, h2⟩
        cases p with
        | some t => exact ⟨t, h1, h2⟩
        | none => exact absurd h0 (h1.2 t0 m0)
    · rw [if_neg ha, List.mem_singleton]
      have hno : ∀ t ∈ tables s.cte, ¬ Belongs env cast s l t := by
        intro t ht hb
        exact ha (List.any_eq_true.mpr ⟨t, by rw [hj.1]; exact ht, (joinHit_iff hj l t r).mpr hb⟩)
      constructor
      · intro h; exact ⟨none, ⟨hs, hno⟩, by rw [h, hj.1]; simp⟩
      · rintro ⟨p, h1, h2⟩
        cases p with
        | some t => exact absurd h1.2 (hno t h1.1)
        | none => rw [h2, hj.1]; simp
  · unfold stepRow
    rw [if_neg (by rw [hk]; decide), hin]
    constructor
    · rintro ⟨t, h1, h2⟩; exact ⟨some t, h1, h2⟩
    · rintro ⟨p, h1, h2⟩
      cases p with
      | some t => exact ⟨t, h1, h2⟩
      | none => exact absurd hs h1.1.1

theorem kinds_of {env : ArbEnv} {ss : List SubQ} {js : List (String × SqlJoin × List JoinCond)} (hj : List.Forall₂ (JoinFor env) ss js)
    (hk : ∀ s ∈ ss, s.joinType = none ∨ s.joinType = some "left_outer" ∨ s.joinType = some "inner") :
    ∀ j ∈ js, j.2.1 = .left ∨ j.2.1 = .inner := by
  induction hj with
  | nil => intro j hj; simp at hj
  | cons h _ ih =>
    intro j hj
    rcases List.mem_cons.mp hj with rfl | hj
    · rcases kind_of h (hk _ (List.mem_cons_self ..)) with ⟨_, h⟩ | ⟨_, h⟩
      · exact .inl h
      · exact .inr h
    · exact ih (fun s hs => hk s (List.mem_cons_of_mem _ hs)) j hj

theorem mem_fold {env : ArbEnv} {cast : α → α} {tables : String → List (MLine α)} {ss : List SubQ}
    {js : List (String × SqlJoin × List JoinCond)} (hj : List.Forall₂ (JoinFor env) ss js)
    (hk : ∀ s ∈ ss, s.joinType = none ∨ s.joinType = some "left_outer" ∨ s.joinType = some "inner") (l : MLine α) (x : MJRow α) :
    ∀ r : MJRow α, x ∈ js.foldl (arbStep cast tables) [("merged_query_0", some l) :: r] ↔
      ∃ ps, List.Forall₂ (Contributes env cast tables l) ss ps ∧ x = ("merged_query_0", some l) :: (r ++ rowOf ss ps) := by
  induction hj with
  | nil =>
    intro r
    constructor
    · intro h; exact ⟨[], .nil, by simpa [rowOf] using h⟩
    · rintro ⟨ps, h, rfl⟩; cases h; simp [rowOf]
  | @cons s j ss js h hrest ih =>
    intro r
    have hk' := fun s hs => hk s (List.mem_cons_of_mem _ hs)
    have hs := hk s (List.mem_cons_self ..)
    have h1 : j.2.1 = .left ∨ j.2.1 = .inner := kinds_of (.cons h hrest) hk j (List.mem_cons_self ..)
    simp only [List.foldl_cons]
    rw [arbStep_eq h1, foldl_step (kinds_of hrest hk'), List.mem_flatMap]
    simp only [List.flatMap_cons, List.flatMap_nil, List.append_nil]
    constructor
    · rintro ⟨y, hy, hx⟩
      obtain ⟨p, hp, rfl⟩ := (mem_stepRow h hs l r y).mp hy
      obtain ⟨ps, hps, rfl⟩ := (ih hk' _).mp hx
      exact ⟨p :: ps, .cons hp hps, by simp [rowOf]⟩
    · rintro ⟨ps, hps, rfl⟩
      cases hps with
      | @cons _ p _ ps hp hps =>
        refine ⟨_, (mem_stepRow h hs l r _).mpr ⟨p, hp, rfl⟩, (ih hk' _).mpr ⟨ps, hps, by simp [rowOf]⟩⟩

/-- A list whose elements all equal one another pairwise-differently has at most one element (for the proofs). -/
theorem filter_short {β : Type} {R : β → β → Prop} {P : β → Bool} {l : List β} (h : l.Pairwise R)
    (hR : ∀ a ∈ l, ∀ b ∈ l, R a b → P a = true → P b = true → False) : (l.filter P).length ≤ 1 := by
  induction l with
  | nil => simp
  | cons a l ih =>
    rw [List.pairwise_cons] at h
    cases hp : P a with
    | false =>
      rw [List.filter_cons_of_neg (by simp [hp])]
      exact ih h.2 (fun a ha b hb => hR a (List.mem_cons_of_mem _ ha) b (List.mem_cons_of_mem _ hb))
    | true =>
      rw [List.filter_cons_of_pos hp]
      have : l.filter P = [] := by
        rw [List.filter_eq_nil_iff]
        intro b hb hpb
        exact hR a (List.mem_cons_self ..) b (List.mem_cons_of_mem _ hb) (h.1 b hb) hp hpb
      simp [this]

theorem fold_short {env : ArbEnv} {cast : α → α} {tables : String → List (MLine α)} {ss : List SubQ}
    {js : List (String × SqlJoin × List JoinCond)} (hj : List.Forall₂ (JoinFor env) ss js)
    (hk : ∀ s ∈ ss, s.joinType = none ∨ s.joinType = some "left_outer" ∨ s.joinType = some "inner")
    (hone : ∀ s ∈ ss, (tables s.cte).Pairwise (fun t t' => ∀ l, ¬ (Belongs env cast s l t ∧ Belongs env cast s l t'))) (l : MLine α) :
    ∀ r : MJRow α, (js.foldl (arbStep cast tables) [("merged_query_0", some l) :: r]).length ≤ 1 := by
  induction hj with
  | nil => intro r; simp
  | @cons s j ss js h hrest ih =>
    intro r
    have hk' := fun s hs => hk s (List.mem_cons_of_mem _ hs)
    have hs := hk s (List.mem_cons_self ..)
    have h1 : j.2.1 = .left ∨ j.2.1 = .inner := by
      rcases kind_of h hs with ⟨_, h⟩ | ⟨_, h⟩
      · exact .inl h
      · exact .inr h
    have hin : (innerRowsA cast j.1 j.2.2 (tables j.1) (("merged_query_0", some l) :: r)).length ≤ 1 := by
      unfold innerRowsA
      rw [List.length_map]
      refine filter_short (R := fun t t' => ∀ l, ¬ (Belongs env cast s l t ∧ Belongs env cast s l t')) ?_ ?_
      · rw [h.1]; exact hone s (List.mem_cons_self ..)
      · intro a _ b _ hR pa pb
        exact hR l ⟨(joinHit_iff h l a r).mp pa, (joinHit_iff h l b r).mp pb⟩
    have hst : (stepRow cast tables j (("merged_query_0", some l) :: r)).length ≤ 1 := by
      unfold stepRow leftRowsA
      split
      · split
        · exact hin
        · simp
      · exact hin
    simp only [List.foldl_cons]
    rw [arbStep_eq h1]
    simp only [List.flatMap_cons, List.flatMap_nil, List.append_nil]
    match hm : stepRow cast tables j (("merged_query_0", some l) :: r), hst with
    | [], _ =>
      have hnil : js.foldl (arbStep cast tables) ([] : List (MJRow α)) = [] := by
        rw [foldl_step (kinds_of hrest hk')]; rfl
      rw [hnil]; simp
    | [y], _ =>
      obtain ⟨p, _, rfl⟩ := (mem_stepRow h hs l r y).mp (by rw [hm]; simp)
      exact ih hk' (fun s hs => hone s (List.mem_cons_of_mem _ hs)) _
    | _ :: _ :: _, hst => simp at hst

end ML
