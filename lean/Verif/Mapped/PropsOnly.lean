import Verif.Mapped.Props
/- C41: queries of mapped names only, and rejected queries. -/
set_option autoImplicit false
namespace ML
open Spec

/-! ### The table of candidates -/

/-- A name with its field. -/
def withField (env : MapEnv) (n : String) : String × CField :=
  match env.field n with
  | .ok c => (n, c)
  | .error _ => (n, ⟨"", [], none⟩)

def withFields (env : MapEnv) (ms : List (String × MapDef)) : List (String × List (String × CField)) :=
  ms.map (fun p => (p.1, p.2.fields.map (withField env)))

def graphsOf (cs : List (String × CField)) : List (String × List String) := cs.map (fun p => (p.1, p.2.graphs))

theorem candidates_each {env : MapEnv} : ∀ {ns : List String} {cs : List CField}, ns.mapM env.field = .ok cs →
    cs = ns.map (fun n => (withField env n).2) ∧ ∀ n ∈ ns, env.field n = .ok (withField env n).2
  | [], cs, h => by
    have := Except.ok.inj h
    subst this
    exact ⟨rfl, by simp⟩
  | n :: ns, cs, h => by
    rw [List.mapM_cons] at h
    cases hf : env.field n with
    | error e => rw [hf] at h; cases h
    | ok c =>
      rw [hf] at h
      cases hr : ns.mapM env.field with
      | error e => rw [hr] at h; cases h
      | ok cs' =>
        rw [hr] at h
        have := Except.ok.inj h
        subst this
        obtain ⟨h1, h2⟩ := candidates_each hr
        have hw : (withField env n).2 = c := by unfold withField; rw [hf]
        refine ⟨by rw [List.map_cons, hw, ← h1], ?_⟩
        intro x hx
        rcases List.mem_cons.mp hx with rfl | hx
        · rw [hf, hw]
        · exact h2 x hx

theorem withField_fst (env : MapEnv) (n : String) : (withField env n).1 = n := by
  unfold withField
  cases env.field n <;> rfl

theorem candidateGraphs_eq {env : MapEnv} : ∀ {ns : List String}, (∀ n ∈ ns, env.field n = .ok (withField env n).2) →
    candidateGraphs env ns = .ok (graphsOf (ns.map (withField env)))
  | [], _ => rfl
  | n :: ns, h => by
    unfold candidateGraphs
    rw [h n (by simp), candidateGraphs_eq (fun x hx => h x (by simp [hx]))]
    simp [graphsOf, withField_fst]

theorem checkTable_eq {env : MapEnv} : ∀ {ms : List (String × MapDef)},
    (∀ p ∈ ms, p.2.fields ≠ [] ∧ ∀ n ∈ p.2.fields, env.field n = .ok (withField env n).2) →
    checkTable env ms = .ok ((withFields env ms).map (fun e => (e.1, graphsOf e.2)))
  | [], _ => rfl
  | (a, m) :: ms, h => by
    obtain ⟨h1, h2⟩ := h (a, m) (by simp)
    unfold checkTable
    rw [candidateGraphs_eq h2, checkTable_eq (fun p hp => h p (by simp [hp]))]
    simp only
    rw [if_neg]
    · rfl
    · simp only [graphsOf, List.map_map, List.isEmpty_iff, List.map_eq_nil_iff]
      exact h1

/-! ### Points -/

theorem go_iff (p p' : String × CField) :
    (p.1 ≠ p'.1 ∧ p.2.graphs.any (fun g => p'.2.graphs.contains g) = true) ↔ GoTogether p p' := by
  unfold GoTogether MergeableWith
  simp [List.any_eq_true]

theorem join_iff (p p' : String × CField) :
    (p.2.graphs.any (fun g => isJoinGraph g && p'.2.graphs.contains g) = true) ↔ JoinableWith [p'.2] p.2 := by
  unfold JoinableWith
  simp [List.any_eq_true, isJoinGraph_iff]

theorem sameView_iff (s s' : String) : viewOfId s = viewOfId s' ↔ ∃ v, ViewPart s v ∧ ViewPart s' v := by
  constructor
  · intro h
    exact ⟨viewOfDate s, (viewPart_iff _ _).mpr rfl, (viewPart_iff _ _).mpr h⟩
  · rintro ⟨v, h1, h2⟩
    exact ((viewPart_iff _ _).mp h1).symm.trans ((viewPart_iff _ _).mp h2)

open Classical in
/-- The points of one partner. -/
noncomputable def partnerPoints (p p' : String × CField) : ℕ :=
  (if ∃ v, ViewPart p.1 v ∧ ViewPart p'.1 v then 1 else 0) + (if JoinableWith [p'.2] p.2 then 1 else 0)

open Classical in
theorem pairPoints_spec (p : String × CField) : ∀ (cs : List (String × CField)),
    (∀ k, pairPoints p.1 p.2.graphs (graphsOf cs) = some k ↔ ∃ p', IsPartner cs p p' ∧ k = partnerPoints p p')
  | [], k => by
    simp only [graphsOf, List.map_nil, pairPoints]
    constructor
    · intro h; cases h
    · rintro ⟨p', ⟨pre, post, h, -⟩, -⟩
      simp at h
  | x :: cs, k => by
    have ih := pairPoints_spec p cs k
    have e : graphsOf (x :: cs) = (x.1, x.2.graphs) :: graphsOf cs := rfl
    rw [e, pairPoints]
    by_cases hgo : GoTogether p x
    · rw [if_pos ((go_iff p x).mpr hgo)]
      have hpts : (if viewOfId p.1 = viewOfId x.1 then 1 else 0) +
          (if (p.2.graphs.any fun g => isJoinGraph g && x.2.graphs.contains g) = true then 1 else 0) = partnerPoints p x := by
        unfold partnerPoints
        congr 1
        · exact if_congr (sameView_iff _ _) rfl rfl
        · exact if_congr (join_iff p x) rfl rfl
      rw [hpts, Option.some.injEq]
      constructor
      · rintro rfl
        exact ⟨x, ⟨[], cs, rfl, hgo, by simp⟩, rfl⟩
      · rintro ⟨p', ⟨pre, post, h, h2, h3⟩, rfl⟩
        cases pre with
        | nil => simp only [List.nil_append, List.cons.injEq] at h; rw [h.1]
        | cons y pre =>
          simp only [List.cons_append, List.cons.injEq] at h
          exact absurd hgo (h.1 ▸ h3 y (by simp))
    · rw [if_neg (fun h => hgo ((go_iff p x).mp h)), ih]
      constructor
      · rintro ⟨p', ⟨pre, post, rfl, h2, h3⟩, hk⟩
        refine ⟨p', ⟨x :: pre, post, rfl, h2, ?_⟩, hk⟩
        intro y hy
        rcases List.mem_cons.mp hy with rfl | hy
        · exact hgo
        · exact h3 y hy
      · rintro ⟨p', ⟨pre, post, h, h2, h3⟩, hk⟩
        cases pre with
        | nil =>
          simp only [List.nil_append, List.cons.injEq] at h
          rw [h.1] at hgo
          exact absurd h2 hgo
        | cons y pre =>
          simp only [List.cons_append, List.cons.injEq] at h
          exact ⟨p', ⟨pre, post, h.2, h2, fun z hz => h3 z (by simp [hz])⟩, hk⟩

theorem points_sum (p : String × CField) (es : List (String × List (String × CField))) (k : ℕ) :
    ((es.map (fun e => pairPoints p.1 p.2.graphs (graphsOf e.2))).all (·.isSome) = true ∧
      k = ((es.map (fun e => pairPoints p.1 p.2.graphs (graphsOf e.2))).map (·.getD 0)).sum) ↔
    ∃ partners, List.Forall₂ (fun e p' => IsPartner e.2 p p') es partners ∧ k = (partners.map (partnerPoints p)).sum := by
  induction es generalizing k with
  | nil =>
    simp only [List.map_nil, List.all_nil, List.sum_nil, true_and]
    constructor
    · rintro rfl; exact ⟨[], .nil, rfl⟩
    · rintro ⟨_, h, rfl⟩; cases h; rfl
  | cons e es ih =>
    simp only [List.map_cons, List.all_cons, Bool.and_eq_true, List.sum_cons]
    constructor
    · rintro ⟨⟨h1, h2⟩, h3⟩
      obtain ⟨k1, hk1⟩ := Option.isSome_iff_exists.mp h1
      obtain ⟨p', hp', he⟩ := (pairPoints_spec p e.2 k1).mp hk1
      obtain ⟨ps, hps, hs⟩ := (ih _).mp ⟨h2, rfl⟩
      refine ⟨p' :: ps, .cons hp' hps, ?_⟩
      rw [h3, hk1, hs, List.map_cons, List.sum_cons, he]
      rfl
    · rintro ⟨ps, hps, hk⟩
      cases hps with
      | @cons _ p' _ ps hp' hps =>
        obtain ⟨h2, h3⟩ := (ih _).mpr ⟨ps, hps, rfl⟩
        have h1 := (pairPoints_spec p e.2 _).mpr ⟨p', hp', rfl⟩
        refine ⟨⟨by rw [h1]; rfl, h2⟩, ?_⟩
        rw [hk, List.map_cons, List.sum_cons, h1, ← h3]
        rfl

open Classical in
theorem partnerPoints_sum (p : String × CField) (ps : List (String × CField)) :
    (ps.map (partnerPoints p)).sum = (ps.filter (fun p' => ∃ v, ViewPart p.1 v ∧ ViewPart p'.1 v)).length +
      (ps.filter (fun p' => JoinableWith [p'.2] p.2)).length := by
  induction ps with
  | nil => rfl
  | cons x ps ih =>
    rw [List.map_cons, List.sum_cons, ih, List.filter_cons, List.filter_cons]
    unfold partnerPoints
    by_cases h1 : ∃ v, ViewPart p.1 v ∧ ViewPart x.1 v <;> by_cases h2 : JoinableWith [x.2] p.2 <;>
      simp only [h1, h2, decide_true, decide_false, if_true, if_false, List.length_cons, Bool.false_eq_true] <;> omega

theorem candidatePoints_iff (tables : List (String × List (String × CField))) (a : String) (p : String × CField) (k : ℕ) :
    candidatePoints (tables.map (fun e => (e.1, graphsOf e.2))) a p.1 p.2.graphs = some k ↔ HasPoints tables a p k := by
  have hf : ((tables.map (fun e => (e.1, graphsOf e.2))).filter (fun e => decide (e.1 ≠ a))).map (fun e => pairPoints p.1 p.2.graphs e.2) =
      (tables.filter (fun e => decide (e.1 ≠ a))).map (fun e => pairPoints p.1 p.2.graphs (graphsOf e.2)) := by
    rw [List.filter_map, List.map_map]
    rfl
  unfold candidatePoints
  simp only
  rw [hf]
  have key := points_sum p (tables.filter (fun e => decide (e.1 ≠ a))) k
  unfold HasPoints
  simp only [← partnerPoints_sum]
  rw [← key]
  constructor
  · intro h
    split at h
    · rename_i h1
      exact ⟨h1, (Option.some.inj h).symm⟩
    · cases h
  · rintro ⟨h1, h2⟩
    rw [if_pos h1, h2]

theorem mem_validItems (tables : List (String × List (String × CField))) (x : String × String × ℕ) :
    x ∈ validItems (tables.map (fun e => (e.1, graphsOf e.2))) ↔
      ∃ e ∈ tables, ∃ p ∈ e.2, x.1 = e.1 ∧ x.2.1 = p.1 ∧ HasPoints tables e.1 p x.2.2 := by
  unfold validItems
  simp only [List.mem_flatMap, List.mem_map, List.mem_filterMap, graphsOf]
  constructor
  · rintro ⟨_, ⟨e, he, rfl⟩, y, hy, h⟩
    obtain ⟨p, hp, rfl⟩ := List.mem_map.mp hy
    obtain ⟨k, hk, rfl⟩ := Option.map_eq_some_iff.mp h
    exact ⟨e, he, p, hp, rfl, rfl, (candidatePoints_iff tables e.1 p k).mp hk⟩
  · rintro ⟨e, he, p, hp, h1, h2, h3⟩
    refine ⟨_, ⟨e, he, rfl⟩, _, List.mem_map.mpr ⟨p, hp, rfl⟩, ?_⟩
    have := (candidatePoints_iff tables e.1 p x.2.2).mpr h3
    simp only [graphsOf] at this
    simp only
    rw [this, Option.map_some, ← h1, ← h2]

/-- At most as many points and, for equal points, a name that is not later. -/
def notBetter (x y : String × String × ℕ) : Prop := x.2.2 < y.2.2 ∨ (x.2.2 = y.2.2 ∧ x.2.1 ≤ y.2.1)

theorem betterItem_iff (x y : String × String × ℕ) : betterItem x y = true ↔ ¬ notBetter x y := by
  unfold betterItem notBetter
  rw [Bool.or_eq_true, Bool.and_eq_true, decide_eq_true_eq, decide_eq_true_eq, decide_eq_true_eq]
  constructor
  · rintro (h | ⟨h1, h2⟩) (h3 | ⟨h3, h4⟩)
    · omega
    · omega
    · omega
    · exact absurd h2 (String.not_lt.mpr h4)
  · intro h
    rw [not_or] at h
    by_cases he : x.2.2 = y.2.2
    · right
      refine ⟨he, ?_⟩
      rw [← String.not_le]
      exact fun hc => h.2 ⟨he, hc⟩
    · left
      omega

theorem notBetter_refl (x : String × String × ℕ) : notBetter x x := .inr ⟨rfl, String.le_refl _⟩

theorem notBetter_total (x y : String × String × ℕ) (h : ¬ notBetter x y) : notBetter y x := by
  unfold notBetter at *
  rw [not_or] at h
  by_cases he : x.2.2 = y.2.2
  · right
    refine ⟨he.symm, ?_⟩
    rcases String.le_total x.2.1 y.2.1 with hc | hc
    · exact absurd ⟨he, hc⟩ h.2
    · exact hc
  · left; omega

theorem notBetter_trans (x y z : String × String × ℕ) (h1 : notBetter x y) (h2 : notBetter y z) : notBetter x z := by
  unfold notBetter at *
  rcases h1 with h1 | ⟨h1, h1'⟩ <;> rcases h2 with h2 | ⟨h2, h2'⟩
  · left; omega
  · left; omega
  · left; omega
  · exact .inr ⟨h1.trans h2, String.le_trans h1' h2'⟩

theorem bestItem_spec : ∀ (best : String × String × ℕ) (xs : List (String × String × ℕ)),
    bestItem best xs ∈ best :: xs ∧ ∀ x ∈ best :: xs, notBetter x (bestItem best xs)
  | best, [] => ⟨by simp [bestItem], by simp only [List.mem_singleton]; rintro x rfl; exact notBetter_refl _⟩
  | best, x :: xs => by
    unfold bestItem
    by_cases hb : betterItem x best = true
    · rw [if_pos hb]
      obtain ⟨h1, h2⟩ := bestItem_spec x xs
      refine ⟨List.mem_cons_of_mem _ h1, ?_⟩
      intro y hy
      rcases List.mem_cons.mp hy with rfl | hy
      · exact notBetter_trans _ _ _ (notBetter_total _ _ ((betterItem_iff _ _).mp hb)) (h2 x (by simp))
      · exact h2 y hy
    · rw [if_neg hb]
      obtain ⟨h1, h2⟩ := bestItem_spec best xs
      refine ⟨?_, ?_⟩
      · rcases List.mem_cons.mp h1 with h1 | h1
        · rw [h1]; simp
        · simp [h1]
      · intro y hy
        rcases List.mem_cons.mp hy with rfl | hy
        · exact h2 y (by simp)
        · rcases List.mem_cons.mp hy with rfl | hy
          · have : notBetter y best := by
              by_contra hc
              exact hb ((betterItem_iff _ _).mpr hc)
            exact notBetter_trans _ _ _ this (h2 best (by simp))
          · exact h2 y (by simp [hy])

/-! ### The other mappings -/

theorem loopOthers_spec {env : MapEnv} (hid : ∀ x c, env.field x = .ok c → env.mapping c.id = none)
    {q : MQuery} (hq : PlainMQuery q) {names : QNames} (hn : NamesOk q names) {f : CField} (hg : f.graphs ≠ []) (done : String) :
    ∀ {ms : List (String × MapDef)} {σ : String → String} {qk : MQuery}, LoopInv env q σ qk → (ms.map (·.1)).Nodup →
      (∀ a m, (a, m) ∈ ms → a ≠ done → env.mapping a = some m ∧ σ a = a ∧ Uses q a ∧
        ∃ cs, Candidates env m cs ∧ ∃ c ∈ cs, MergeableWith [f] c) →
      ∃ q' σ', loopOthers env names f.graphs done qk ms = .ok q' ∧ LoopInv env q σ' q' ∧ (∀ n, n ∉ ms.map (·.1) ∨ n = done → σ' n = σ n) ∧
        ∀ a m, (a, m) ∈ ms → a ≠ done → ∃ c, σ' a = c.id ∧ ∃ cs, Candidates env m cs ∧ BestCandidate [f] cs c
  | [], σ, qk, hinv, _, _ => ⟨qk, σ, rfl, hinv, fun _ _ => rfl, by simp⟩
  | (a, m) :: ms, σ, qk, hinv, hnd, hms => by
    simp only [List.map_cons, List.nodup_cons] at hnd
    unfold loopOthers
    by_cases ha : a = done
    · rw [if_pos ha]
      obtain ⟨q', σ', h1, h2, h3, h4⟩ := loopOthers_spec hid hq hn hg done hinv hnd.2 (fun a' m' h' => hms a' m' (by simp [h']))
      refine ⟨q', σ', h1, h2, ?_, ?_⟩
      · rintro n (h | h)
        · exact h3 n (.inl (fun hc => h (by simp only [List.map_cons]; exact List.mem_cons_of_mem _ hc)))
        · exact h3 n (.inr h)
      · intro a' m' hin hne
        rcases List.mem_cons.mp hin with e | hin
        · injection e with e1 e2
          exact absurd (e1.trans ha) hne
        · exact h4 a' m' hin hne
    · rw [if_neg ha]
      obtain ⟨hma, hσ, hu, cs, hcs, hmg⟩ := hms a m (by simp) ha
      have hsh : sharedGraphs ([f].map (·.graphs)) = f.graphs := by simp [sharedGraphs]
      have hck : checkShared [(done, f.graphs)] = .ok () := by
        unfold checkShared
        rw [if_neg]
        simp only [List.map_cons, List.map_nil]
        have : sharedGraphs [f.graphs] = f.graphs := hsh
        rw [this, List.isEmpty_iff]
        exact hg
      rw [hck]
      simp only
      obtain ⟨c, hc⟩ := determine_total (fs := [f]) (by simp) hcs hmg
      obtain ⟨cs', hcs', hbest⟩ := determine_ok (fs := [f]) (by simp) hc
      rw [hsh] at hc
      rw [hc]
      simp only
      obtain ⟨q2, hq2⟩ := replaceMapped_total (qk := qk) hn hu c
      rw [hq2]
      simp only
      have hcm : env.mapping c.id = none := by
        obtain ⟨he, hl⟩ := candidates_each hcs'
        have hmem : c ∈ cs' := by
          rcases hbest with ⟨pre, post, rfl, -⟩ | ⟨-, pre, post, rfl, -⟩ <;> simp
        rw [he] at hmem
        obtain ⟨x, hx, rfl⟩ := List.mem_map.mp hmem
        exact hid x _ (hl x hx)
      obtain ⟨hinv2, -⟩ := replaceMapped_inv hq hn hinv hma hσ hcm hq2
      obtain ⟨q', σ', h1, h2, h3, h4⟩ := loopOthers_spec hid hq hn hg done hinv2 hnd.2 (by
        intro a' m' h' hne
        obtain ⟨k1, k2, k3⟩ := hms a' m' (by simp [h']) hne
        refine ⟨k1, ?_, k3⟩
        rw [upd, if_neg, k2]
        rintro rfl
        exact hnd.1 (List.mem_map.mpr ⟨(a', m'), h', rfl⟩))
      refine ⟨q', σ', h1, h2, ?_, ?_⟩
      · rintro n (h | h)
        · simp only [List.map_cons, List.mem_cons, not_or] at h
          rw [h3 n (.inl h.2), upd, if_neg h.1]
        · rw [h3 n (.inr h), upd, if_neg (by rw [h]; exact Ne.symm ha)]
      · intro a' m' hin hne
        rcases List.mem_cons.mp hin with e | hin
        · injection e with e1 e2
          subst e1 e2
          exact ⟨c, by rw [h3 a' (.inl hnd.1), upd, if_pos rfl], cs', hcs', hbest⟩
        · exact h4 a' m' hin hne

/-- C41 (h): a query of two or more mapped names and nothing else. It is accepted exactly when some candidate has a partner among the
candidates of every other mapped name, and rejected with a query error otherwise. Of these candidates the one with the most points is
taken (for equal points the last by name), and every other mapped name becomes the first of its candidates that can be joined
with it, else the first that can be merged with it; nothing else is changed. -/
theorem C41_mappings_only (env : MapEnv) (idents : String → List String)
    (hid : ∀ x c, env.field x = .ok c → env.mapping c.id = none)
    (q : MQuery) (hq : PlainMQuery q) (a b : String) (ha : Uses q a) (hb : Uses q b) (hab : a ≠ b)
    (hall : ∀ n, Uses q n → ∃ m c cs, env.mapping n = some m ∧ Candidates env m (c :: cs)) :
    ∃ tables, CandidateTables env q tables ∧
      ((∃ q', resolveMapped env idents [] q = .ok q') ↔ ∃ e ∈ tables, ∃ p ∈ e.2, ∃ k, HasPoints tables e.1 p k) ∧
      ((∀ q', resolveMapped env idents [] q ≠ .ok q') → resolveMapped env idents [] q = .error .query) ∧
      ∀ q', resolveMapped env idents [] q = .ok q' → ∃ e ∈ tables, ∃ p ∈ e.2, ∃ k, HasPoints tables e.1 p k ∧
        (∀ e' ∈ tables, ∀ p' ∈ e'.2, ∀ k', HasPoints tables e'.1 p' k' → k' < k ∨ (k' = k ∧ p'.1 ≤ p.1)) ∧
        ∃ σ, Renamed σ q q' ∧ σ e.1 = p.2.id ∧
          ∀ e' ∈ tables, e'.1 ≠ e.1 → ∃ c, σ e'.1 = c.id ∧ BestCandidate [p.2] (e'.2.map (·.2)) c := by
  obtain ⟨names, ids, hn, hnd, hids, he⟩ := resolveMapped_unfold (env := env) idents [] hq
  have hids' : ∀ n, n ∈ ids ↔ Uses q n := by intro n; rw [hids]; simp
  obtain ⟨ms, fs, hc⟩ := classify_total (env := env) (ids := ids) (by
    intro n hin hnone
    obtain ⟨m, c, cs, h1, -⟩ := hall n ((hids' n).mp hin)
    rw [h1] at hnone
    cases hnone)
  have hcl := classify_spec hc
  have hfs : fs = [] := by
    rw [List.eq_nil_iff_forall_not_mem]
    rintro ⟨n, f⟩ hin
    obtain ⟨h1, h2, -⟩ := (hcl.fields n f).mp hin
    obtain ⟨m, c, cs, h3, -⟩ := hall n ((hids' n).mp h1)
    rw [h3] at h2
    cases h2
  subst hfs
  have hms : ∀ p ∈ ms, env.mapping p.1 = some p.2 ∧ Uses q p.1 ∧ p.2.fields ≠ [] ∧
      (∀ n ∈ p.2.fields, env.field n = .ok (withField env n).2) ∧ Candidates env p.2 (p.2.fields.map (fun n => (withField env n).2)) := by
    intro p hp
    obtain ⟨h1, h2⟩ := (hcl.maps p.1 p.2).mp hp
    obtain ⟨m, c, cs, h3, h4⟩ := hall p.1 ((hids' _).mp h1)
    rw [h2] at h3
    injection h3 with h3
    subst h3
    obtain ⟨h5, h6⟩ := candidates_each h4
    refine ⟨h2, (hids' _).mp h1, ?_, h6, ?_⟩
    · intro hc
      rw [hc] at h5
      cases h5
    · rw [← h5]; exact h4
  have hlen : ∃ x y l, ms = x :: y :: l := by
    obtain ⟨m1, _, _, h1, -⟩ := hall a ha
    obtain ⟨m2, _, _, h2, -⟩ := hall b hb
    have e1 := (hcl.maps a m1).mpr ⟨(hids' a).mpr ha, h1⟩
    have e2 := (hcl.maps b m2).mpr ⟨(hids' b).mpr hb, h2⟩
    match ms, e1, e2 with
    | [], e1, _ => cases e1
    | [x], e1, e2 =>
      rw [List.mem_singleton] at e1 e2
      rw [← e1] at e2
      injection e2 with e2
      exact absurd e2.symm hab
    | x :: y :: l, _, _ => exact ⟨x, y, l, rfl⟩
  have hnodup : (ms.map (·.1)).Nodup := hcl.keys.nodup hnd
  have htab : CandidateTables env q (withFields env ms) := by
    refine ⟨?_, ?_, ?_⟩
    · have : (withFields env ms).map (·.1) = ms.map (·.1) := by
        unfold withFields
        rw [List.map_map]
        rfl
      rw [this]
      exact hnodup
    · intro n
      have : (withFields env ms).map (·.1) = ms.map (·.1) := by
        unfold withFields
        rw [List.map_map]
        rfl
      rw [this]
      constructor
      · intro h
        obtain ⟨p, hp, rfl⟩ := List.mem_map.mp h
        exact (hms p hp).2.1
      · intro h
        obtain ⟨m, _, _, h1, -⟩ := hall n h
        exact List.mem_map.mpr ⟨(n, m), (hcl.maps n m).mpr ⟨(hids' n).mpr h, h1⟩, rfl⟩
    · intro e hee
      obtain ⟨p, hp, rfl⟩ := List.mem_map.mp hee
      obtain ⟨h1, -, -, h4, -⟩ := hms p hp
      refine ⟨p.2, h1, ?_, ?_⟩
      · simp only [List.map_map]
        conv_rhs => rw [← List.map_id p.2.fields]
        exact List.map_congr_left (fun n _ => withField_fst env n)
      · intro x hx
        obtain ⟨n, hnn, rfl⟩ := List.mem_map.mp hx
        rw [withField_fst]
        exact h4 n hnn
  have hct := checkTable_eq (fun p hp => ⟨(hms p hp).2.2.1, (hms p hp).2.2.2.1⟩)
  have hres : resolveMapped env idents [] q = mappedOnly env names q ms := by
    rw [he, hc]
    obtain ⟨x, y, l, rfl⟩ := hlen
    rfl
  have honly : mappedOnly env names q ms = (match validItems ((withFields env ms).map (fun e => (e.1, graphsOf e.2))) with
      | [] => .error .query
      | x :: xs =>
        match env.field (bestItem x xs).2.1 with
        | .error e => .error e
        | .ok c => match replaceMapped names q (bestItem x xs).1 c with
          | .error e => .error e
          | .ok q' => loopOthers env names c.graphs (bestItem x xs).1 q' ms) := by
    unfold mappedOnly
    rw [hct]
    obtain ⟨x, y, l, rfl⟩ := hlen
    rfl
  refine ⟨withFields env ms, htab, ?_⟩
  rw [hres, honly]
  cases hv : validItems ((withFields env ms).map (fun e => (e.1, graphsOf e.2))) with
  | nil =>
    simp only
    have hno : ¬ ∃ e ∈ withFields env ms, ∃ p ∈ e.2, ∃ k, HasPoints (withFields env ms) e.1 p k := by
      rintro ⟨e, hee, p, hp, k, hk⟩
      have := (mem_validItems (withFields env ms) (e.1, p.1, k)).mpr ⟨e, hee, p, hp, rfl, rfl, hk⟩
      rw [hv] at this
      cases this
    exact ⟨⟨fun ⟨_, h⟩ => (by cases h), fun h => absurd h hno⟩, by simp, fun _ h => (by cases h)⟩
  | cons x xs =>
    simp only
    obtain ⟨hbm, hbb⟩ := bestItem_spec x xs
    rw [← hv] at hbm hbb
    obtain ⟨e, hee, p, hp, h1, h2, h3⟩ := (mem_validItems _ _).mp hbm
    have hyes : ∃ e ∈ withFields env ms, ∃ p ∈ e.2, ∃ k, HasPoints (withFields env ms) e.1 p k := ⟨e, hee, p, hp, _, h3⟩
    obtain ⟨m0, hm0, hf0, hl0⟩ := htab.candidates e hee
    rw [h2, hl0 p hp, h1]
    simp only
    have hinv0 : LoopInv env q id q :=
      ⟨⟨by simp, by simp, (mapClause_id _).symm, (mapClause_id _).symm, (mapClause_id _).symm⟩,
        fun _ _ => rfl, fun _ => .inl rfl⟩
    have hue : Uses q e.1 := (htab.uses e.1).mp (List.mem_map.mpr ⟨e, hee, rfl⟩)
    obtain ⟨q1, hq1⟩ := replaceMapped_total (qk := q) hn hue p.2
    rw [hq1]
    simp only
    obtain ⟨hinv1, -⟩ := replaceMapped_inv hq hn hinv0 hm0 rfl (hid _ _ (hl0 p hp)) hq1
    have hpart : ∀ e' ∈ withFields env ms, e'.1 ≠ e.1 → ∃ p' ∈ e'.2, GoTogether p p' := by
      intro e' he' hne
      obtain ⟨ps, hps, -⟩ := h3
      have hmem : e' ∈ (withFields env ms).filter (fun x => decide (x.1 ≠ e.1)) := by
        rw [List.mem_filter]
        exact ⟨he', by simpa using hne⟩
      have : ∀ (l : List (String × List (String × CField))) (l' : List (String × CField)),
          List.Forall₂ (fun e p' => IsPartner e.2 p p') l l' → e' ∈ l → ∃ p' ∈ e'.2, GoTogether p p' := by
        intro l l' h
        induction h with
        | nil => intro h; cases h
        | cons h _ ih =>
          intro hin
          rcases List.mem_cons.mp hin with rfl | hin
          · obtain ⟨pre, post, h5, h6, -⟩ := h
            exact ⟨_, by rw [h5]; simp, h6⟩
          · exact ih hin
      exact this _ _ hps hmem
    have hgne : p.2.graphs ≠ [] := by
      obtain ⟨e', he', hne⟩ : ∃ e' ∈ withFields env ms, e'.1 ≠ e.1 := by
        by_cases hae : a = e.1
        · obtain ⟨e', he', h'⟩ := List.mem_map.mp ((htab.uses b).mpr hb)
          exact ⟨e', he', by rw [h', ← hae]; exact Ne.symm hab⟩
        · obtain ⟨e', he', h'⟩ := List.mem_map.mp ((htab.uses a).mpr ha)
          exact ⟨e', he', by rw [h']; exact hae⟩
      obtain ⟨p', -, -, g, hg, -⟩ := hpart e' he' hne
      exact List.ne_nil_of_mem hg
    obtain ⟨q2, σ, k1, k2, k3, k4⟩ := loopOthers_spec hid hq hn hgne e.1 hinv1 hnodup (by
      intro a' m' hin hne
      obtain ⟨j1, j2, j3, j4, j5⟩ := hms (a', m') hin
      refine ⟨j1, by rw [upd, if_neg hne]; rfl, j2, _, j5, ?_⟩
      obtain ⟨p', hp', -, g, hg1, hg2⟩ := hpart (a', m'.fields.map (withField env)) (List.mem_map.mpr ⟨(a', m'), hin, rfl⟩) hne
      obtain ⟨n, hnn, rfl⟩ := List.mem_map.mp hp'
      exact ⟨_, List.mem_map.mpr ⟨n, hnn, rfl⟩, g, hg2 _ (by simp), by simpa using hg1⟩)
    rw [k1]
    refine ⟨⟨fun _ => hyes, fun _ => ⟨q2, rfl⟩⟩, fun h => absurd rfl (h q2), ?_⟩
    intro q' hq'
    injection hq' with hq'
    subst hq'
    refine ⟨e, hee, p, hp, _, h3, ?_, σ, k2.renamed, ?_, ?_⟩
    · intro e' he' p' hp' k' hk'
      have := hbb (e'.1, p'.1, k') ((mem_validItems _ _).mpr ⟨e', he', p', hp', rfl, rfl, hk'⟩)
      unfold notBetter at this
      rw [h2] at this
      exact this
    · rw [k3 e.1 (.inr rfl), upd, if_pos rfl]
    · intro e' he' hne
      obtain ⟨pm, hpm, rfl⟩ := List.mem_map.mp he'
      obtain ⟨c, hc1, cs, hc2, hc3⟩ := k4 pm.1 pm.2 hpm hne
      refine ⟨c, hc1, ?_⟩
      have := Except.ok.inj (hc2.symm.trans (hms pm hpm).2.2.2.2)
      rw [this] at hc3
      simpa [List.map_map, Function.comp_def] using hc3

/-! ### Rejected queries -/

theorem classify_fkeys {env : MapEnv} : ∀ {ids : List String} {ms : List (String × MapDef)}
    {fs : List (String × CField)}, classify env ids = .ok (ms, fs) → (fs.map (·.1)).Sublist ids
  | [], ms, fs, h => by
    simp only [classify, Except.ok.injEq, Prod.mk.injEq] at h
    obtain ⟨rfl, rfl⟩ := h
    simp
  | n :: ns, ms, fs, h => by
    unfold classify at h
    cases hm : env.mapping n with
    | some m =>
      rw [hm] at h
      simp only at h
      cases hr : classify env ns with
      | error e => rw [hr] at h; cases h
      | ok p =>
        obtain ⟨ms', fs'⟩ := p
        rw [hr] at h
        simp only [Except.ok.injEq, Prod.mk.injEq] at h
        obtain ⟨rfl, rfl⟩ := h
        exact (classify_fkeys hr).cons _
    | none =>
      rw [hm] at h
      simp only at h
      cases hf : env.modelField n with
      | error e => rw [hf] at h; cases h
      | ok f =>
        rw [hf] at h
        simp only at h
        cases hr : classify env ns with
        | error e => rw [hr] at h; cases h
        | ok p =>
          obtain ⟨ms', fs'⟩ := p
          rw [hr] at h
          simp only [Except.ok.injEq, Prod.mk.injEq] at h
          obtain ⟨rfl, rfl⟩ := h
          exact (classify_fkeys hr).cons_cons _

/-- C41 (i): real fields that share no join graph: the query is rejected with a query error, but with a TypeError if there is only one real
field (it is in no join graph at all). -/
theorem C41_unshared (env : MapEnv) (idents : String → List String) (lookupDims : List String)
    (q : MQuery) (hq : PlainMQuery q) (fs : List CField) (hfs : RealFields env q lookupDims fs)
    (hmap : ∃ n m, (Uses q n ∨ n ∈ lookupDims) ∧ env.mapping n = some m)
    (hfound : ∀ n, Uses q n ∨ n ∈ lookupDims → env.mapping n = none → ∃ f, env.modelField n = .ok f)
    (hno : ¬ ∃ g, ∀ f ∈ fs, g ∈ f.graphs) (n₀ : String) (h₀ : Uses q n₀ ∨ n₀ ∈ lookupDims) (hm₀ : env.mapping n₀ = none) :
    ((∀ n, Uses q n ∨ n ∈ lookupDims → env.mapping n = none → n = n₀) → resolveMapped env idents lookupDims q = .error .typeError) ∧
    ((∃ n, (Uses q n ∨ n ∈ lookupDims) ∧ env.mapping n = none ∧ n ≠ n₀) → resolveMapped env idents lookupDims q = .error .query) := by
  obtain ⟨names, ids, hn, hnd, hids, he⟩ := resolveMapped_unfold (env := env) idents lookupDims hq
  obtain ⟨ms, found, hc⟩ := classify_total (fun n hin hnone => hfound n ((hids n).mp hin) hnone)
    (ids := ids) (env := env)
  have hcl := classify_spec hc
  have hmem : ∀ c, c ∈ found.map (·.2) ↔ c ∈ fs := by
    intro c
    rw [hfs c, List.mem_map]
    constructor
    · rintro ⟨⟨n, c'⟩, h1, rfl⟩
      obtain ⟨h2, h3, h4⟩ := (hcl.fields n c').mp h1
      exact ⟨n, (hids n).mp h2, h3, h4⟩
    · rintro ⟨n, h2, h3, h4⟩
      exact ⟨(n, c), (hcl.fields n c).mpr ⟨(hids n).mpr h2, h3, h4⟩, rfl⟩
  have hin : ∀ n, (Uses q n ∨ n ∈ lookupDims) → env.mapping n = none → ∃ f, (n, f) ∈ found := by
    intro n h1 h2
    obtain ⟨f, hf⟩ := hfound n h1 h2
    exact ⟨f, (hcl.fields n f).mpr ⟨(hids n).mpr h1, h2, hf⟩⟩
  obtain ⟨f₀, hf₀⟩ := hin n₀ h₀ hm₀
  have hempty : (sharedGraphs ((found.map (fun p => (p.1, p.2.graphs))).map (·.2))).isEmpty = true := by
    rw [List.isEmpty_iff, List.eq_nil_iff_forall_not_mem]
    intro g hg
    rw [mem_sharedGraphs (by
      intro hx
      simp only [List.map_eq_nil_iff] at hx
      rw [hx] at hf₀
      cases hf₀)] at hg
    apply hno
    refine ⟨g, fun f hf => ?_⟩
    obtain ⟨p, hp, rfl⟩ := List.mem_map.mp ((hmem f).mpr hf)
    exact hg _ (List.mem_map.mpr ⟨(p.1, p.2.graphs), List.mem_map.mpr ⟨p, hp, rfl⟩, rfl⟩)
  have hms : ms ≠ [] := by
    obtain ⟨n, m, h1, h2⟩ := hmap
    exact List.ne_nil_of_mem ((hcl.maps n m).mpr ⟨(hids n).mpr h1, h2⟩)
  have hres : resolveMapped env idents lookupDims q =
      if (found.map (fun p => (p.1, p.2.graphs))).length = 1 then .error .typeError else .error .query := by
    rw [he, hc]
    cases ms with
    | nil => exact absurd rfl hms
    | cons x xs =>
      cases hfd : found with
      | nil => rw [hfd] at hf₀; cases hf₀
      | cons y ys =>
        rw [hfd] at hempty
        simp only
        unfold checkShared
        rw [if_pos hempty]
        by_cases hl : (List.map (fun p => (p.1, p.2.graphs)) (y :: ys)).length = 1
        · rw [if_pos hl, if_pos hl]
        · rw [if_neg hl, if_neg hl]
  rw [hres]
  have hlook : ∀ p ∈ found, env.modelField p.1 = .ok p.2 := fun p hp => ((hcl.fields p.1 p.2).mp hp).2.2
  constructor
  · intro hone
    rw [if_pos]
    rw [List.length_map]
    have hnf : (found.map (·.1)).Nodup := (classify_fkeys hc).nodup hnd
    match found, hf₀, hnf, hcl with
    | [], h, _, _ => cases h
    | [x], _, _, _ => rfl
    | x :: y :: l, _, hnf, hcl =>
      have e1 : x.1 = n₀ := by
        obtain ⟨h1, h2, -⟩ := (hcl.fields x.1 x.2).mp (by simp)
        exact hone _ ((hids _).mp h1) h2
      have e2 : y.1 = n₀ := by
        obtain ⟨h1, h2, -⟩ := (hcl.fields y.1 y.2).mp (by simp)
        exact hone _ ((hids _).mp h1) h2
      simp [e1, e2] at hnf
  · rintro ⟨n, h1, h2, h3⟩
    obtain ⟨f, hf⟩ := hin n h1 h2
    rw [if_neg]
    rw [List.length_map]
    intro hl
    obtain ⟨x, hx⟩ := List.length_eq_one_iff.mp hl
    rw [hx, List.mem_singleton] at hf hf₀
    rw [← hf₀] at hf
    injection hf with hf
    exact h3 hf

/-- The entry has a condition without a field and without "group_by", at whatever depth. -/
inductive Spec.LacksField : MCond → Prop
  | here (r : String) : LacksField (.cond none false r)
  | deep (f : Option String) (cs : List MCond) (r : String) (c : MCond) : c ∈ cs → LacksField c → LacksField (.group f cs r)

theorem mem_mappedLeaves {c : MCond} {cs : List MCond} (h : c ∈ cs) : ∀ l ∈ c.leaves, l ∈ MCond.leaves.leavesList cs := by
  induction cs with
  | nil => cases h
  | cons x cs ih =>
    intro l hl
    unfold MCond.leaves.leavesList
    rw [List.mem_append]
    rcases List.mem_cons.mp h with rfl | h
    · exact .inl hl
    · exact .inr (ih h l hl)

theorem lacksField_leaf {c : MCond} (h : LacksField c) : (none, false) ∈ c.leaves := by
  induction h with
  | here r => simp [MCond.leaves]
  | deep f cs r c hc _ ih =>
    unfold MCond.leaves
    exact mem_mappedLeaves hc _ ih

theorem fieldNames_lacking : ∀ {ls : List (Option String × Bool)}, (none, false) ∈ ls → fieldNames ls = .error .query
  | [], h => by cases h
  | (f, g) :: ls, h => by
    by_cases e : ((none, false) : Option String × Bool) = (f, g)
    · injection e with e1 e2
      subst e1 e2
      rfl
    · have ih := fieldNames_lacking ((List.mem_cons.mp h).resolve_left e)
      cases g with
      | true => exact ih
      | false =>
        cases f with
        | none => exact absurd rfl e
        | some x => unfold fieldNames; rw [ih]

/-- C41 (j): a filter without a field is a query error, wherever it is. -/
theorem C41_lacks_field (env : MapEnv) (idents : String → List String) (lookupDims : List String) (q : MQuery)
    (cs : List MCond) (hw : q.where_ = .list cs) (c : MCond) (hc : c ∈ cs) (h : LacksField c) :
    resolveMapped env idents lookupDims q = .error .query := by
  unfold resolveMapped
  rw [hw]
  have : fieldNames (MCond.leaves.leavesList cs) = .error .query :=
    fieldNames_lacking (mem_mappedLeaves hc _ (lacksField_leaf h))
  simp only [MClause.names, this]

/-! #### Cases that meet the hypotheses -/

/-- Two mapped names: `source` with a candidate that goes with nothing, and `region`. -/
def onlyEnv : MapEnv := mapTable [("source", ["ads.source", "sessions.source", "customers.source"]), ("region", ["orders.region", "customers.region"])]
  [("ads.source", ⟨"ads.source", ["s9"], none⟩), ("sessions.source", ⟨"sessions.source", ["merged_result_1"], none⟩),
   ("customers.source", ⟨"customers.source", ["s0", "merged_result_1"], none⟩),
   ("orders.region", ⟨"orders.region", ["s1", "merged_result_1"], none⟩), ("customers.region", ⟨"customers.region", ["s0"], none⟩)]

def onlyQuery : MQuery := ⟨[], ["source", "region"], .none, .none, .none, false, []⟩

/-- `customers.region` has two points: the first candidate for `source` that goes with it is in the same view and can be joined with it. -/
example : validItems ((withFields onlyEnv [("source", ⟨"source", ["ads.source", "sessions.source", "customers.source"]⟩),
    ("region", ⟨"region", ["orders.region", "customers.region"]⟩)]).map (fun e => (e.1, graphsOf e.2))) =
    [("source", "sessions.source", 0), ("source", "customers.source", 0), ("region", "orders.region", 0), ("region", "customers.region", 2)] := by
  decide +kernel

example : (resolveMapped onlyEnv (fun _ => []) [] onlyQuery).map (fun q => (q.dimensions, q.replaced)) =
    .ok (["customers.source", "customers.region"], [("region", "customers.region"), ("source", "customers.source")]) := by decide +kernel

example : PlainMQuery onlyQuery ∧ Uses onlyQuery "source" ∧ Uses onlyQuery "region" :=
  ⟨⟨by decide, by decide, trivial, trivial, trivial⟩, .inr (.inl (by decide)), .inr (.inl (by decide))⟩

example : ∀ n, Uses onlyQuery n → ∃ m c cs, onlyEnv.mapping n = some m ∧ Candidates onlyEnv m (c :: cs) := by
  rintro n (h | h | h | h | h)
  · simp [onlyQuery] at h
  · simp only [onlyQuery, List.mem_cons, List.not_mem_nil, or_false] at h
    rcases h with rfl | rfl <;> exact ⟨_, _, _, rfl, rfl⟩
  · cases h
  · cases h
  · cases h

/-- A single real field that is in no join graph, with a mapped name. -/
example : (resolveMapped (mapTable [("source", ["a.source"])] [("t.m", ⟨"t.m", [], none⟩), ("a.source", ⟨"a.source", ["s0"], none⟩)])
    (fun _ => []) [] ⟨["t.m"], ["source"], .none, .none, .none, false, []⟩).map (fun q => q.dimensions) = .error .typeError := by
  decide +kernel

example : LacksField (.group none [.cond (some "a.b") false "", .group none [.cond none false "= 1"] "OR"] "AND") :=
  .deep _ _ _ (.group none [.cond none false "= 1"] "OR") (by simp) (.deep _ _ _ (.cond none false "= 1") (by simp) (.here _))

end ML
