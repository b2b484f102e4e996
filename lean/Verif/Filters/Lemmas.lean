import Verif.Filters.Spec
import Verif.Access.Lemmas
/-
Helper lemmas for `Verif/Filters/Props.lean`.
-/
set_option autoImplicit false
namespace ML
open Spec

theorem read_mono (n : Nat) :
    (∀ ts x, readOr n ts = some x → readOr (n+1) ts = some x) ∧
    (∀ ts x, readAnd n ts = some x → readAnd (n+1) ts = some x) ∧
    (∀ ts x, readFactor n ts = some x → readFactor (n+1) ts = some x) := by
  induction n with
  | zero =>
    refine ⟨fun ts x h => ?_, fun ts x h => ?_, fun ts x h => ?_⟩
    · rw [readOr] at h; cases h
    · rw [readAnd] at h; cases h
    · rw [readFactor] at h; cases h
  | succ n ih =>
    obtain ⟨h1, h2, h3⟩ := ih
    refine ⟨?_, ?_, ?_⟩
    · intro ts x h
      rw [readOr] at h ⊢
      split at h
      · cases h
      · rename_i a r ha
        rw [h2 _ _ ha]
        simp only
        split at h
        · cases h
        · rename_i hb; rw [h1 _ _ hb]; exact h
      · rename_i a r hne ha
        rw [h2 _ _ ha]
        cases h
        split
        · simp_all
        · rename_i heq; simp only [Option.some.injEq, Prod.mk.injEq] at heq
          exact absurd heq.2 (hne _)
        · rename_i heq; rw [heq]
    · intro ts x h
      rw [readAnd] at h ⊢
      split at h
      · cases h
      · rename_i a r ha
        rw [h3 _ _ ha]
        simp only
        split at h
        · cases h
        · rename_i hb; rw [h2 _ _ hb]; exact h
      · rename_i a r hne ha
        rw [h3 _ _ ha]
        cases h
        split
        · simp_all
        · rename_i heq; simp only [Option.some.injEq, Prod.mk.injEq] at heq
          exact absurd heq.2 (hne _)
        · rename_i heq; rw [heq]
    · intro ts x h
      cases ts with
      | nil => rw [readFactor] at h; cases h; all_goals simp
      | cons t r =>
        cases t <;> simp only [readFactor] at h ⊢ <;> try exact h
        split at h
        · rename_i e r' ho
          rw [h1 _ _ ho]; exact h
        · cases h

theorem readOr_mono {n m : Nat} (h : n ≤ m) {ts : List Tok} {x : Expr × List Tok}
    (hr : readOr n ts = some x) : readOr m ts = some x := by
  induction h with
  | refl => exact hr
  | step _ ih => exact (read_mono _).1 _ _ ih

theorem readAnd_mono {n m : Nat} (h : n ≤ m) {ts : List Tok} {x : Expr × List Tok}
    (hr : readAnd n ts = some x) : readAnd m ts = some x := by
  induction h with
  | refl => exact hr
  | step _ ih => exact (read_mono _).2.1 _ _ ih

theorem readFactor_mono {n m : Nat} (h : n ≤ m) {ts : List Tok} {x : Expr × List Tok}
    (hr : readFactor n ts = some x) : readFactor m ts = some x := by
  induction h with
  | refl => exact hr
  | step _ ih => exact (read_mono _).2.2 _ _ ih

/-- A text has at most one reading. -/
theorem Reads_unique {ts : List Tok} {e e' : Expr} (h : Reads ts e) (h' : Reads ts e') : e = e' := by
  obtain ⟨n, hn⟩ := h
  obtain ⟨m, hm⟩ := h'
  have a := readOr_mono (Nat.le_max_left n m) hn
  have b := readOr_mono (Nat.le_max_right n m) hm
  rw [a] at b
  cases b; rfl

/-- The token list does not start with the given token. -/
def notHead (t : Tok) (ts : List Tok) : Prop := ∀ r, ts ≠ t :: r

/-- Appending text after a complete reading, as long as it cannot be absorbed. -/
theorem read_append (n : Nat) :
    (∀ ts e r rest, readOr n ts = some (e, r) → (r = [] → notHead .or rest ∧ notHead .and rest) →
      readOr n (ts ++ rest) = some (e, r ++ rest)) ∧
    (∀ ts e r rest, readAnd n ts = some (e, r) → (r = [] → notHead .and rest) →
      readAnd n (ts ++ rest) = some (e, r ++ rest)) ∧
    (∀ ts e r rest, readFactor n ts = some (e, r) →
      readFactor n (ts ++ rest) = some (e, r ++ rest)) := by
  induction n with
  | zero => simp [readOr, readAnd, readFactor]
  | succ n ih =>
    obtain ⟨h1, h2, h3⟩ := ih
    refine ⟨?_, ?_, ?_⟩
    · intro ts e r rest h hr
      rw [readOr] at h ⊢
      split at h
      · cases h
      · rename_i a r1 ha
        rw [h2 _ _ _ rest ha (by simp)]
        simp only [List.cons_append]
        split at h
        · cases h
        · rename_i b r2 hb
          cases h
          rw [h1 _ _ _ rest hb hr]
      · rename_i a r1 hne ha
        cases h
        rw [h2 _ _ _ rest ha (fun he => (hr he).2)]
        cases hr' : r ++ rest with
        | nil => rfl
        | cons t r' =>
          cases t <;> try rfl
          exfalso
          cases r with
          | nil => simp only [List.nil_append] at hr'; exact (hr rfl).1 _ hr'
          | cons t2 r2 =>
            simp only [List.cons_append, List.cons.injEq] at hr'
            exact hne r2 (by rw [hr'.1])
    · intro ts e r rest h hr
      rw [readAnd] at h ⊢
      split at h
      · cases h
      · rename_i a r1 ha
        rw [h3 _ _ _ rest ha]
        simp only [List.cons_append]
        split at h
        · cases h
        · rename_i b r2 hb
          cases h
          rw [h2 _ _ _ rest hb hr]
      · rename_i a r1 hne ha
        cases h
        rw [h3 _ _ _ rest ha]
        cases hr' : r ++ rest with
        | nil => rfl
        | cons t r' =>
          cases t <;> try rfl
          exfalso
          cases r with
          | nil => simp only [List.nil_append] at hr'; exact (hr rfl) _ hr'
          | cons t2 r2 =>
            simp only [List.cons_append, List.cons.injEq] at hr'
            exact hne r2 (by rw [hr'.1])
    · intro ts e r rest h
      cases ts with
      | nil => simp [readFactor] at h
      | cons t r1 =>
        cases t <;> simp only [readFactor, List.cons_append] at h ⊢ <;> try (cases h; done)
        case atom => cases h; rfl
        split at h
        · rename_i e' r' ho
          cases h
          rw [h1 _ _ _ rest ho (by simp)]
          simp
        · cases h

/-- The text is one factor. -/
def ReadsAsFactor (ts : List Tok) (e : Expr) : Prop := ∃ n, readFactor n ts = some (e, [])

theorem factor_operand {ts : List Tok} {e : Expr} (h : ReadsAsFactor ts e) : ReadsAsOperand ts e := by
  obtain ⟨n, hn⟩ := h
  exact ⟨n+1, by rw [readAnd, hn]⟩

theorem operand_reads {ts : List Tok} {e : Expr} (h : ReadsAsOperand ts e) : Reads ts e := by
  obtain ⟨n, hn⟩ := h
  exact ⟨n+1, by rw [readOr, hn]⟩

theorem paren_factor {ts : List Tok} {e : Expr} (h : Reads ts e) :
    ReadsAsFactor (.lp :: ts ++ [.rp]) e := by
  obtain ⟨n, hn⟩ := h
  refine ⟨n+1, ?_⟩
  simp only [List.cons_append, readFactor]
  rw [(read_append n).1 ts e [] [.rp] hn (fun _ => ⟨by intro r; simp, by intro r; simp⟩)]
  simp

theorem TV.and_assoc' (a b c : TV) : (a.and b).and c = a.and (b.and c) := by
  cases a <;> cases b <;> cases c <;> rfl
theorem TV.or_assoc' (a b c : TV) : (a.or b).or c = a.or (b.or c) := by
  cases a <;> cases b <;> cases c <;> rfl
theorem TV.and_t (a : TV) : a.and .t = a := by cases a <;> rfl
theorem TV.or_f (a : TV) : a.or .f = a := by cases a <;> rfl

theorem operand_and {t1 t2 : List Tok} {e1 e2 : Expr} (h1 : ReadsAsOperand t1 e1)
    (h2 : ReadsAsOperand t2 e2) :
    ∃ e, ReadsAsOperand (t1 ++ .and :: t2) e ∧
      ∀ val, e.eval val = (e1.eval val).and (e2.eval val) := by
  obtain ⟨n, hn⟩ := h1
  obtain ⟨m, hm⟩ := h2
  induction n generalizing t1 e1 with
  | zero => rw [readAnd] at hn; cases hn
  | succ n ih =>
    rw [readAnd] at hn
    split at hn
    · cases hn
    · rename_i a r ha
      split at hn
      · cases hn
      · rename_i b r' hb
        cases hn
        obtain ⟨e, ⟨k, hk⟩, hev⟩ := ih hb
        refine ⟨.and a e, ⟨max n k + 1, ?_⟩, ?_⟩
        · have h3 := (read_append n).2.2 t1 a (.and :: r) (.and :: t2) ha
          rw [readAnd, readFactor_mono (Nat.le_max_left n k) h3]
          simp only [List.cons_append]
          rw [readAnd_mono (Nat.le_max_right n k) hk]
        · intro val
          simp only [Expr.eval, hev]
          rw [TV.and_assoc']
    · rename_i a r hne ha
      cases hn
      refine ⟨.and e1 e2, ⟨max n m + 1, ?_⟩, fun val => rfl⟩
      have h3 := (read_append n).2.2 t1 e1 [] (.and :: t2) ha
      rw [readAnd, readFactor_mono (Nat.le_max_left n m) h3]
      simp only [List.nil_append]
      rw [readAnd_mono (Nat.le_max_right n m) hm]

theorem reads_or {t1 t2 : List Tok} {e1 e2 : Expr} (h1 : Reads t1 e1) (h2 : Reads t2 e2) :
    ∃ e, Reads (t1 ++ .or :: t2) e ∧ ∀ val, e.eval val = (e1.eval val).or (e2.eval val) := by
  obtain ⟨n, hn⟩ := h1
  obtain ⟨m, hm⟩ := h2
  induction n generalizing t1 e1 with
  | zero => rw [readOr] at hn; cases hn
  | succ n ih =>
    rw [readOr] at hn
    split at hn
    · cases hn
    · rename_i a r ha
      split at hn
      · cases hn
      · rename_i b r' hb
        cases hn
        obtain ⟨e, ⟨k, hk⟩, hev⟩ := ih hb
        refine ⟨.or a e, ⟨max n k + 1, ?_⟩, ?_⟩
        · have h3 := (read_append n).2.1 t1 a (.or :: r) (.or :: t2) ha (by simp)
          rw [readOr, readAnd_mono (Nat.le_max_left n k) h3]
          simp only [List.cons_append]
          rw [readOr_mono (Nat.le_max_right n k) hk]
        · intro val
          simp only [Expr.eval, hev]
          rw [TV.or_assoc']
    · rename_i a r hne ha
      cases hn
      refine ⟨.or e1 e2, ⟨max n m + 1, ?_⟩, fun val => rfl⟩
      have h3 := (read_append n).2.1 t1 e1 [] (.or :: t2) ha (fun _ => by intro r; simp)
      rw [readOr, readAnd_mono (Nat.le_max_left n m) h3]
      simp only [List.nil_append]
      rw [readOr_mono (Nat.le_max_right n m) hm]

/-! ### Rendering criteria -/

/-- No empty criterion below the root, and every literal reads as one operand of AND. -/
def Crit.good : Crit → Prop
  | .empty => False
  | .atom _ => True
  | .lit ts => ∃ e, ReadsAsOperand ts e
  | .complex _ l r => l.good ∧ r.good

/-- Truth value of a criterion; a literal counts as what its text reads as. -/
def Crit.HasValue (val : Nat → TV) : Crit → TV → Prop
  | .empty, _ => False
  | .atom i, v => v = val i
  | .lit ts, v => ∃ e, ReadsAsOperand ts e ∧ v = e.eval val
  | .complex .and l r, v => ∃ a b, l.HasValue val a ∧ r.HasValue val b ∧ v = a.and b
  | .complex .or l r, v => ∃ a b, l.HasValue val a ∧ r.HasValue val b ∧ v = a.or b

theorem render_reads (c : Crit) (hg : c.good) :
    ∃ ts, c.render = .ok ts ∧ (∃ e, Reads ts e ∧ ∀ val, c.HasValue val (e.eval val)) ∧
      (c.needsBrackets .and = false →
        ∃ e, ReadsAsOperand ts e ∧ ∀ val, c.HasValue val (e.eval val)) := by
  induction c with
  | empty => cases hg
  | atom i =>
    have hf : ReadsAsFactor [.atom i] (.atom i) := ⟨1, rfl⟩
    exact ⟨_, rfl, ⟨.atom i, operand_reads (factor_operand hf), fun val => rfl⟩,
      fun _ => ⟨.atom i, factor_operand hf, fun val => rfl⟩⟩
  | lit ts =>
    obtain ⟨e, he⟩ := hg
    exact ⟨ts, rfl, ⟨e, operand_reads he, fun val => ⟨e, he, rfl⟩⟩,
      fun _ => ⟨e, he, fun val => ⟨e, he, rfl⟩⟩⟩
  | complex op l r ihl ihr =>
    obtain ⟨tl, hl, ⟨el, rl, vl⟩, al⟩ := ihl hg.1
    obtain ⟨tr, hr, ⟨er, rr, vr⟩, ar⟩ := ihr hg.2
    refine ⟨_, by simp only [Crit.render, hl, hr]; rfl, ?_⟩
    cases op with
    | and =>
      have key : ∀ (c : Crit) (t : List Tok) (e : Expr), Reads t e →
          (∀ val, c.HasValue val (e.eval val)) → (c.needsBrackets .and = false →
            ∃ e, ReadsAsOperand t e ∧ ∀ val, c.HasValue val (e.eval val)) →
          ∃ e, ReadsAsOperand (bracket (c.needsBrackets .and) t) e ∧
            ∀ val, c.HasValue val (e.eval val) := by
        intro c t e h1 h2 h3
        cases hb : c.needsBrackets .and
        · exact h3 hb
        · exact ⟨e, factor_operand (paren_factor h1), h2⟩
      obtain ⟨e1, o1, v1⟩ := key l tl el rl vl al
      obtain ⟨e2, o2, v2⟩ := key r tr er rr vr ar
      obtain ⟨e, o, v⟩ := operand_and o1 o2
      have hv : ∀ val, (Crit.complex .and l r).HasValue val (e.eval val) :=
        fun val => ⟨_, _, v1 val, v2 val, v val⟩
      exact ⟨⟨e, operand_reads o, hv⟩, fun _ => ⟨e, o, hv⟩⟩
    | or =>
      have key : ∀ (c : Crit) (t : List Tok) (e : Expr), Reads t e →
          Reads (bracket (c.needsBrackets .or) t) e := by
        intro c t e h1
        cases c.needsBrackets .or
        · exact h1
        · exact operand_reads (factor_operand (paren_factor h1))
      obtain ⟨e, o, v⟩ := reads_or (key l tl el rl) (key r tr er rr)
      refine ⟨⟨e, o, fun val => ⟨_, _, vl val, vr val, v val⟩⟩, ?_⟩
      intro h
      simp [Crit.needsBrackets] at h

theorem HasValue_unique {val : Nat → TV} {c : Crit} {v v' : TV} (h : c.HasValue val v)
    (h' : c.HasValue val v') : v = v' := by
  induction c generalizing v v' with
  | empty => cases h
  | atom i => simp only [Crit.HasValue] at h h'; rw [h, h']
  | lit ts =>
    obtain ⟨e, he, rfl⟩ := h
    obtain ⟨e', he', rfl⟩ := h'
    rw [Reads_unique (operand_reads he) (operand_reads he')]
  | complex op l r ihl ihr =>
    cases op <;>
    · obtain ⟨a, b, h1, h2, rfl⟩ := h
      obtain ⟨a', b', h1', h2', rfl⟩ := h'
      rw [ihl h1 h1', ihr h2 h2']

/-- The criteria have the given values, pointwise. -/
inductive AllVal (val : Nat → TV) : List Crit → List TV → Prop
  | nil : AllVal val [] []
  | cons {c : Crit} {v : TV} {cs : List Crit} {vs : List TV} : c.HasValue val v →
      AllVal val cs vs → AllVal val (c :: cs) (v :: vs)

/-- Folding with AND: the value is the conjunction. -/
theorem foldl_and_value {val : Nat → TV} (cs : List Crit) (vs : List TV) (c0 : Crit) (v0 : TV)
    (h0 : c0.HasValue val v0) (h : AllVal val cs vs) :
    (cs.foldl (Crit.combine .and) c0).HasValue val (v0.and (TV.conj vs)) := by
  induction h generalizing c0 v0 with
  | nil => simpa [TV.conj, TV.and_t] using h0
  | @cons c v cs vs hcv _ ih =>
    simp only [List.foldl_cons]
    have hne : Crit.combine .and c0 c = .complex .and c0 c := by
      cases c0 <;> first | rfl | exact absurd h0 (by simp [Crit.HasValue])
    rw [hne]
    have := ih (.complex .and c0 c) (v0.and v) ⟨v0, v, h0, hcv, rfl⟩
    rw [TV.and_assoc'] at this
    exact this

theorem foldl_or_value {val : Nat → TV} (cs : List Crit) (vs : List TV) (c0 : Crit) (v0 : TV)
    (h0 : c0.HasValue val v0) (h : AllVal val cs vs) :
    (cs.foldl (Crit.combine .or) c0).HasValue val (v0.or (TV.disj vs)) := by
  induction h generalizing c0 v0 with
  | nil => simpa [TV.disj, TV.or_f] using h0
  | @cons c v cs vs hcv _ ih =>
    simp only [List.foldl_cons]
    have hne : Crit.combine .or c0 c = .complex .or c0 c := by
      cases c0 <;> first | rfl | exact absurd h0 (by simp [Crit.HasValue])
    rw [hne]
    have := ih (.complex .or c0 c) (v0.or v) ⟨v0, v, h0, hcv, rfl⟩
    rw [TV.or_assoc'] at this
    exact this

theorem fold_and_value {val : Nat → TV} (cs : List Crit) (vs : List TV) (hne : cs ≠ [])
    (h : AllVal val cs vs) :
    (Crit.fold .and cs).HasValue val (TV.conj vs) := by
  cases h with
  | nil => exact absurd rfl hne
  | @cons c v cs vs h1 h2 => exact foldl_and_value cs vs c v h1 h2

theorem fold_or_value {val : Nat → TV} (cs : List Crit) (vs : List TV) (hne : cs ≠ [])
    (h : AllVal val cs vs) :
    (Crit.fold .or cs).HasValue val (TV.disj vs) := by
  cases h with
  | nil => exact absurd rfl hne
  | @cons c v cs vs h1 h2 => exact foldl_or_value cs vs c v h1 h2

/-- A criterion that has a value is good. -/
theorem good_of_value {val : Nat → TV} {c : Crit} {v : TV} (h : c.HasValue val v) : c.good := by
  induction c generalizing v with
  | empty => cases h
  | atom i => trivial
  | lit ts => obtain ⟨e, he, -⟩ := h; exact ⟨e, he⟩
  | complex op l r ihl ihr =>
    cases op <;>
    · obtain ⟨a, b, h1, h2, -⟩ := h
      exact ⟨ihl h1, ihr h2⟩

theorem leafCrit_value (val : Nat → TV) (l : Leaf) :
    (leafCrit l).HasValue val (TV.conj ((l.first :: l.rest).map val)) := by
  have hall : ∀ is : List Nat,
      AllVal val (is.map .atom) (is.map val) := by
    intro is
    induction is with
    | nil => exact .nil
    | cons i is ih => exact .cons rfl ih
  unfold leafCrit
  split
  · rename_i h
    rw [h]
    simp only [List.map_cons, List.map_nil, TV.conj, List.foldr_cons, List.foldr_nil, TV.and_t]
    rfl
  · exact fold_and_value _ _ (by simp) (hall (l.first :: l.rest))

theorem Forall₂_ne_nil {cs : List Crit} {vs : List TV} {val : Nat → TV}
    (h : AllVal val cs vs) (hv : vs ≠ []) : cs ≠ [] := by
  cases h with
  | nil => exact absurd rfl hv
  | cons _ _ => simp

mutual
theorem groupSql_value (val : Nat → TV) : ∀ f : FObj, WellFormedFilter f →
    ∃ c, groupSql f = .ok c ∧ c.HasValue val (meaning val f)
  | .leaf l, _ => ⟨_, by rw [groupSql], leafCrit_value val l⟩
  | .group op cs, h => by
    rw [WellFormedFilter] at h
    obtain ⟨hne, hop, hcs⟩ := h
    obtain ⟨ps, hps, hv⟩ := groupSqlList_value val cs hcs
    have hm : meanings val cs ≠ [] := by
      cases cs with
      | nil => exact absurd rfl hne
      | cons c cs => rw [meanings]; simp
    have hpne := Forall₂_ne_nil hv hm
    rw [groupSql, hps, meaning]
    simp only [combineGroup]
    rcases hop with rfl | rfl | rfl
    · exact ⟨Crit.fold .and ps, by simp, by simpa using fold_and_value ps _ hpne hv⟩
    · exact ⟨Crit.fold .and ps, by simp, by simpa using fold_and_value ps _ hpne hv⟩
    · exact ⟨Crit.fold .or ps, by simp, by simpa using fold_or_value ps _ hpne hv⟩
  | .list _, h => by rw [WellFormedFilter] at h; cases h
  | .other, h => by rw [WellFormedFilter] at h; cases h
theorem groupSqlList_value (val : Nat → TV) : ∀ cs : List FObj, WellFormedFilters cs →
    ∃ ps, groupSqlList cs = .ok ps ∧
      AllVal val ps (meanings val cs)
  | [], _ => ⟨[], by rw [groupSqlList], by rw [meanings]; exact .nil⟩
  | c :: cs, h => by
    rw [WellFormedFilters] at h
    obtain ⟨p, hp, hv⟩ := groupSql_value val c h.1
    obtain ⟨ps, hps, hvs⟩ := groupSqlList_value val cs h.2
    exact ⟨p :: ps, by rw [groupSqlList, hp]; simp only [hps], by rw [meanings]; exact .cons hv hvs⟩
end

mutual
theorem validate_ok : ∀ f : FObj, validateFilter f = .ok () ↔ WellFormedFilter f
  | .leaf l => by rw [validateFilter, WellFormedFilter]; simp
  | .group op cs => by
    rw [WellFormedFilter]
    have ih := validateList_ok cs
    cases cs with
    | nil => simp [validateFilter]
    | cons c cs =>
      simp only [validateFilter, ne_eq, reduceCtorEq, not_false_eq_true, true_and]
      cases hv : validateList (c :: cs) with
      | error e =>
        rw [hv] at ih
        simp only [reduceCtorEq, false_iff] at ih ⊢
        exact fun h => ih h.2
      | ok u =>
        rw [hv] at ih
        have ih' := ih.mp rfl
        cases op with
        | none => simp [ih']
        | some o =>
          simp only [logicalOptions, List.mem_cons, List.not_mem_nil, or_false, reduceCtorEq,
            Option.some.injEq, false_or, ih', and_true]
          split <;> simp_all
  | .list _ => by rw [validateFilter, WellFormedFilter]; simp
  | .other => by rw [validateFilter, WellFormedFilter]; simp
theorem validateList_ok : ∀ cs : List FObj, validateList cs = .ok () ↔ WellFormedFilters cs
  | [] => by rw [validateList, WellFormedFilters]; simp
  | c :: cs => by
    rw [validateList, WellFormedFilters]
    have h1 := validate_ok c
    have h2 := validateList_ok cs
    cases hv : validateFilter c with
    | error e => rw [hv] at h1; simp only [reduceCtorEq, false_iff] at h1 ⊢; exact fun h => h1 h.1
    | ok u => rw [hv] at h1; simp only [h2]; simp [h1.mp rfl]
end

end ML
