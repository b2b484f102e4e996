import Verif.CumText.Spec
import Verif.Expr.Props
/-
C39: what the texts of cumulative metrics say to the warehouse.
-/
set_option autoImplicit false
namespace ML
open Spec

/-! ### The condition of a metric -/

theorem moves_column (m : CumTexts) (group : List Char) (f : WhereField) :
    (m.prefix false ++ '.' :: (if m.moves group f then { f with group := group } else f).label) = whereColumn m group f := by
  have key : (if m.moves group f then { f with group := group } else f) =
      (if f.kind ≠ .dimension ∧ m.updateTimeframe ≠ some false then { f with group := group } else f) := by
    unfold CumTexts.moves CumTexts.updates
    by_cases h1 : f.kind = .dimension
    · simp [h1]
    · by_cases h2 : f.group = group
      · subst h2
        split_ifs <;> rfl
      · rcases h3 : m.updateTimeframe with _ | b
        · simp [h1, h2]
        · cases b <;> simp [h1, h2]
  rw [key]
  have hs : "subquery".toList ++ ['_'] = "subquery_".toList := by decide +kernel
  have hd : ".".toList = ['.'] := by decide +kernel
  unfold whereColumn CumTexts.prefix
  rw [if_neg Bool.false_ne_true, ← hs, hd]
  simp only [List.append_assoc, List.cons_append, List.nil_append]

theorem date_good : GoodName cumulativeDate := by unfold cumulativeDate; decide +kernel

theorem refNames_subst (n : List Char) (l : List Char) (ps : List Piece) :
    refNames (ps.map (substPiece n (.lit l))) = (refNames ps).filter (· ≠ n) := by
  induction ps with
  | nil => rfl
  | cons p ps ih =>
    cases p with
    | lit l' => simp only [List.map_cons, substPiece, reduceCtorEq, if_false, refNames, ih]
    | ref k =>
      by_cases h : k = n
      · subst h; simp [substPiece, refNames, ih]
      · have : ¬ (Piece.ref k = Piece.ref n) := fun e => h (Piece.ref.inj e)
        simp [substPiece, this, refNames, ih, h]

theorem fill_subst (v : List Char → List Char) (n l : List Char) (ps : List Piece) (h : v n = l) :
    fill v (ps.map (substPiece n (.lit l))) = fill v ps := by
  induction ps with
  | nil => rfl
  | cons p ps ih =>
    cases p with
    | lit l' => simp only [List.map_cons, substPiece, reduceCtorEq, if_false, fill, ih]
    | ref k =>
      by_cases hk : k = n
      · subst hk; simp [substPiece, fill, ih, h]
      · have : ¬ (Piece.ref k = Piece.ref n) := fun e => hk (Piece.ref.inj e)
        simp [substPiece, this, fill, ih]

theorem subst_good (n l : List Char) (ps : List Piece) (hl : '{' ∉ l) (h : ∀ p ∈ ps, GoodPiece p) :
    ∀ p ∈ ps.map (substPiece n (.lit l)), GoodPiece p := by
  intro p hp
  obtain ⟨q, hq, rfl⟩ := List.mem_map.mp hp
  unfold substPiece
  split_ifs
  · exact hl
  · exact h q hq

theorem refs_where (ps : List Piece) (hps : OrdinaryText ps) : cumWhereRefs (render ps) = (refNames ps).filter (· ≠ cumulativeDate) := by
  unfold cumWhereRefs
  have h := (ordinary_iff ps).mp hps
  have hr := replace_render cumulativeDate (.lit []) ps date_good h
  have : render [Piece.lit []] = [] := by simp [render]
  rw [this] at hr
  rw [hr, fieldsToReplace_render _ (subst_good _ _ _ (by simp) h), refNames_subst]

/-- The text of the condition: every name replaced by its column, the day by the day. -/
theorem where_text (get : List Char → Res WhereField) (group : List Char) (m : CumTexts) (spine : List Char) (hspine : '{' ∉ spine) (ps : List Piece)
    (hps : OrdinaryText ps) (col : List Char → List Char)
    (hcol : ∀ n ∈ refNames ps, n ≠ cumulativeDate → ∃ f, get n = .ok f ∧ col n = whereColumn m group f ∧ '{' ∉ col n) (hday : col cumulativeDate = spine) :
    replaceCumWhere get group m spine (render ps) = .ok (fill col ps) := by
  have h := (ordinary_iff ps).mp hps
  have hone : render [Piece.lit spine] = spine := by simp [render]
  have hr := replace_render cumulativeDate (.lit spine) ps date_good h
  rw [hone] at hr
  unfold replaceCumWhere
  rw [hr, refs_where ps hps]
  have hg := subst_good cumulativeDate spine ps hspine h
  rw [replaceEach_ok _ col _ _ hg, fill_app, fill_subst _ _ _ _ hday]
  · rw [refNames_subst]; exact fun n hn => hn
  · intro n hn
    simp only [List.mem_filter, decide_eq_true_eq] at hn
    obtain ⟨f, h1, h2, h3⟩ := hcol n hn.1 hn.2
    refine ⟨refNames_good ps h n hn.1, ?_, h3⟩
    simp only [h1, h2, moves_column]

theorem where_error (get : List Char → Res WhereField) (group : List Char) (m : CumTexts) (spine : List Char) (ps : List Piece)
    (hps : OrdinaryText ps) (n : List Char) (e : Err) (hn : n ∈ refNames ps) (hd : n ≠ cumulativeDate) (he : get n = .error e) :
    ∃ e', replaceCumWhere get group m spine (render ps) = .error e' := by
  unfold replaceCumWhere
  refine replaceEach_error _ _ _ n e ?_ (by simp only [he])
  rw [refs_where ps hps]
  simpa using ⟨hn, hd⟩

/-! ### Reading a conjunction -/

/-- The pieces of the whole condition (for the proofs; it models no file in /repo). -/
def onPieces (ps : List Piece) : List Piece := .ref "{date".toList :: .lit "<=".toList :: .ref "{day".toList :: .lit " AND ".toList :: ps

theorem on_tokens (ps : List Piece) : pieceTokens .idle (onPieces ps) =
    [.ref "{date".toList, .op "<=".toList, .ref "{day".toList, .word "AND".toList] ++ pieceTokens .idle ps := by
  have h1 : lexRun .afterRef "<=".toList = (.idle, [.op "<=".toList]) := by decide +kernel
  have h2 : lexRun .afterRef " AND ".toList = (.idle, [.word "AND".toList]) := by decide +kernel
  simp only [onPieces, pieceTokens, h1, h2, LexSt.atRef, LexSt.flush]
  rfl

theorem on_parts {ps : List Piece} {is : List EItem} (h : readParts [] [] [] (pieceTokens .idle ps) = some is) :
    readParts [] [] [] (pieceTokens .idle (onPieces ps)) =
      some ([.ref "{date".toList, .op "<=".toList, .ref "{day".toList, .word "AND".toList] ++ is) := by
  rw [on_tokens]
  have hw1 : ¬ (small "AND".toList = "case".toList) := by decide +kernel
  have hw2 : ¬ (small "AND".toList = "end".toList) := by decide +kernel
  simp only [List.cons_append, List.nil_append, readParts, hw1, hw2, if_false]
  have := read_anywhere h [] [.ref "{date".toList, .op "<=".toList, .ref "{day".toList, .word "AND".toList]
    [.ref "{date".toList, .op "<=".toList, .ref "{day".toList, .word "AND".toList] []
  simpa [readParts] using this

theorem split_none (ops : List (List Char)) (ys : List ESym) (h : ∀ p, ESym.o p ∈ ys → p ∉ ops) : splitAtOps ops ys = (ys, []) := by
  induction ys with
  | nil => rfl
  | cons y ys ih =>
    have := ih (fun p hp => h p (by simp [hp]))
    cases y with
    | x e => simp [splitAtOps, this]
    | o p => simp [splitAtOps, h p (by simp), this]

theorem binLevel_none (ops : List (List Char)) (next : List ESym → Option SExp) (ys : List ESym) (h : ∀ p, ESym.o p ∈ ys → p ∉ ops) :
    binLevel ops next ys = next ys := by
  unfold binLevel
  rw [split_none ops ys h]
  cases next ys <;> rfl

theorem signs_ops (b : Bool) (ys : List ESym) (p : List Char) (h : ESym.o p ∈ signs b ys) : ESym.o p ∈ ys ∨ p = "neg".toList := by
  induction ys generalizing b with
  | nil => cases h
  | cons y ys ih =>
    cases y with
    | x e =>
      simp only [signs, List.mem_cons, reduceCtorEq, false_or] at h ⊢
      exact ih _ h
    | o q =>
      simp only [signs, List.mem_cons] at h ⊢
      rcases h with h | h
      · split_ifs at h
        · exact .inr (ESym.o.inj h)
        · exact .inl (.inl h)
      · rcases ih _ h with h | h
        · exact .inl (.inr h)
        · exact .inr h

/-- The levels below the conjunctions (for the proofs; it models no file in /repo). -/
def belowAnd : List ESym → Option SExp :=
  preLevel "not".toList <| cmpLevel cmpOps <| binLevel addOps <| binLevel mulOps <| preLevel "neg".toList <| binLevel castOps oneOperand

theorem byPrecedence_and (ys : List ESym) (h : ∀ p, ESym.o p ∈ ys → p ≠ "or".toList ∧ p ≠ "as".toList) :
    byPrecedence ys = binLevel andOps belowAnd ys := by
  unfold byPrecedence
  rw [binLevel_none asOps _ _ (fun p hp hm => (h p hp).2 (List.mem_singleton.mp hm)), binLevel_none orOps _ _ (fun p hp hm => (h p hp).1 (List.mem_singleton.mp hm))]
  rfl

/-- `e'` is true when `c` and `e` are (for the proofs; it models no file in /repo). -/
def IsConj (c e e' : SExp) : Prop :=
  ∀ (D : Type) (I : Interp D) (T : Truth D I) (env : List Char → D),
    T.holds (e'.value I env) ↔ T.holds (c.value I env) ∧ T.holds (e.value I env)

theorem leftOps_front (c : SExp) (rest : List (List Char × List ESym)) (hops : ∀ r ∈ rest, r.1 = "and".toList) :
    ∀ (e e' E : SExp), IsConj c e e' → leftOps belowAnd e rest = some E → ∃ E', leftOps belowAnd e' rest = some E' ∧ IsConj c E E' := by
  induction rest with
  | nil =>
    intro e e' E h he
    simp only [leftOps, Option.some.injEq] at he
    subst he
    exact ⟨e', rfl, h⟩
  | cons r rest ih =>
    obtain ⟨p, ys⟩ := r
    intro e e' E h he
    have hp : p = "and".toList := hops (p, ys) (by simp)
    subst hp
    simp only [leftOps] at he ⊢
    cases hn : belowAnd ys with
    | none => rw [hn] at he; cases he
    | some x =>
      rw [hn] at he
      simp only [Option.bind_some] at he ⊢
      refine ih (fun r hr => hops r (by simp [hr])) _ _ E ?_ he
      intro D I T env
      simp only [SExp.value]
      rw [T.conj, T.conj, h D I T env, and_assoc]

theorem split_ops_mem (ops : List (List Char)) (ys : List ESym) : ∀ r ∈ (splitAtOps ops ys).2, r.1 ∈ ops := by
  induction ys with
  | nil => simp [splitAtOps]
  | cons y ys ih =>
    cases y with
    | x e => simpa [splitAtOps] using ih
    | o p =>
      by_cases h : p ∈ ops
      · simp only [splitAtOps, h, if_true, List.mem_cons, forall_eq_or_imp, true_and]
        exact ih
      · simpa [splitAtOps, h] using ih

/-- A comparison of two names in front of a conjunction. -/
theorem conj_front (a b : List Char) (ys : List ESym) (E : SExp) (h : ∀ p, ESym.o p ∈ ys → p ≠ "or".toList ∧ p ≠ "as".toList)
    (hE : byPrecedence ys = some E) :
    ∃ E', byPrecedence (.x (.ref a) :: .o "<=".toList :: .x (.ref b) :: .o "and".toList :: ys) = some E' ∧
      IsConj (.bin "<=".toList (.ref a) (.ref b)) E E' := by
  rw [byPrecedence_and ys h] at hE
  rw [byPrecedence_and _ (by
    intro p hp
    simp only [List.mem_cons, reduceCtorEq, false_or, ESym.o.injEq] at hp
    rcases hp with rfl | rfl | hp
    · decide +kernel
    · decide +kernel
    · exact h p hp)]
  unfold binLevel at hE ⊢
  have h1 : "<=".toList ∉ andOps := by decide +kernel
  have h2 : "and".toList ∈ andOps := by decide +kernel
  have hsplit : splitAtOps andOps (.x (.ref a) :: .o "<=".toList :: .x (.ref b) :: .o "and".toList :: ys) =
      ([.x (.ref a), .o "<=".toList, .x (.ref b)], ("and".toList, (splitAtOps andOps ys).1) :: (splitAtOps andOps ys).2) := by
    rw [splitAtOps, splitAtOps, splitAtOps, splitAtOps, if_neg h1, if_pos h2]
  have hc : belowAnd [.x (.ref a), .o "<=".toList, .x (.ref b)] = some (.bin "<=".toList (.ref a) (.ref b)) := by
    have p1 : "<=".toList ∈ cmpOps := by decide +kernel
    have one : ∀ n : List Char, (binLevel addOps <| binLevel mulOps <| preLevel "neg".toList <| binLevel castOps oneOperand) [.x (.ref n)] = some (.ref n) :=
      fun n => rfl
    have sp : splitAtOps cmpOps [.x (.ref a), .o "<=".toList, .x (.ref b)] = ([.x (.ref a)], [("<=".toList, [.x (.ref b)])]) := by
      rw [splitAtOps, splitAtOps, if_pos p1]
      rfl
    unfold belowAnd
    rw [preLevel]
    · unfold cmpLevel binLevel
      rw [sp]
      rw [if_pos (by simp)]
      exact (by
        have := one a
        have := one b
        rfl)
    · intro p r h; cases h
  rw [hsplit]
  simp only [hc, Option.bind_some, leftOps]
  cases hn : belowAnd (splitAtOps andOps ys).1 with
  | none => rw [hn] at hE; cases hE
  | some e =>
    rw [hn] at hE
    simp only [Option.bind_some] at hE ⊢
    refine leftOps_front _ _ (fun r hr => ?_) e _ E ?_ hE
    · have := split_ops_mem andOps ys r hr
      simpa [andOps] using this
    · intro D I T env
      simp only [SExp.value]
      rw [T.conj]

theorem read_on {ps : List Piece} {E : SExp} (hE : readPieces ps = some E) (hor : "or".toList ∉ looseOps ps) (has : "as".toList ∉ looseOps ps) :
    ∃ E', readPieces (onPieces ps) = some E' ∧ IsConj (.bin "<=".toList (.ref "{date".toList) (.ref "{day".toList)) E E' := by
  unfold readPieces readTokens at hE
  unfold looseOps at hor has
  cases hp : readParts [] [] [] (pieceTokens .idle ps) with
  | none => rw [hp] at hE; cases hE
  | some is =>
    rw [hp] at hE hor has
    simp only at hE hor has
    split_ifs at hE with hn
    rw [not_or] at hn
    unfold readPieces readTokens
    rw [on_parts hp]
    simp only
    rw [if_neg (by simp [hn.2])]
    unfold readOne at hE ⊢
    split_ifs at hE with htwo
    have hw : "and".toList ∈ wordOps := by decide +kernel
    have hw' : small "AND".toList = "and".toList := by decide +kernel
    have hops : operands none ([.ref "{date".toList, .op "<=".toList, .ref "{day".toList, .word "AND".toList] ++ is) =
        .x (.ref "{date".toList) :: .o "<=".toList :: .x (.ref "{day".toList) :: .o "and".toList :: operands none is := by
      simp only [List.cons_append, List.nil_append, operands, plainWord, hw', hw, if_true]
    have hm1 : "<=".toList ≠ ['-'] := by decide +kernel
    have hm2 : "and".toList ≠ ['-'] := by decide +kernel
    rw [hops]
    rw [if_pos (by simp only [noTwo]; exact htwo)]
    simp only [signs, hm1, hm2, false_and, if_false]
    refine conj_front _ _ _ E (fun p hp => ?_) hE
    rcases signs_ops _ _ _ hp with h | h
    · constructor
      · rintro rfl
        exact hor (List.mem_filterMap.mpr ⟨_, h, rfl⟩)
      · rintro rfl
        exact has (List.mem_filterMap.mpr ⟨_, h, rfl⟩)
    · subst h; decide +kernel

theorem tokens_of_empty (ps : List Piece) (h : render ps = []) : pieceTokens .idle ps = [] := by
  induction ps with
  | nil => rfl
  | cons p ps ih =>
    cases p with
    | lit l =>
      simp only [render, List.append_eq_nil_iff] at h
      simp [pieceTokens, h.1, lexRun, ih h.2]
    | ref n => simp [render, refText] at h

theorem on_where (get : List Char → Res WhereField) (group : List Char) (m : CumTexts) (dateLabel t w : List Char) (hm : m.cumWhere = some t) (ht : t ≠ [])
    (hw : replaceCumWhere get group m "date_spine.date".toList t = .ok w) : cumOn get group m dateLabel =
      .ok (m.prefix false ++ '.' :: dateLabel ++ "<=".toList ++ "date_spine.date".toList ++ " AND ".toList ++ w) := by
  unfold cumOn
  rw [hm]
  cases t with
  | nil => exact absurd rfl ht
  | cons c cs => dsimp only; rw [hw]

/-! ### The property -/

/-- C39. The condition under which a row counts for a day, as the warehouse reads it: the row is dated on or before that day, and the metric's own condition
holds, each name in it being the field's column among the metric's rows and `cumulative_date` the day. Provided no OR of the condition stands outside
parentheses (`C39_condition_or` shows what it does otherwise). -/
theorem C39_condition_partial (get : List Char → Res WhereField) (group : List Char) (m : CumTexts) (dateLabel : List Char) (ps : List Piece)
    (hm : m.cumWhere = some (render ps)) (hps : OrdinaryText ps) (E : SExp) (hE : readPieces ps = some E) (hor : "or".toList ∉ looseOps ps)
    (has : "as".toList ∉ looseOps ps) (field : List Char → WhereField)
    (hfield : ∀ n ∈ refNames ps, n ≠ "cumulative_date".toList → get n = .ok (field n) ∧ PlainColumn (whereColumn m group (field n)))
    (hdate : PlainColumn ("subquery_".toList ++ m.label ++ ".".toList ++ dateLabel)) :
    ∃ s X, cumOn get group m dateLabel = .ok s ∧ readText s = some X ∧
      ∀ (D : Type) (I : Interp D) (T : Truth D I) (env : List Char → D),
        T.holds (X.value I env) ↔
          T.holds (I.bin "<=".toList (I.atom ("subquery_".toList ++ m.label ++ ".".toList ++ dateLabel)) (I.atom "date_spine.date".toList)) ∧
          T.holds (E.value I fun n =>
            if n = "cumulative_date".toList then I.atom "date_spine.date".toList else I.atom (whereColumn m group (field n))) := by
  have hcd : "cumulative_date".toList = cumulativeDate := rfl
  obtain ⟨E', hE', hconj⟩ := read_on hE hor has
  have hspine : aloneText "date_spine.date".toList = some (.atom "date_spine.date".toList) := by decide +kernel
  let col : List Char → List Char := fun n => if n = cumulativeDate then "date_spine.date".toList else whereColumn m group (field n)
  let v : List Char → List Char := fun n =>
    if n = "{date".toList then "subquery_".toList ++ m.label ++ ".".toList ++ dateLabel
    else if n = "{day".toList then "date_spine.date".toList else col n
  have hgood := refNames_good ps ((ordinary_iff ps).mp hps)
  have hv : ∀ n ∈ refNames ps, v n = col n := by
    intro n hn
    have h1 : n ≠ "{date".toList := by
      rintro rfl
      exact good_open (hgood _ hn) (by decide +kernel)
    have h2 : n ≠ "{day".toList := by
      rintro rfl
      exact good_open (hgood _ hn) (by decide +kernel)
    simp only [v, h1, h2, if_false]
  have hne : render ps ≠ [] := by
    intro h
    have := tokens_of_empty ps h
    simp [readPieces, readTokens, this, readParts] at hE
  have htext := where_text get group m "date_spine.date".toList (by decide +kernel) ps hps col (fun n hn hd => by
    obtain ⟨h1, h2⟩ := hfield n hn hd
    exact ⟨_, h1, by simp only [col, hd, if_false], by simp only [col, hd, if_false]; exact h2.2⟩) (by simp only [col, if_true])
  have hread := read_fill (onPieces ps) E' hE' v (fun n => .atom (v n)) (fun n hn => by
    have hd1 : "{day".toList ≠ "{date".toList := by decide +kernel
    simp only [onPieces, refNames, List.mem_cons] at hn
    rcases hn with rfl | rfl | hn
    · simp only [v, if_true]; exact hdate.1
    · simp only [v, hd1, if_false, if_true]; exact hspine
    · simp only [hv n hn]
      by_cases hd : n = cumulativeDate
      · simp only [col, hd, if_true]; exact hspine
      · simp only [col, hd, if_false]; exact (hfield n hn hd).2.1)
  refine ⟨fill v (onPieces ps), _, ?_, hread, ?_⟩
  · rw [on_where get group m dateLabel _ _ hm hne htext]
    have hd1 : "{day".toList ≠ "{date".toList := by decide +kernel
    have hfill : fill v (onPieces ps) = m.prefix false ++ '.' :: dateLabel ++ "<=".toList ++ "date_spine.date".toList ++ " AND ".toList ++ fill col ps := by
      simp only [onPieces, fill, v, if_true, hd1, if_false]
      rw [fill_congr ps hv]
      have hs : "subquery".toList ++ ['_'] = "subquery_".toList := by decide +kernel
      have hd : ".".toList = ['.'] := by decide +kernel
      unfold CumTexts.prefix
      rw [if_neg Bool.false_ne_true, ← hs, hd]
      simp only [List.append_assoc, List.cons_append, List.nil_append]
    rw [hfill]
  · intro D I T env
    rw [value_subst, hconj D I T]
    have hd1 : "{day".toList ≠ "{date".toList := by decide +kernel
    have h1 : E.subst (fun n => .atom (v n)) = E.subst (fun n => .atom (col n)) := by
      have hcol : ∀ n ∈ refNames ps, aloneText (col n) = some (.atom (col n)) := by
        intro n hn
        by_cases hd : n = cumulativeDate
        · simp only [col, hd, if_true]; exact hspine
        · simp only [col, hd, if_false]; exact (hfield n hn hd).2.1
      have r1 := read_fill ps E hE col (fun n => .atom (col n)) hcol
      have r2 := read_fill ps E hE col (fun n => .atom (v n)) (fun n hn => by rw [hv n hn]; exact hcol n hn)
      rw [r1] at r2
      exact (Option.some.inj r2).symm
    have h2 := congrArg (fun e => e.value I env) h1
    simp only [value_subst] at h2
    rw [h2]
    have e1 : v "{date".toList = "subquery_".toList ++ m.label ++ ".".toList ++ dateLabel := by simp only [v, if_true]
    have e2 : v "{day".toList = "date_spine.date".toList := by simp only [v, hd1, if_false, if_true]
    have e3 : (fun n => SExp.value I env (.atom (col n))) = fun n =>
        if n = "cumulative_date".toList then I.atom "date_spine.date".toList else I.atom (whereColumn m group (field n)) := by
      funext n
      simp only [SExp.value, col, hcd]
      split_ifs <;> rfl
    rw [e3]
    simp only [SExp.value, e1, e2]

end ML
