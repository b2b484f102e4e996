import Verif.Expr.Read
/- Parentheses and CASE: reading in place, and reading with the references replaced. -/
set_option autoImplicit false
namespace ML
open Spec

/-! ### Reading in place -/

/-- The parts of all open frames (for the proofs; it models no file in /repo). -/
def total : List Frame → List ETok → List ETok
  | [], seen => seen
  | f :: S, seen => total S (f.parts ++ (if f.isCase then [] else [.lp]) ++ seen)

/-- The frames with something before the lowest (for the proofs; it models no file in /repo). -/
def under (is0 : List EItem) (seen0 : List ETok) : List Frame → List Frame
  | [] => []
  | [f] => [⟨f.isCase, is0 ++ f.items, seen0 ++ f.parts⟩]
  | f :: g :: S => f :: under is0 seen0 (g :: S)

/-- The items with something before them, if no frame is open (for the proofs; it models no file in /repo). -/
def underItems (is0 : List EItem) (S : List Frame) (is : List EItem) : List EItem := if S = [] then is0 ++ is else is

/-- The parts with something before them, if no frame is open (for the proofs; it models no file in /repo). -/
def underParts (seen0 : List ETok) (S : List Frame) (seen : List ETok) : List ETok := if S = [] then seen0 ++ seen else seen

theorem under_cons (is0 : List EItem) (seen0 : List ETok) (k : Bool) (is : List EItem) (seen : List ETok) (S : List Frame) :
    under is0 seen0 (⟨k, is, seen⟩ :: S) = ⟨k, underItems is0 S is, underParts seen0 S seen⟩ :: under is0 seen0 S := by
  cases S with
  | nil => simp [under, underItems, underParts]
  | cons g S => simp [under, underItems, underParts]

theorem underItems_append (is0 : List EItem) (S : List Frame) (is : List EItem) (i : List EItem) :
    underItems is0 S is ++ i = underItems is0 S (is ++ i) := by
  unfold underItems
  split_ifs <;> simp

theorem underParts_append (seen0 : List ETok) (S : List Frame) (seen ts : List ETok) :
    underParts seen0 S seen ++ ts = underParts seen0 S (seen ++ ts) := by
  unfold underParts
  split_ifs <;> simp

theorem total_append (S : List Frame) (a b : List ETok) : total S (a ++ b) = total S a ++ b := by
  induction S generalizing a with
  | nil => rfl
  | cons f S ih =>
    simp only [total]
    rw [← List.append_assoc, ih]

theorem read_inPlace (is0 : List EItem) (seen0 : List ETok) (base : List Frame) (rest : List ETok) :
    ∀ (V : List ETok) (S : List Frame) (is : List EItem) (seen : List ETok) (items : List EItem), readParts S is seen V = some items →
      readParts (under is0 seen0 S ++ base) (underItems is0 S is) (underParts seen0 S seen) (V ++ rest) =
        readParts base (is0 ++ items) (seen0 ++ total S seen ++ V) rest := by
  intro V
  induction V with
  | nil =>
    intro S is seen items h
    cases S with
    | cons f S => simp [readParts] at h
    | nil =>
      simp only [readParts, List.isEmpty_nil, if_true, Option.some.injEq] at h
      subst h
      simp [under, underItems, underParts, total]
  | cons t V ih =>
    intro S is seen items h
    cases t with
    | lp =>
      simp only [readParts, List.cons_append] at h ⊢
      have := ih _ _ _ _ h
      rw [under_cons] at this
      simp only [underItems, underParts, List.cons_append, reduceCtorEq, if_false] at this
      simp only [underItems, underParts]
      rw [this]
      simp [total, total_append]
    | rp =>
      simp only [readParts, List.cons_append] at h ⊢
      match S with
      | [] => simp at h
      | ⟨true, is', seen'⟩ :: S' => simp at h
      | ⟨false, is', seen'⟩ :: S' =>
        simp only at h
        rw [under_cons]
        simp only [List.cons_append]
        have e1 : underItems is0 (⟨false, is', seen'⟩ :: S') is = is := by simp [underItems]
        have e2 : underParts seen0 (⟨false, is', seen'⟩ :: S') seen = seen := by simp [underParts]
        rw [e1, e2]
        cases hc : closeGroup is seen with
        | none => rw [hc] at h; cases h
        | some i =>
          rw [hc] at h
          simp only at h ⊢
          rw [underItems_append]
          have e3 : underParts seen0 S' seen' ++ .lp :: seen ++ [.rp] = underParts seen0 S' (seen' ++ .lp :: seen ++ [.rp]) := by
            rw [List.append_assoc, underParts_append]
            simp
          rw [e3, ih _ _ _ _ h]
          simp [total, total_append]
    | word w =>
      simp only [readParts, List.cons_append] at h ⊢
      by_cases h1 : small w = "case".toList
      · rw [if_pos h1] at h ⊢
        have := ih _ _ _ _ h
        rw [under_cons] at this
        have e1 : underItems is0 (⟨true, is, seen⟩ :: S) [] = [] := by simp [underItems]
        have e2 : underParts seen0 (⟨true, is, seen⟩ :: S) [.word w] = [.word w] := by simp [underParts]
        rw [e1, e2] at this
        simp only [List.cons_append] at this
        rw [this]
        simp [total, total_append]
      · rw [if_neg h1] at h ⊢
        by_cases h2 : small w = "end".toList
        · rw [if_pos h2] at h ⊢
          match S with
          | [] => simp at h
          | ⟨false, is', seen'⟩ :: S' => simp at h
          | ⟨true, is', seen'⟩ :: S' =>
            simp only at h
            rw [under_cons]
            simp only [List.cons_append]
            have e1 : underItems is0 (⟨true, is', seen'⟩ :: S') is = is := by simp [underItems]
            have e2 : underParts seen0 (⟨true, is', seen'⟩ :: S') seen = seen := by simp [underParts]
            rw [e1, e2]
            cases hc : closeCase is (seen ++ [.word w]) with
            | none => rw [hc] at h; cases h
            | some i =>
              rw [hc] at h
              simp only at h ⊢
              rw [underItems_append]
              have e3 : underParts seen0 S' seen' ++ seen ++ [.word w] = underParts seen0 S' (seen' ++ seen ++ [.word w]) := by
                rw [List.append_assoc, underParts_append]
                simp
              rw [e3, ih _ _ _ _ h]
              simp [total, total_append]
        · rw [if_neg h2] at h ⊢
          rw [underItems_append, underParts_append, ih _ _ _ _ h]
          simp [total_append]
    | str s =>
      simp only [readParts, List.cons_append] at h ⊢
      rw [underItems_append, underParts_append, ih _ _ _ _ h]
      simp [total_append]
    | op s =>
      simp only [readParts, List.cons_append] at h ⊢
      rw [underItems_append, underParts_append, ih _ _ _ _ h]
      simp [total_append]
    | comma =>
      simp only [readParts, List.cons_append] at h ⊢
      rw [underItems_append, underParts_append, ih _ _ _ _ h]
      simp [total_append]
    | ref n =>
      simp only [readParts, List.cons_append] at h ⊢
      rw [underItems_append, underParts_append, ih _ _ _ _ h]
      simp [total_append]
    | bad => simp [readParts] at h

/-- What can be read can be read anywhere. -/
theorem read_anywhere {V : List ETok} {items : List EItem} (h : readParts [] [] [] V = some items) (outer : List Frame) (is : List EItem)
    (seen rest : List ETok) : readParts outer is seen (V ++ rest) = readParts outer (is ++ items) (seen ++ V) rest := by
  have := read_inPlace is seen outer rest V [] [] [] items h
  simpa [under, underItems, underParts, total] using this

theorem read_noBad : ∀ (V : List ETok) (S : List Frame) (is : List EItem) (seen : List ETok) (items : List EItem),
    readParts S is seen V = some items → ETok.bad ∉ V := by
  intro V
  induction V with
  | nil => intro S is seen items _; simp
  | cons t V ih =>
    intro S is seen items h
    rw [List.mem_cons, not_or]
    cases t with
    | bad => simp [readParts] at h
    | lp =>
      simp only [readParts] at h
      exact ⟨by simp, ih _ _ _ _ h⟩
    | rp =>
      refine ⟨by simp, ?_⟩
      simp only [readParts] at h
      match S with
      | [] => simp at h
      | ⟨true, is', seen'⟩ :: S' => simp at h
      | ⟨false, is', seen'⟩ :: S' =>
        simp only at h
        cases hc : closeGroup is seen with
        | none => rw [hc] at h; cases h
        | some i =>
          rw [hc] at h
          exact ih _ _ _ _ h
    | word w =>
      refine ⟨by simp, ?_⟩
      simp only [readParts] at h
      by_cases h1 : small w = "case".toList
      · rw [if_pos h1] at h
        exact ih _ _ _ _ h
      · rw [if_neg h1] at h
        by_cases h2 : small w = "end".toList
        · rw [if_pos h2] at h
          match S with
          | [] => simp at h
          | ⟨false, is', seen'⟩ :: S' => simp at h
          | ⟨true, is', seen'⟩ :: S' =>
            simp only at h
            cases hc : closeCase is (seen ++ [.word w]) with
            | none => rw [hc] at h; cases h
            | some i =>
              rw [hc] at h
              exact ih _ _ _ _ h
        · rw [if_neg h2] at h
          exact ih _ _ _ _ h
    | _ =>
      simp only [readParts] at h
      exact ⟨by simp, ih _ _ _ _ h⟩

/-! ### With the references replaced -/

section
variable {σ : List Char → SExp} {J : List Char → List EItem} {V : List Char → List ETok}

/-- Items and parts without references are left alone (for the proofs; it models no file in /repo). -/
def KeptTail (σ : List Char → SExp) (J : List Char → List EItem) (is : List EItem) (seen : List ETok) : Prop :=
  hasRef seen = false → is.flatMap (itemSubst σ J) = is

theorem hasRef_false (ts : List ETok) : hasRef ts = false ↔ NoRefs ts := by
  simp only [hasRef, NoRefs, List.any_eq_false]
  constructor
  · intro h n hn
    exact h _ hn rfl
  · intro h t ht
    cases t with
    | ref n => exact absurd ht (h n)
    | _ => simp

theorem hasRef_append (a b : List ETok) : hasRef (a ++ b) = (hasRef a || hasRef b) := by simp [hasRef]

theorem close_subst (hJ : ∀ n, OneItem (J n) (σ n)) {is : List EItem} {seen : List ETok} {i : EItem} (hk : KeptTail σ J is seen)
    (h : closeGroup is seen = some i) : ∃ i', itemSubst σ J i = [i'] ∧
      closeGroup (is.flatMap (itemSubst σ J)) (seen.flatMap (expandTok V)) = some i' ∧ (hasRef seen = false → i' = i) := by
  have key : hasRef seen = false → closeGroup (is.flatMap (itemSubst σ J)) (seen.flatMap (expandTok V)) = some i := by
    intro hn
    rw [hk hn, expand_noRefs V _ ((hasRef_false _).mp hn), h]
  unfold closeGroup at h
  cases hr : readGroup is with
  | some es =>
    rw [hr] at h
    cases h
    have h2 : closeGroup (is.flatMap (itemSubst σ J)) (seen.flatMap (expandTok V)) = some (.group (es.map (SExp.subst σ))) := by
      unfold closeGroup
      rw [readGroup_subst hJ is es hr]
    refine ⟨_, rfl, h2, fun hn => ?_⟩
    have := key hn
    rw [h2] at this
    exact Option.some.inj this
  | none =>
    rw [hr] at h
    simp only at h
    cases hn : hasRef seen with
    | true => simp [hn] at h
    | false =>
      simp [hn] at h
      subst h
      exact ⟨_, rfl, key hn, fun _ => rfl⟩

theorem closeCase_subst (hJ : ∀ n, OneItem (J n) (σ n)) {is : List EItem} {seen : List ETok} {i : EItem} (hk : KeptTail σ J is seen)
    (h : closeCase is seen = some i) : ∃ i', itemSubst σ J i = [i'] ∧
      closeCase (is.flatMap (itemSubst σ J)) (seen.flatMap (expandTok V)) = some i' ∧ (hasRef seen = false → i' = i) := by
  have key : hasRef seen = false → closeCase (is.flatMap (itemSubst σ J)) (seen.flatMap (expandTok V)) = some i := by
    intro hn
    rw [hk hn, expand_noRefs V _ ((hasRef_false _).mp hn), h]
  unfold closeCase at h
  cases hr : readCase is with
  | some e =>
    rw [hr] at h
    cases h
    have h2 : closeCase (is.flatMap (itemSubst σ J)) (seen.flatMap (expandTok V)) = some (.done (e.subst σ)) := by
      unfold closeCase
      rw [readCase_subst hJ is e hr]
    refine ⟨_, rfl, h2, fun hn => ?_⟩
    have := key hn
    rw [h2] at this
    exact Option.some.inj this
  | none =>
    rw [hr] at h
    simp only at h
    cases hn : hasRef seen with
    | true => simp [hn] at h
    | false =>
      simp [hn] at h
      subst h
      exact ⟨_, rfl, key hn, fun _ => rfl⟩

/-- A frame with the references replaced (for the proofs; it models no file in /repo). -/
def frameSubst (σ : List Char → SExp) (J : List Char → List EItem) (V : List Char → List ETok) (f : Frame) : Frame :=
  ⟨f.isCase, f.items.flatMap (itemSubst σ J), f.parts.flatMap (expandTok V)⟩

theorem kept_push {is : List EItem} {seen : List ETok} (hk : KeptTail σ J is seen) (i : EItem) (t : List ETok)
    (h : hasRef t = false → itemSubst σ J i = [i]) : KeptTail σ J (is ++ [i]) (seen ++ t) := by
  intro hn
  rw [hasRef_append, Bool.or_eq_false_iff] at hn
  rw [List.flatMap_append, hk hn.1]
  simp [h hn.2]

theorem readParts_subst (hJ : ∀ n, OneItem (J n) (σ n)) :
    ∀ (ts : List ETok) (S : List Frame) (is : List EItem) (seen : List ETok) (res : List EItem), readParts S is seen ts = some res →
      (∀ n, ETok.ref n ∈ ts → readParts [] [] [] (V n) = some (J n)) → KeptTail σ J is seen → (∀ f ∈ S, KeptTail σ J f.items f.parts) →
      readParts (S.map (frameSubst σ J V)) (is.flatMap (itemSubst σ J)) (seen.flatMap (expandTok V)) (ts.flatMap (expandTok V)) =
        some (res.flatMap (itemSubst σ J)) := by
  intro ts
  induction ts with
  | nil =>
    intro S is seen res h _ _ _
    cases S with
    | cons f S => simp [readParts] at h
    | nil =>
      simp only [readParts, List.isEmpty_nil, if_true, Option.some.injEq] at h
      subst h
      simp [readParts]
  | cons t ts ih =>
    intro S is seen res h hV hk hS
    have hV' : ∀ n, ETok.ref n ∈ ts → readParts [] [] [] (V n) = some (J n) := fun n hn => hV n (by simp [hn])
    cases t with
    | bad => simp [readParts] at h
    | lp =>
      simp only [readParts] at h
      have := ih _ _ _ _ h hV' (fun _ => rfl) (by
        intro f hf
        rcases List.mem_cons.mp hf with rfl | hf
        · exact hk
        · exact hS f hf)
      simpa [expandTok, readParts, frameSubst] using this
    | rp =>
      simp only [readParts] at h
      match S with
      | [] => simp at h
      | ⟨true, is', seen'⟩ :: S' => simp at h
      | ⟨false, is', seen'⟩ :: S' =>
        simp only at h
        cases hc : closeGroup is seen with
        | none => rw [hc] at h; cases h
        | some i =>
          rw [hc] at h
          simp only at h
          obtain ⟨i', h1, h2, h3⟩ := close_subst (V := V) hJ hk hc
          have hS0 : KeptTail σ J is' seen' := hS ⟨false, is', seen'⟩ (by simp)
          have := ih _ _ _ _ h hV' (by
            have e : seen' ++ .lp :: seen ++ [.rp] = seen' ++ (.lp :: seen ++ [.rp]) := by simp
            rw [e]
            refine kept_push hS0 _ _ (fun hn => ?_)
            have hn' : hasRef seen = false := by
              have : hasRef (.lp :: seen ++ [.rp]) = hasRef seen := by simp [hasRef]
              rw [← this]
              exact hn
            rw [h1, h3 hn']) (fun f hf => hS f (by simp [hf]))
          simp only [List.flatMap_cons, expandTok, List.singleton_append, List.map_cons, frameSubst, readParts]
          rw [h2]
          simpa [expandTok, h1] using this
    | word w =>
      simp only [readParts] at h
      simp only [List.flatMap_cons, expandTok, List.singleton_append, readParts]
      by_cases h1 : small w = "case".toList
      · rw [if_pos h1] at h ⊢
        have := ih _ _ _ _ h hV' (fun _ => rfl) (by
          intro f hf
          rcases List.mem_cons.mp hf with rfl | hf
          · exact hk
          · exact hS f hf)
        simpa [expandTok, frameSubst] using this
      · rw [if_neg h1] at h ⊢
        by_cases h2 : small w = "end".toList
        · rw [if_pos h2] at h ⊢
          match S with
          | [] => simp at h
          | ⟨false, is', seen'⟩ :: S' => simp at h
          | ⟨true, is', seen'⟩ :: S' =>
            simp only at h
            cases hc : closeCase is (seen ++ [.word w]) with
            | none => rw [hc] at h; cases h
            | some i =>
              rw [hc] at h
              simp only at h
              have hw : hasRef (seen ++ [.word w]) = hasRef seen := by simp [hasRef]
              obtain ⟨i', h3, h4, h5⟩ := closeCase_subst (V := V) hJ (fun hn => hk (by rw [← hw]; exact hn)) hc
              have hS0 : KeptTail σ J is' seen' := hS ⟨true, is', seen'⟩ (by simp)
              have := ih _ _ _ _ h hV' (by
                rw [List.append_assoc]
                refine kept_push hS0 _ _ (fun hn => ?_)
                rw [h3, h5 hn]) (fun f hf => hS f (by simp [hf]))
              have h4' : closeCase (is.flatMap (itemSubst σ J)) (seen.flatMap (expandTok V) ++ [.word w]) = some i' := by
                rw [← h4]
                simp [expandTok]
              simp only [List.map_cons, frameSubst]
              rw [h4']
              simpa [expandTok, h3] using this
        · rw [if_neg h2] at h ⊢
          have := ih _ _ _ _ h hV' (kept_push hk _ _ (fun _ => rfl)) hS
          simpa [expandTok, itemSubst] using this
    | str s =>
      simp only [readParts] at h
      have := ih _ _ _ _ h hV' (kept_push hk _ _ (fun _ => rfl)) hS
      simpa [expandTok, itemSubst, readParts] using this
    | op s =>
      simp only [readParts] at h
      have := ih _ _ _ _ h hV' (kept_push hk _ _ (fun _ => rfl)) hS
      simpa [expandTok, itemSubst, readParts] using this
    | comma =>
      simp only [readParts] at h
      have := ih _ _ _ _ h hV' (kept_push hk _ _ (fun _ => rfl)) hS
      simpa [expandTok, itemSubst, readParts] using this
    | ref n =>
      simp only [readParts] at h
      have := ih _ _ _ _ h hV' (kept_push hk _ _ (fun hn => by simp [hasRef] at hn)) hS
      simp only [List.flatMap_cons, expandTok]
      rw [read_anywhere (hV n (by simp))]
      simpa [expandTok, itemSubst] using this

theorem noComma_subst (hJ : ∀ n, OneItem (J n) (σ n)) (is : List EItem) (h : EItem.comma ∉ is) :
    EItem.comma ∉ is.flatMap (itemSubst σ J) := by
  rw [List.mem_flatMap]
  rintro ⟨i, hi, hc⟩
  cases i with
  | comma => exact h hi
  | ref n => exact (hJ n).noComma hc
  | _ => simp [itemSubst] at hc

theorem readTokens_subst (hJ : ∀ n, OneItem (J n) (σ n)) (ts : List ETok) (e : SExp)
    (hV : ∀ n, ETok.ref n ∈ ts → readParts [] [] [] (V n) = some (J n)) (h : readTokens ts = some e) : readTokens (ts.flatMap (expandTok V)) = some (e.subst σ) := by
  unfold readTokens at h ⊢
  cases hp : readParts [] [] [] ts with
  | none => rw [hp] at h; cases h
  | some is =>
    rw [hp] at h
    simp only at h
    split_ifs at h with hn
    have := readParts_subst hJ ts [] [] [] is hp hV (fun _ => rfl) (by simp)
    simp only [List.map_nil, List.flatMap_nil] at this
    rw [this]
    simp only
    rw [not_or] at hn
    rw [if_neg, readOne_subst hJ is e h]
    rw [not_or]
    exact ⟨fun h' => hn.1 ((items_nil hJ is).mp h'), noComma_subst hJ is hn.2⟩

end

/-! ### Texts that are one operand -/

theorem alone_facts {t : List Char} {e : SExp} (h : aloneText t = some e) :
    ∃ is, readParts [] [] [] (exprTokens t) = some is ∧ OneItem is e ∧ LexUnit t := by
  unfold aloneText at h
  cases hp : readParts [] [] [] (exprTokens t) with
  | none => rw [hp] at h; cases h
  | some is =>
    rw [hp] at h
    simp only at h
    split at h
    · next e' ho =>
      split_ifs at h with hc
      cases h
      simp only [Bool.and_eq_true, Bool.not_eq_true'] at hc
      exact ⟨is, rfl, ⟨ho, by simpa using hc.2⟩, lexUnit_of t hc.1 (read_noBad _ _ _ _ _ hp)⟩
    · cases h

theorem ref_pieces (st : LexSt) (ps : List Piece) (n : List Char) (h : ETok.ref n ∈ pieceTokens st ps) : n ∈ refNames ps := by
  induction ps generalizing st with
  | nil => exact absurd h (flush_noRefs st n)
  | cons p ps ih =>
    cases p with
    | lit l =>
      simp only [pieceTokens, List.mem_append] at h
      rcases h with h | h
      · exact absurd h (run_noRefs _ _ n)
      · exact ih _ h
    | ref m =>
      simp only [pieceTokens, List.mem_append] at h
      rcases h with h | h
      · have : n = m := by
          cases st <;> simp [LexSt.atRef, LexSt.flush] at h <;> exact h
        simp [refNames, this]
      · simp [refNames, ih _ h]

theorem fill_congr {v v' : List Char → List Char} (ps : List Piece) (h : ∀ n ∈ refNames ps, v n = v' n) : fill v ps = fill v' ps := by
  induction ps with
  | nil => rfl
  | cons p ps ih =>
    cases p with
    | lit l => simp only [fill, ih h]
    | ref n =>
      simp only [fill]
      rw [h n (by simp [refNames]), ih (fun m hm => h m (by simp [refNames, hm]))]

/-- What the reader makes of a text whose references have been replaced by operands. -/
theorem parts_fill (ps : List Piece) (is : List EItem) (hE : readParts [] [] [] (pieceTokens .idle ps) = some is) (v : List Char → List Char)
    (σ : List Char → SExp) (hv : ∀ n ∈ refNames ps, aloneText (v n) = some (σ n)) :
    ∃ J : List Char → List EItem, (∀ n, OneItem (J n) (σ n)) ∧ readParts [] [] [] (exprTokens (fill v ps)) = some (is.flatMap (itemSubst σ J)) ∧
      exprTokens (fill v ps) = (pieceTokens .idle ps).flatMap (expandTok (fun n => exprTokens (v n))) := by
  have hx : LexUnit ['x'] := ⟨⟨'x', [], rfl, by decide +kernel⟩, Or.inr (Or.inl ⟨['x'], by decide +kernel⟩)⟩
  have key : ∀ n, ∃ is, OneItem is (σ n) ∧ (n ∈ refNames ps → readParts [] [] [] (exprTokens (v n)) = some is ∧ LexUnit (v n)) := by
    intro n
    by_cases hn : n ∈ refNames ps
    · obtain ⟨is, h1, h2, h3⟩ := alone_facts (hv n hn)
      exact ⟨is, h2, fun _ => ⟨h1, h3⟩⟩
    · exact ⟨[.done (σ n)], ⟨rfl, by simp [caseWord]⟩, fun h => absurd h hn⟩
  choose J hJ1 hJ2 using key
  have hb : ETok.bad ∉ pieceTokens .idle ps := read_noBad _ _ _ _ _ hE
  have hfill : fill v ps = fill (fun n => if n ∈ refNames ps then v n else ['x']) ps :=
    fill_congr ps (fun n hn => by simp [hn])
  have htok : exprTokens (fill v ps) = (pieceTokens .idle ps).flatMap (expandTok (fun n => exprTokens (v n))) := by
    rw [hfill, tokens_fill _ (fun n => by
      split_ifs with hn
      · exact (hJ2 n hn).2
      · exact hx) ps hb]
    apply List.flatMap_congr
    intro t ht
    cases t with
    | ref n => simp [expandTok, ref_pieces _ _ _ ht]
    | _ => rfl
  refine ⟨J, hJ1, ?_, htok⟩
  rw [htok]
  have := readParts_subst (V := fun n => exprTokens (v n)) hJ1 (pieceTokens .idle ps) [] [] [] is hE
    (fun n hn => (hJ2 n (ref_pieces _ _ _ hn)).1) (fun _ => rfl) (by simp)
  simpa using this

/-- Reading a text whose references have been replaced by operands. -/
theorem read_fill (ps : List Piece) (E : SExp) (hE : readPieces ps = some E) (v : List Char → List Char) (σ : List Char → SExp)
    (hv : ∀ n ∈ refNames ps, aloneText (v n) = some (σ n)) : readText (fill v ps) = some (E.subst σ) := by
  unfold readPieces readTokens at hE
  cases hp : readParts [] [] [] (pieceTokens .idle ps) with
  | none => rw [hp] at hE; cases hE
  | some is =>
    rw [hp] at hE
    simp only at hE
    split_ifs at hE with hn
    rw [not_or] at hn
    obtain ⟨J, hJ, h1, _⟩ := parts_fill ps is hp v σ hv
    unfold readText readTokens
    rw [h1]
    simp only
    rw [if_neg, readOne_subst hJ is E hE]
    rw [not_or]
    exact ⟨fun h' => hn.1 ((items_nil hJ is).mp h'), noComma_subst hJ is hn.2⟩

/-! ### Texts in parentheses -/

theorem tokens_paren {t : List Char} (h : ETok.bad ∉ exprTokens t) : exprTokens ('(' :: t ++ [')']) = .lp :: exprTokens t ++ [.rp] := by
  have e : exprTokens ('(' :: t ++ [')']) = lexed .idle ('(' :: (t ++ [')'])) := rfl
  have e1 : lexStep .idle '(' = (.idle, [.lp]) := by decide +kernel
  have e2 : lexStart ')' = (.idle, [.rp]) := by decide +kernel
  have e3 : exprChar ')' = false := by decide +kernel
  rw [e, lexed_cons, e1, lexed_append]
  have : lexed (lexRun .idle t).1 [')'] = (lexRun .idle t).1.flush ++ [.rp] := by
    rw [lexed_cons]
    cases hs : (lexRun .idle t).1 with
    | str s =>
      exfalso
      apply h
      simp [exprTokens, hs, LexSt.flush]
    | afterRef => exact absurd hs (run_state _ _ (by simp))
    | idle => simp [lexStep, e2, lexed, lexRun, LexSt.flush]
    | word w => simp [lexStep, e2, e3, lexed, lexRun, LexSt.flush]
    | closed s => simp [lexStep, e2, lexed, lexRun, LexSt.flush]
    | sym d =>
      have : opPair d ')' = false := by
        cases hp : opPair d ')' with
        | false => rfl
        | true =>
          have := pair_sym hp
          revert this
          decide +kernel
      simp [lexStep, e2, this, lexed, lexRun, LexSt.flush]
  rw [this]
  simp [exprTokens]

/-- A closed text in parentheses is one operand. -/
theorem alone_paren {t : List Char} (h : ClosedText t) : aloneText ('(' :: t ++ [')']) = some (readClosed t) := by
  unfold ClosedText at h
  cases hp : readParts [] [] [] (exprTokens t) with
  | none => rw [hp] at h; cases h
  | some is =>
    have hb := read_noBad _ _ _ _ _ hp
    have hr : hasRef (exprTokens t) = false := (hasRef_false _).mpr (tokens_noRefs t)
    have hs : noSymEnds ('(' :: t ++ [')']) = true := by
      have e1 : symChar '(' = false := by decide +kernel
      have e2 : symChar ')' = false := by decide +kernel
      have e3 : ('(' :: t ++ [')']).getLast? = some ')' := List.getLast?_concat
      simp only [noSymEnds, e3]
      simp [e1, e2]
    unfold aloneText readClosed
    rw [tokens_paren hb, hp]
    simp only [List.cons_append, readParts, Option.bind_some]
    rw [read_anywhere hp]
    simp only [readParts, List.nil_append]
    unfold closeGroup
    cases hg : readGroup is with
    | some es =>
      rw [List.cons_append] at hs
      simp [operands, afterWord, plainWord, caseWord, hs]
    | none =>
      rw [List.cons_append] at hs
      simp [hr, operands, afterWord, plainWord, caseWord, hs]

theorem closed_of_read {t : List Char} {e : SExp} (h : readText t = some e) : ClosedText t ∧ readClosed t = e := by
  unfold readText readTokens at h
  unfold ClosedText readClosed
  cases hp : readParts [] [] [] (exprTokens t) with
  | none => rw [hp] at h; cases h
  | some is =>
    rw [hp] at h
    simp only at h
    split_ifs at h with hn
    rw [not_or] at hn
    refine ⟨rfl, ?_⟩
    have hs : splitItems (· == .comma) is = (is, []) := by
      have := splitItems_keep (· == EItem.comma) is [] (by
        intro i hi
        simp only [beq_eq_false_iff_ne]
        rintro rfl
        exact hn.2 hi)
      simpa [splitItems] using this
    simp [readGroup, hn.1, hs, readAll, h, groupExp]

theorem value_subst {D : Type} (I : Interp D) (env : List Char → D) (σ : List Char → SExp) (e : SExp) :
    (e.subst σ).value I env = e.value I (fun n => (σ n).value I env) := by
  induction e <;> simp_all [SExp.subst, SExp.value]

end ML
