import Verif.Expr.Lex
/- Reading commutes with replacing references by operands. -/
set_option autoImplicit false
namespace ML
open Spec

/-! ### Operators -/

/-- An operand with its references replaced (for the proofs; it models no file in /repo). -/
def symSubst (σ : List Char → SExp) : ESym → ESym
  | .x e => .x (e.subst σ)
  | .o p => .o p

section
variable (σ : List Char → SExp)

theorem split_subst (ops : List (List Char)) (ys : List ESym) :
    splitAtOps ops (ys.map (symSubst σ)) =
      ((splitAtOps ops ys).1.map (symSubst σ), (splitAtOps ops ys).2.map (fun p => (p.1, p.2.map (symSubst σ)))) := by
  induction ys with
  | nil => rfl
  | cons y ys ih =>
    cases y with
    | x e => simp only [List.map_cons, symSubst, splitAtOps, ih]
    | o p =>
      simp only [List.map_cons, symSubst, splitAtOps, ih]
      split_ifs <;> simp [symSubst]

/-- Replacing commutes with this reader (for the proofs; it models no file in /repo). -/
def Natural (next : List ESym → Option SExp) : Prop := ∀ ys, next (ys.map (symSubst σ)) = (next ys).map (SExp.subst σ)

variable {σ}

theorem leftOps_subst {next : List ESym → Option SExp} (h : Natural σ next) (e : SExp) (ps : List (List Char × List ESym)) :
    leftOps next (e.subst σ) (ps.map (fun p => (p.1, p.2.map (symSubst σ)))) = (leftOps next e ps).map (SExp.subst σ) := by
  induction ps generalizing e with
  | nil => rfl
  | cons p ps ih =>
    simp only [List.map_cons, leftOps]
    rw [h]
    cases next p.2 with
    | none => rfl
    | some e' => exact ih (.bin p.1 e e')

theorem binLevel_subst (ops : List (List Char)) {next : List ESym → Option SExp} (h : Natural σ next) : Natural σ (binLevel ops next) := by
  intro ys
  unfold binLevel
  rw [split_subst]
  simp only
  rw [h]
  cases next (splitAtOps ops ys).1 with
  | none => rfl
  | some e => exact leftOps_subst h e _

theorem cmpLevel_subst (ops : List (List Char)) {next : List ESym → Option SExp} (h : Natural σ next) : Natural σ (cmpLevel ops next) := by
  intro ys
  unfold cmpLevel
  rw [binLevel_subst ops h, split_subst]
  simp only [List.length_map]
  split_ifs <;> rfl

theorem preLevel_subst (op : List Char) {next : List ESym → Option SExp} (h : Natural σ next) : Natural σ (preLevel op next) := by
  intro ys
  induction ys with
  | nil => exact h []
  | cons y ys ih =>
    cases y with
    | x e => exact h (.x e :: ys)
    | o p =>
      simp only [List.map_cons, symSubst, preLevel]
      split_ifs with hp
      · rw [ih]
        cases preLevel op next ys <;> rfl
      · exact h (.o p :: ys)

theorem oneOperand_subst : Natural σ oneOperand := by
  intro ys
  match ys with
  | [] => rfl
  | [.x e] => rfl
  | [.o p] => rfl
  | .x e :: y :: r => rfl
  | .o p :: y :: r => rfl

theorem byPrecedence_subst : Natural σ byPrecedence :=
  binLevel_subst _ <| binLevel_subst _ <| binLevel_subst _ <| preLevel_subst _ <| cmpLevel_subst _ <| binLevel_subst _ <| binLevel_subst _ <|
    preLevel_subst _ <| binLevel_subst _ oneOperand_subst

theorem signs_subst (b : Bool) (ys : List ESym) : signs b (ys.map (symSubst σ)) = (signs b ys).map (symSubst σ) := by
  induction ys generalizing b with
  | nil => rfl
  | cons y ys ih =>
    cases y with
    | x e => simp only [List.map_cons, symSubst, signs, ih]
    | o p => simp only [List.map_cons, symSubst, signs, ih]

theorem noTwo_cons (y : ESym) (ys : List ESym) :
    noTwo (y :: ys) = true ↔ noTwo ys = true ∧ ((∃ e, y = .x e) → ∀ e r, ys ≠ .x e :: r) := by
  cases y with
  | o p => simp [noTwo]
  | x e =>
    match ys with
    | [] => simp [noTwo]
    | .o p :: r => simp [noTwo]
    | .x e' :: r => simp [noTwo]

theorem noTwo_subst (ys : List ESym) : noTwo (ys.map (symSubst σ)) = noTwo ys := by
  induction ys with
  | nil => rfl
  | cons y ys ih =>
    match y, ys with
    | .o p, ys => simpa [noTwo, symSubst] using ih
    | .x e, [] => simp [noTwo, symSubst]
    | .x e, .o p :: r => simpa [noTwo, symSubst] using ih
    | .x e, .x e' :: r => simp [noTwo, symSubst]

/-! ### Operands -/

theorem ofList_subst (es : List SExp) : SExp.ofList (es.map (SExp.subst σ)) = (SExp.ofList es).subst σ := by
  induction es with
  | nil => rfl
  | cons e es ih => simp [SExp.ofList, SExp.subst, ih]

theorem groupExp_subst (es : List SExp) : groupExp (es.map (SExp.subst σ)) = (groupExp es).subst σ := by
  match es with
  | [] => rfl
  | [e] => rfl
  | e :: e' :: r =>
    have := ofList_subst (σ := σ) (e :: e' :: r)
    simp only [List.map_cons] at this
    simp [groupExp, SExp.subst, this]

theorem noTwo_drop (p : Option (List Char)) (ys : List ESym) (h : noTwo (plainWord p ++ ys) = true) : noTwo ys = true := by
  cases p with
  | none => exact h
  | some w => exact ((noTwo_cons _ _).mp h).1

/-- What follows is no parenthesis (for the proofs; it models no file in /repo). -/
def NoGroup (r : List EItem) : Prop := (∀ es r', r ≠ .group es :: r') ∧ ∀ ts r', r ≠ .raw ts :: r'

theorem operands_noGroup (p : Option (List Char)) (r : List EItem) (h : NoGroup r) : operands p r = plainWord p ++ operands none r := by
  cases r with
  | nil => cases p <;> simp [operands, plainWord]
  | cons i r =>
    cases i with
    | group es => exact absurd rfl (h.1 es r)
    | raw ts => exact absurd rfl (h.2 ts r)
    | word w =>
      simp only [operands]
      split_ifs <;> simp [plainWord]
    | _ => simp [operands, plainWord]

theorem operands_append (p : Option (List Char)) (J r : List EItem) (h : NoGroup r) : operands p (J ++ r) = operands p J ++ operands none r := by
  induction J generalizing p with
  | nil =>
    rw [List.nil_append, operands_noGroup p r h]
    rfl
  | cons i J ih =>
    cases i with
    | word w =>
      simp only [List.cons_append, operands]
      split_ifs <;> simp [ih]
    | _ => simp [operands, ih]

/-- Items that are one operand (for the proofs; it models no file in /repo). -/
structure OneItem (J : List EItem) (e : SExp) : Prop where
  ops : operands none J = [.x e]
  noCase : ∀ i ∈ J, caseWord i = false

theorem operands_comma (p : Option (List Char)) (J : List EItem) (h : EItem.comma ∈ J) : ESym.o [','] ∈ operands p J := by
  induction J generalizing p with
  | nil => cases h
  | cons i J ih =>
    rcases List.mem_cons.mp h with rfl | hm
    · simp [operands]
    · cases i with
      | word w =>
        simp only [operands]
        split_ifs <;> simp [ih _ hm]
      | _ => simp [operands, ih _ hm]

theorem OneItem.ne {J : List EItem} {e : SExp} (h : OneItem J e) : J ≠ [] := by
  rintro rfl
  have := h.ops
  simp [operands, plainWord] at this

theorem OneItem.noComma {J : List EItem} {e : SExp} (h : OneItem J e) : EItem.comma ∉ J := by
  intro hc
  have := operands_comma none J hc
  rw [h.ops] at this
  simp at this

/-- An item with its references replaced (for the proofs; it models no file in /repo). -/
def itemSubst (σ : List Char → SExp) (J : List Char → List EItem) : EItem → List EItem
  | .ref n => J n
  | .group es => [.group (es.map (SExp.subst σ))]
  | .done e => [.done (e.subst σ)]
  | i => [i]

variable {J : List Char → List EItem}

theorem startsOp (r : List EItem) (h : ∀ e r', operands none r ≠ .x e :: r') :
    r = [] ∨ (∃ q r', r = .op q :: r') ∨ (∃ r', r = .comma :: r') ∨ ∃ w r', r = .word w :: r' := by
  cases r with
  | nil => exact Or.inl rfl
  | cons i r =>
    cases i with
    | op q => exact Or.inr (Or.inl ⟨q, r, rfl⟩)
    | comma => exact Or.inr (Or.inr (Or.inl ⟨r, rfl⟩))
    | word w => exact Or.inr (Or.inr (Or.inr ⟨w, r, rfl⟩))
    | group es => exact absurd rfl (h _ _)
    | raw ts => exact absurd rfl (h _ _)
    | str s => exact absurd rfl (h _ _)
    | ref n => exact absurd rfl (h _ _)
    | done e => exact absurd rfl (h _ _)

theorem map_plainWord (p : Option (List Char)) : (plainWord p).map (symSubst σ) = plainWord p := by
  cases p <;> simp [plainWord, symSubst, SExp.subst]

theorem operands_subst (hJ : ∀ n, OneItem (J n) (σ n)) (p : Option (List Char)) (is : List EItem) (h : noTwo (operands p is) = true) :
    operands p (is.flatMap (itemSubst σ J)) = (operands p is).map (symSubst σ) := by
  induction is generalizing p with
  | nil => exact (map_plainWord p).symm
  | cons i is ih =>
    rw [List.flatMap_cons]
    cases i with
    | word w =>
      simp only [operands, itemSubst, List.singleton_append] at h ⊢
      split_ifs at h ⊢ with hw
      · rw [ih none ((noTwo_cons _ _).mp (noTwo_drop p _ h)).1]
        simp [map_plainWord, symSubst]
      · rw [ih (some w) (noTwo_drop p _ h)]
        simp [map_plainWord]
    | str s =>
      simp only [operands, itemSubst, List.singleton_append] at h ⊢
      rw [ih none ((noTwo_cons _ _).mp (noTwo_drop p _ h)).1]
      simp [map_plainWord, symSubst, SExp.subst]
    | op q =>
      simp only [operands, itemSubst, List.singleton_append] at h ⊢
      rw [ih none ((noTwo_cons _ _).mp (noTwo_drop p _ h)).1]
      simp [map_plainWord, symSubst]
    | comma =>
      simp only [operands, itemSubst, List.singleton_append] at h ⊢
      rw [ih none ((noTwo_cons _ _).mp (noTwo_drop p _ h)).1]
      simp [map_plainWord, symSubst]
    | group es =>
      simp only [operands, itemSubst, List.singleton_append] at h ⊢
      rw [ih none ((noTwo_cons _ _).mp h).1, ofList_subst, groupExp_subst]
      cases p <;> simp [afterWord, symSubst, SExp.subst]
    | raw ts =>
      simp only [operands, itemSubst, List.singleton_append] at h ⊢
      rw [ih none ((noTwo_cons _ _).mp h).1]
      cases p <;> simp [afterWord, symSubst, SExp.subst]
    | done e =>
      simp only [operands, itemSubst, List.singleton_append] at h ⊢
      rw [ih none ((noTwo_cons _ _).mp (noTwo_drop p _ h)).1]
      simp [map_plainWord, symSubst]
    | ref n =>
      simp only [operands, itemSubst] at h ⊢
      cases p with
      | some w =>
        exfalso
        simp [plainWord, noTwo] at h
      | none =>
        simp only [plainWord, List.nil_append] at h ⊢
        obtain ⟨h1, h2⟩ := (noTwo_cons _ _).mp h
        have h3 := startsOp is (h2 ⟨_, rfl⟩)
        have hng : NoGroup (is.flatMap (itemSubst σ J)) := by
          rcases h3 with rfl | ⟨q, r', rfl⟩ | ⟨r', rfl⟩ | ⟨w, r', rfl⟩ <;> constructor <;> intros <;> simp [itemSubst]
        rw [operands_append none _ _ hng, (hJ n).ops, ih none h1]
        simp [symSubst, SExp.subst]

theorem readOne_subst (hJ : ∀ n, OneItem (J n) (σ n)) (is : List EItem) (e : SExp) (h : readOne is = some e) :
    readOne (is.flatMap (itemSubst σ J)) = some (e.subst σ) := by
  unfold readOne at h ⊢
  split_ifs at h with hn
  rw [operands_subst hJ none is hn, noTwo_subst, if_pos hn, signs_subst, byPrecedence_subst, h]
  rfl

/-! ### Separators -/

theorem splitItems_keep (sep : EItem → Bool) (a b : List EItem) (h : ∀ i ∈ a, sep i = false) :
    splitItems sep (a ++ b) = (a ++ (splitItems sep b).1, (splitItems sep b).2) := by
  induction a with
  | nil => rfl
  | cons i a ih =>
    simp only [List.cons_append, splitItems]
    rw [ih (fun j hj => h j (by simp [hj])), h i (by simp)]
    simp

theorem splitItems_subst (sep : EItem → Bool) (φ : EItem → List EItem) (h1 : ∀ i, sep i = true → φ i = [i])
    (h2 : ∀ i, sep i = false → ∀ j ∈ φ i, sep j = false) (is : List EItem) :
    splitItems sep (is.flatMap φ) =
      ((splitItems sep is).1.flatMap φ, (splitItems sep is).2.map (fun p => (p.1, p.2.flatMap φ))) := by
  induction is with
  | nil => rfl
  | cons i is ih =>
    rw [List.flatMap_cons]
    simp only [splitItems]
    cases hs : sep i with
    | true =>
      rw [h1 i hs]
      simp only [List.singleton_append, splitItems, hs, if_true, ih]
      simp
    | false =>
      rw [splitItems_keep sep _ _ (h2 i hs), ih]
      simp

theorem readAll_subst (hJ : ∀ n, OneItem (J n) (σ n)) (ps : List (List EItem)) (es : List SExp) (h : readAll ps = some es) :
    readAll (ps.map (List.flatMap (itemSubst σ J))) = some (es.map (SExp.subst σ)) := by
  induction ps generalizing es with
  | nil =>
    cases h
    rfl
  | cons p ps ih =>
    simp only [readAll, List.map_cons] at h ⊢
    cases h1 : readOne p with
    | none => rw [h1] at h; cases h
    | some e =>
      rw [h1] at h
      rw [readOne_subst hJ p e h1]
      cases h2 : readAll ps with
      | none => rw [h2] at h; cases h
      | some es' =>
        rw [h2] at h
        cases h
        simp [ih es' h2]

theorem itemSubst_ne (hJ : ∀ n, OneItem (J n) (σ n)) (i : EItem) : itemSubst σ J i ≠ [] := by
  cases i with
  | ref n => exact (hJ n).ne
  | _ => simp [itemSubst]

theorem items_nil (hJ : ∀ n, OneItem (J n) (σ n)) (is : List EItem) : is.flatMap (itemSubst σ J) = [] ↔ is = [] := by
  constructor
  · intro h
    cases is with
    | nil => rfl
    | cons i is =>
      rw [List.flatMap_cons, List.append_eq_nil_iff] at h
      exact absurd h.1 (itemSubst_ne hJ i)
  · rintro rfl
    rfl

theorem readGroup_subst (hJ : ∀ n, OneItem (J n) (σ n)) (is : List EItem) (es : List SExp) (h : readGroup is = some es) :
    readGroup (is.flatMap (itemSubst σ J)) = some (es.map (SExp.subst σ)) := by
  unfold readGroup at h ⊢
  by_cases hn : is = []
  · subst hn
    simp at h
    subst h
    rfl
  · rw [if_neg hn] at h
    rw [if_neg (fun h' => hn ((items_nil hJ is).mp h'))]
    rw [splitItems_subst _ (itemSubst σ J)]
    · have := readAll_subst hJ _ es h
      rw [← this]
      simp [Function.comp_def]
    · intro i hi
      simp only [beq_iff_eq] at hi
      subst hi
      rfl
    · intro i hi j hj
      cases i with
      | comma => simp at hi
      | ref n =>
        simp only [beq_eq_false_iff_ne]
        rintro rfl
        exact (hJ n).noComma hj
      | _ => simp_all [itemSubst]

theorem readCase_subst (hJ : ∀ n, OneItem (J n) (σ n)) (is : List EItem) (e : SExp) (h : readCase is = some e) :
    readCase (is.flatMap (itemSubst σ J)) = some (e.subst σ) := by
  unfold readCase at h ⊢
  rw [splitItems_subst caseWord (itemSubst σ J)]
  · simp only at h ⊢
    split_ifs at h with hn
    rw [if_pos ((items_nil hJ _).mpr hn)]
    cases h1 : readAll ((splitItems caseWord is).2.map (·.2)) with
    | none => rw [h1] at h; cases h
    | some es =>
      rw [h1] at h
      cases h
      have := readAll_subst hJ _ es h1
      rw [List.map_map] at this
      simp only [Function.comp_def] at this
      simp only [List.map_map, Function.comp_def]
      rw [this]
      simp [ofList_subst, SExp.subst]
  · intro i hi
    cases i with
    | word w => rfl
    | _ => simp [caseWord] at hi
  · intro i hi j hj
    cases i with
    | ref n => exact (hJ n).noCase j hj
    | word w =>
      simp only [itemSubst, List.mem_singleton] at hj
      subst hj
      exact hi
    | _ =>
      simp only [itemSubst, List.mem_singleton] at hj
      subst hj
      rfl

end

end ML
