import Verif.Cases.Spec
import Verif.Expr.Props
import Verif.Tiers.Props
/-
C77: dimensions written as cases or tiers.
-/
set_option autoImplicit false
namespace ML
open Spec

/-! ### The parts of the text -/

theorem flush_noBad {st : LexSt} (h : ETok.bad ∉ st.flush) (s : List Char) : st ≠ .str s := by
  rintro rfl
  simp [LexSt.flush] at h

theorem lexed_then {t : List Char} (h : ETok.bad ∉ exprTokens t) (rest : List Char) : lexed .idle (t ++ ' ' :: rest) = exprTokens t ++ lexed .idle rest := by
  rw [lexed_append, lexed_space _ (by decide) (flush_noBad (fun hb => h (by simp [exprTokens, hb])))]
  simp [exprTokens]

theorem lexed_inString (l : List Char) (h : '\'' ∉ l) (s rest : List Char) : lexed (.str s) (l ++ '\'' :: rest) = lexed (.closed (s ++ l)) rest := by
  induction l generalizing s with
  | nil => simp [lexed_cons, lexStep]
  | cons c l ih =>
    simp only [List.mem_cons, not_or] at h
    rw [List.cons_append, lexed_cons]
    simp only [lexStep, if_neg (Ne.symm h.1), List.nil_append]
    rw [ih h.2]
    simp

theorem lexed_label (l : List Char) (h : '\'' ∉ l) (rest : List Char) :
    lexed .idle ('\'' :: (l ++ "' ".toList ++ rest)) = .str l :: lexed .idle rest := by
  have e : "' ".toList = ['\'', ' '] := rfl
  rw [lexed_cons]
  have e1 : lexStep .idle '\'' = (.str [], []) := by decide +kernel
  rw [e1, e, List.append_assoc]
  show [] ++ lexed (.str []) (l ++ '\'' :: (' ' :: rest)) = _
  rw [lexed_inString l h, lexed_space _ (by decide) (by simp)]
  simp [LexSt.flush]

theorem lexed_when {t : List Char} (h : ETok.bad ∉ exprTokens t) (l : List Char) (hl : '\'' ∉ l) (rest : List Char) :
    lexed .idle ("when ".toList ++ t ++ " then '".toList ++ l ++ "' ".toList ++ rest) =
      .word "when".toList :: exprTokens t ++ [.word "then".toList, .str l] ++ lexed .idle rest := by
  have e1 : "when ".toList ++ t ++ " then '".toList ++ l ++ "' ".toList ++ rest =
      "when".toList ++ ' ' :: (t ++ ' ' :: ("then".toList ++ ' ' :: ('\'' :: (l ++ "' ".toList ++ rest)))) := by
    have a : "when ".toList = "when".toList ++ [' '] := rfl
    have b : " then '".toList = ' ' :: ("then".toList ++ [' ', '\'']) := rfl
    rw [a, b]
    simp
  have t1 : exprTokens "when".toList = [.word "when".toList] := by decide +kernel
  have t2 : exprTokens "then".toList = [.word "then".toList] := by decide +kernel
  rw [e1, lexed_then (by rw [t1]; simp), lexed_then h, lexed_then (by rw [t2]; simp), lexed_label l hl, t1, t2]
  simp

/-! ### Reading a CASE -/

/-- The items of a branch (for the proofs; it models no file in /repo). -/
def branchItems (is : List EItem) (l : List Char) : List EItem := .word "when".toList :: is ++ [.word "then".toList, .str l]

theorem read_branch {ts : List ETok} {is : List EItem} (h : readParts [] [] [] ts = some is) (l : List Char) (outer : List Frame) (js : List EItem)
    (seen rest : List ETok) :
    readParts outer js seen (.word "when".toList :: ts ++ [.word "then".toList, .str l] ++ rest) =
      readParts outer (js ++ branchItems is l) (seen ++ (.word "when".toList :: ts ++ [.word "then".toList, .str l])) rest := by
  have w1 : small "when".toList ≠ "case".toList ∧ small "when".toList ≠ "end".toList := by decide +kernel
  have w2 : small "then".toList ≠ "case".toList ∧ small "then".toList ≠ "end".toList := by decide +kernel
  have e : .word "when".toList :: ts ++ [.word "then".toList, .str l] ++ rest = ETok.word "when".toList :: (ts ++ (.word "then".toList :: .str l :: rest)) := by simp
  rw [e]
  simp only [readParts, if_neg w1.1, if_neg w1.2]
  rw [read_anywhere h]
  simp only [readParts, if_neg w2.1, if_neg w2.2]
  simp [branchItems]

theorem split_plain (is rest : List EItem) (h : is.any caseWord = false) :
    splitItems caseWord (is ++ rest) = (is ++ (splitItems caseWord rest).1, (splitItems caseWord rest).2) := by
  induction is with
  | nil => rfl
  | cons i is ih =>
    simp only [List.any_cons, Bool.or_eq_false_iff] at h
    simp only [List.cons_append, splitItems, h.1, Bool.false_eq_true, if_false, ih h.2]

/-- A branch: the items of its condition, its expression and its label (for the proofs; it models no file in /repo). -/
structure Branch where
  items : List EItem
  e : SExp
  label : List Char

/-- The condition of a branch is an expression (for the proofs; it models no file in /repo). -/
structure Branch.Good (b : Branch) : Prop where
  plain : b.items.any caseWord = false
  one : readOne b.items = some b.e

theorem case_branches (bs : List Branch) (hg : ∀ b ∈ bs, b.Good) (tail : List EItem) (es : List SExp) (names : List Char)
    (h0 : (splitItems caseWord tail).1 = []) (h1 : readAll ((splitItems caseWord tail).2.map (·.2)) = some es)
    (h2 : ((splitItems caseWord tail).2.map (fun p => ' ' :: wordOf p.1)).flatten = names) :
    (splitItems caseWord (bs.flatMap (fun b => branchItems b.items b.label) ++ tail)).1 = [] ∧
    readAll ((splitItems caseWord (bs.flatMap (fun b => branchItems b.items b.label) ++ tail)).2.map (·.2)) =
      some (bs.flatMap (fun b => [b.e, .str b.label]) ++ es) ∧
    ((splitItems caseWord (bs.flatMap (fun b => branchItems b.items b.label) ++ tail)).2.map (fun p => ' ' :: wordOf p.1)).flatten =
      (List.replicate bs.length " when then".toList).flatten ++ names := by
  induction bs with
  | nil => exact ⟨h0, h1, h2⟩
  | cons b bs ih =>
    obtain ⟨i0, i1, i2⟩ := ih (fun b' hb => hg b' (List.mem_cons_of_mem _ hb))
    have g := hg b List.mem_cons_self
    have w1 : caseWord (.word "when".toList) = true := by decide +kernel
    have w2 : caseWord (.word "then".toList) = true := by decide +kernel
    have w3 : caseWord (.str b.label) = false := rfl
    have n1 : wordOf (.word "when".toList) = "when".toList := by decide +kernel
    have n2 : wordOf (.word "then".toList) = "then".toList := by decide +kernel
    have r1 : readOne [.str b.label] = some (.str b.label) := by
      simp [readOne, operands, plainWord, noTwo, signs, byPrecedence, binLevel, cmpLevel, preLevel, splitAtOps, leftOps, oneOperand]
    have e : (b :: bs).flatMap (fun b => branchItems b.items b.label) ++ tail =
        .word "when".toList :: (b.items ++ (.word "then".toList :: .str b.label :: (bs.flatMap (fun b => branchItems b.items b.label) ++ tail))) := by
      simp [branchItems]
    rw [e]
    have s1 : splitItems caseWord (EItem.str b.label :: (bs.flatMap (fun b => branchItems b.items b.label) ++ tail)) =
        ([.str b.label], (splitItems caseWord (bs.flatMap (fun b => branchItems b.items b.label) ++ tail)).2) := by
      rw [splitItems, if_neg (by simp [w3]), i0]
    have s2 : splitItems caseWord (.word "then".toList :: EItem.str b.label :: (bs.flatMap (fun b => branchItems b.items b.label) ++ tail)) =
        ([], (.word "then".toList, [.str b.label]) :: (splitItems caseWord (bs.flatMap (fun b => branchItems b.items b.label) ++ tail)).2) := by
      rw [splitItems, if_pos w2, s1]
    have s3 : splitItems caseWord (.word "when".toList :: (b.items ++ (.word "then".toList :: .str b.label ::
          (bs.flatMap (fun b => branchItems b.items b.label) ++ tail)))) =
        ([], (.word "when".toList, b.items) :: (.word "then".toList, [.str b.label]) ::
          (splitItems caseWord (bs.flatMap (fun b => branchItems b.items b.label) ++ tail)).2) := by
      rw [splitItems, if_pos w1, split_plain _ _ g.plain, s2]
      simp
    rw [s3]
    refine ⟨rfl, ?_, ?_⟩
    · simp only [List.map_cons, readAll, g.one, r1, i1, Option.bind_some, Option.map_some]
      rfl
    · simp only [List.map_cons, List.flatten_cons, i2, n1, n2, List.length_cons, List.replicate_succ]
      rfl

/-- The text of a branch (for the proofs; it models no file in /repo). -/
def branchText (c l : List Char) : List Char := "when ".toList ++ c ++ " then '".toList ++ l ++ "' ".toList

theorem lexed_branch {t : List Char} (h : ETok.bad ∉ exprTokens t) (l : List Char) (hl : '\'' ∉ l) (rest : List Char) :
    lexed .idle (branchText t l ++ rest) = .word "when".toList :: exprTokens t ++ [.word "then".toList, .str l] ++ lexed .idle rest :=
  lexed_when h l hl rest

/-- The tokens of a branch (for the proofs; it models no file in /repo). -/
def branchToks (c l : List Char) : List ETok := .word "when".toList :: exprTokens c ++ [.word "then".toList, .str l]

theorem read_branches (ws : List (List Char × List Char)) (bs : List Branch)
    (h : List.Forall₂ (fun w b => readParts [] [] [] (exprTokens w.1) = some b.items ∧ w.2 = b.label) ws bs) (outer : List Frame) (js : List EItem)
    (seen rest : List ETok) :
    ∃ seen', readParts outer js seen (ws.flatMap (fun w => branchToks w.1 w.2) ++ rest) =
      readParts outer (js ++ bs.flatMap (fun b => branchItems b.items b.label)) seen' rest := by
  induction h generalizing js seen with
  | nil => exact ⟨seen, by simp⟩
  | @cons w b ws bs hw _ ih =>
    obtain ⟨h1, h2⟩ := hw
    obtain ⟨s', hs⟩ := ih (js ++ branchItems b.items b.label) (seen ++ branchToks w.1 w.2)
    refine ⟨s', ?_⟩
    have key : readParts outer js seen (branchToks w.1 w.2 ++ (ws.flatMap (fun w => branchToks w.1 w.2) ++ rest)) =
        readParts outer (js ++ branchItems b.items b.label) (seen ++ branchToks w.1 w.2) (ws.flatMap (fun w => branchToks w.1 w.2) ++ rest) := by
      rw [← h2]
      exact read_branch h1 w.2 outer js seen _
    rw [List.flatMap_cons, List.append_assoc, key, hs]
    simp

theorem cond_facts {t : List Char} {e : SExp} (h : condText t = some e) :
    ∃ is, readParts [] [] [] (exprTokens t) = some is ∧ is.any caseWord = false ∧ readOne is = some e ∧ ETok.bad ∉ exprTokens t := by
  unfold condText at h
  cases hp : readParts [] [] [] (exprTokens t) with
  | none => rw [hp] at h; cases h
  | some is =>
    rw [hp] at h
    simp only at h
    split_ifs at h with hc
    simp only [not_or, Bool.not_eq_true] at hc
    exact ⟨is, rfl, hc.2.2, h, read_noBad _ _ _ _ _ hp⟩

/-- The text of ELSE (for the proofs; it models no file in /repo). -/
def elseText : Option (List Char) → List Char
  | none => []
  | some l => "else '".toList ++ l ++ "' ".toList

/-- The parts of ELSE (for the proofs; it models no file in /repo). -/
def elseToks : Option (List Char) → List ETok
  | none => []
  | some l => [.word "else".toList, .str l]

/-- The items of ELSE (for the proofs; it models no file in /repo). -/
def elseItems : Option (List Char) → List EItem
  | none => []
  | some l => [.word "else".toList, .str l]

/-- The text of a CASE with these conditions and labels (for the proofs; it models no file in /repo). -/
def caseOf (ws : List (List Char × List Char)) (els : Option (List Char)) : List Char :=
  "case ".toList ++ ws.flatMap (fun w => branchText w.1 w.2) ++
    elseText els ++ "end".toList

theorem lexed_whens (ws : List (List Char × List Char)) (h : ∀ w ∈ ws, ETok.bad ∉ exprTokens w.1 ∧ '\'' ∉ w.2) (rest : List Char) :
    lexed .idle (ws.flatMap (fun w => branchText w.1 w.2) ++ rest) =
      ws.flatMap (fun w => branchToks w.1 w.2) ++ lexed .idle rest := by
  induction ws with
  | nil => rfl
  | cons w ws ih =>
    obtain ⟨h1, h2⟩ := h w List.mem_cons_self
    rw [List.flatMap_cons, List.append_assoc, lexed_branch h1 w.2 h2, ih (fun w' hw => h w' (List.mem_cons_of_mem _ hw))]
    simp [branchToks]

theorem read_case (ws : List (List Char × List Char)) (es : List SExp) (h : List.Forall₂ (fun w e => condText w.1 = some e ∧ '\'' ∉ w.2) ws es)
    (els : Option (List Char)) (hels : ∀ l, els = some l → '\'' ∉ l) :
    readText (caseOf ws els) = some (.call (caseName ws.length els.isSome)
      (SExp.ofList ((ws.zip es).flatMap (fun p => [p.2, .str p.1.2]) ++ (els.map SExp.str).toList))) ∧
    aloneText (caseOf ws els) = some (.call (caseName ws.length els.isSome)
      (SExp.ofList ((ws.zip es).flatMap (fun p => [p.2, .str p.1.2]) ++ (els.map SExp.str).toList))) := by
  -- the branches
  obtain ⟨bs, hb1, hb2, hb3, hb4⟩ : ∃ bs : List Branch,
      List.Forall₂ (fun w b => readParts [] [] [] (exprTokens w.1) = some b.items ∧ w.2 = b.label) ws bs ∧ (∀ b ∈ bs, b.Good) ∧
      bs.flatMap (fun b => [b.e, .str b.label]) = (ws.zip es).flatMap (fun p => [p.2, .str p.1.2]) ∧ bs.length = ws.length := by
    induction h with
    | nil => exact ⟨[], .nil, by simp, rfl, rfl⟩
    | @cons w e ws es hw _ ih =>
      obtain ⟨bs, k1, k2, k3, k4⟩ := ih
      obtain ⟨is, c1, c2, c3, _⟩ := cond_facts hw.1
      refine ⟨⟨is, e, w.2⟩ :: bs, .cons ⟨c1, rfl⟩ k1, ?_, ?_, by simp [k4]⟩
      · intro b hb
        rcases List.mem_cons.mp hb with rfl | hb
        · exact ⟨c2, c3⟩
        · exact k2 b hb
      · simp [k3]
  have hnb : ∀ w ∈ ws, ETok.bad ∉ exprTokens w.1 ∧ '\'' ∉ w.2 := by
    intro w hw
    obtain ⟨hl, hget⟩ := List.forall₂_iff_get.mp h
    obtain ⟨i, hi, rfl⟩ := List.getElem_of_mem hw
    obtain ⟨he1, he2⟩ := hget i hi (hl ▸ hi)
    obtain ⟨_, _, _, _, hb⟩ := cond_facts he1
    exact ⟨hb, he2⟩
  have tcase : exprTokens "case".toList = [.word "case".toList] := by decide +kernel
  have telse : exprTokens "else".toList = [.word "else".toList] := by decide +kernel
  have tend : lexed .idle "end".toList = [.word "end".toList] := by decide +kernel
  -- the tail
  have htoks : exprTokens (caseOf ws els) = .word "case".toList :: (ws.flatMap (fun w => branchToks w.1 w.2) ++ (elseToks els ++ [.word "end".toList])) := by
    show lexed .idle (caseOf ws els) = _
    have e : caseOf ws els = "case".toList ++ ' ' :: (ws.flatMap (fun w => branchText w.1 w.2) ++
        (elseText els ++ "end".toList)) := by
      have a : "case ".toList = "case".toList ++ [' '] := rfl
      unfold caseOf
      rw [a]
      simp
    rw [e, lexed_then (by rw [tcase]; simp), lexed_whens ws hnb, tcase]
    have : lexed .idle (elseText els ++ "end".toList) = elseToks els ++ [.word "end".toList] := by
      cases els with
      | none => exact tend
      | some l =>
        have b : "else '".toList ++ l ++ "' ".toList ++ "end".toList = "else".toList ++ ' ' :: ('\'' :: (l ++ "' ".toList ++ "end".toList)) := by
          have a : "else '".toList = "else".toList ++ [' ', '\''] := rfl
          rw [a]
          simp
        rw [elseText, b, lexed_then (by rw [telse]; simp), lexed_label l (hels l rfl), telse, tend]
        rfl
    rw [this]
    rfl
  have w0 : small "case".toList = "case".toList := by decide +kernel
  have wend : small "end".toList ≠ "case".toList ∧ small "end".toList = "end".toList := by decide +kernel
  have welse : small "else".toList ≠ "case".toList ∧ small "else".toList ≠ "end".toList := by decide +kernel
  -- the items of the tail
  have htail : (splitItems caseWord (elseItems els)).1 = [] ∧ readAll ((splitItems caseWord (elseItems els)).2.map (·.2)) = some ((els.map SExp.str).toList) ∧
      ((splitItems caseWord (elseItems els)).2.map (fun p => ' ' :: wordOf p.1)).flatten = (if els.isSome then " else".toList else []) := by
    cases els with
    | none => exact ⟨rfl, rfl, rfl⟩
    | some l =>
      have c1 : caseWord (.word "else".toList) = true := by decide +kernel
      have r1 : readOne [.str l] = some (.str l) := by
        simp [readOne, operands, plainWord, noTwo, signs, byPrecedence, binLevel, cmpLevel, preLevel, splitAtOps, leftOps, oneOperand]
      have s1 : splitItems caseWord (elseItems (some l)) = ([], [(.word "else".toList, [.str l])]) := by
        show splitItems caseWord [.word "else".toList, .str l] = _
        have c2 : caseWord (.str l) = false := rfl
        simp only [splitItems, c1, c2, if_true, Bool.false_eq_true, if_false]
      rw [s1]
      refine ⟨rfl, ?_, ?_⟩
      · simp [readAll, r1]
      · simp only [List.map_cons, List.map_nil, Option.isSome_some, if_true]
        decide +kernel
  obtain ⟨c0, c1, c2⟩ := case_branches bs hb2 (elseItems els) _ _ htail.1 htail.2.1 htail.2.2
  have hcase : readCase (bs.flatMap (fun b => branchItems b.items b.label) ++ elseItems els) = some (.call (caseName ws.length els.isSome)
      (SExp.ofList ((ws.zip es).flatMap (fun p => [p.2, .str p.1.2]) ++ (els.map SExp.str).toList))) := by
    simp only [readCase, c0, if_true, c1, c2, Option.map_some, hb3, hb4, caseName, List.append_assoc]
  have hparts : readParts [] [] [] (exprTokens (caseOf ws els)) = some [.done (.call (caseName ws.length els.isSome)
      (SExp.ofList ((ws.zip es).flatMap (fun p => [p.2, .str p.1.2]) ++ (els.map SExp.str).toList)))] := by
    rw [htoks]
    simp only [readParts, if_pos w0]
    obtain ⟨s1, hs1⟩ := read_branches ws bs hb1 [⟨true, [], []⟩] [] [.word "case".toList] (elseToks els ++ [.word "end".toList])
    rw [hs1, List.nil_append]
    have : ∃ s2, readParts [⟨true, [], []⟩] (bs.flatMap (fun b => branchItems b.items b.label)) s1 (elseToks els ++ [.word "end".toList]) =
        readParts [⟨true, [], []⟩] (bs.flatMap (fun b => branchItems b.items b.label) ++ elseItems els) s2 [.word "end".toList] := by
      cases els with
      | none => exact ⟨s1, by simp [elseToks, elseItems]⟩
      | some l =>
        refine ⟨s1 ++ [.word "else".toList] ++ [.str l], ?_⟩
        show readParts _ _ _ (.word "else".toList :: .str l :: [.word "end".toList]) = _
        simp only [readParts, if_neg welse.1, if_neg welse.2, elseItems, List.append_assoc, List.cons_append, List.nil_append]
    obtain ⟨s2, hs2⟩ := this
    rw [hs2]
    simp only [readParts, if_neg wend.1, if_pos wend.2, closeCase, hcase, List.nil_append, List.isEmpty_nil, if_true]
  constructor
  · unfold readText readTokens
    rw [hparts]
    simp [readOne, operands, plainWord, noTwo, signs, byPrecedence, binLevel, cmpLevel, preLevel, splitAtOps, leftOps, oneOperand]
  · unfold aloneText
    rw [hparts]
    have hends : noSymEnds (caseOf ws els) = true := by
      have hl : (caseOf ws els).getLast? = some 'd' := by
        unfold caseOf
        rw [List.getLast?_append]
        rfl
      have hh : (caseOf ws els).head? = some 'c' := by
        unfold caseOf
        simp
      simp only [noSymEnds, hl, hh, Option.map_some]
      decide +kernel
    simp [operands, plainWord, hends, caseWord]

/-! ### Values -/

theorem value_args {D : Type} (I : Interp D) (env : List Char → D) (es : List SExp) :
    (SExp.ofList es).value I env = argValues I (es.map (fun e => e.value I env)) := by
  induction es with
  | nil => rfl
  | cons e es ih => simp [SExp.ofList, SExp.value, argValues, ih]

theorem case_value {D : Type} (I : Interp D) (true? : D → Bool) (null : D) (hk : KnowsCase I true? null) (env : List Char → D)
    (cs : List (SExp × List Char)) (els : Option (List Char)) :
    (SExp.call (caseName cs.length els.isSome) (SExp.ofList (cs.flatMap (fun c => [c.1, .str c.2]) ++ (els.map SExp.str).toList))).value I env =
      match firstLabel (fun e => true? (e.value I env)) cs els with
      | some l => I.str l
      | none => null := by
  have h := hk (cs.map (fun c => (c.1.value I env, I.str c.2))) (els.map I.str)
  rw [List.length_map, Option.isSome_map] at h
  simp only [SExp.value, value_args]
  have e1 : (cs.flatMap (fun c => [c.1, SExp.str c.2]) ++ (els.map SExp.str).toList).map (fun e => e.value I env) =
      (cs.map (fun c => (c.1.value I env, I.str c.2))).flatMap (fun b => [b.1, b.2]) ++ (els.map I.str).toList := by
    rw [List.map_append, List.map_flatMap, List.flatMap_map]
    congr 1
    cases els <;> rfl
  rw [e1, h, List.find?_map]
  unfold firstLabel
  have e2 : ((fun b : D × D => true? b.1) ∘ fun c : SExp × List Char => (c.1.value I env, I.str c.2)) = fun c => true? (c.1.value I env) := rfl
  rw [e2]
  cases cs.find? (fun c => true? (c.1.value I env)) with
  | some c => rfl
  | none => cases els <;> rfl

theorem singleQuotes_spec (s : List Char) : singleQuotes s = asStrings s := by
  induction s with
  | nil => rfl
  | cons c s ih =>
    unfold singleQuotes at ih ⊢
    by_cases hc : c = '"'
    · subst hc
      simp only [List.map_cons, if_true, asStrings, ih]
    · rw [List.map_cons, if_neg hc, ih, asStrings]
      exact hc

/-- C77: a dimension with `case` gives each row the label of the first of its cases that is true of the row; without such a case the label of `else`, or NULL if
there is none. Its SQL is one operand wherever the dimension is used. -/
theorem C77_case {D : Type} (I : Interp D) (true? : D → Bool) (null : D) (hk : KnowsCase I true? null) (env : List Char → D) (c : CaseDef)
    (ws : List WhenDef) (hws : c.whens = some ws) (cases : List (SExp × List Char))
    (h : List.Forall₂ (fun w k => ∃ s, w.sql = some s ∧ condText (asStrings s) = some k.1 ∧ w.label = some k.2 ∧ '\'' ∉ k.2) ws cases)
    (others : Option (List Char)) (hothers : others = match c.els with | some [] => none | x => x) (hq : ∀ l, others = some l → '\'' ∉ l) :
    ∃ t e, caseSql c = .ok t ∧ readText t = some e ∧ aloneText t = some e ∧
      e.value I env = match firstLabel (fun k => true? (k.value I env)) cases others with
        | some l => I.str l
        | none => null := by
  have key : ∃ qs : List (List Char × List Char),
      whensText ws = .ok (qs.flatMap (fun w => branchText w.1 w.2)) ∧
      List.Forall₂ (fun w e => condText w.1 = some e ∧ '\'' ∉ w.2) qs (cases.map (·.1)) ∧
      (qs.zip (cases.map (·.1))).flatMap (fun p => [p.2, SExp.str p.1.2]) = cases.flatMap (fun c => [c.1, .str c.2]) ∧ qs.length = cases.length := by
    clear hws
    induction h with
    | nil => exact ⟨[], by simp only [whensText, List.flatMap_nil], .nil, rfl, rfl⟩
    | @cons w k ws ks hw _ ih =>
      obtain ⟨s, h1, h2, h3, h4⟩ := hw
      obtain ⟨qs, i1, i2, i3, i4⟩ := ih
      have j1 : whensText (w :: ws) = .ok (((asStrings s, k.2) :: qs).flatMap (fun w => branchText w.1 w.2)) := by
        have j0 : ∀ t, whensText ws = .ok t → whensText (w :: ws) = .ok (whenText s k.2 ++ t) := by
          intro t ht
          simp only [whensText, h1, h3, ht]
        rw [List.flatMap_cons, j0 _ i1, ← singleQuotes_spec]
        rfl
      have j2 : List.Forall₂ (fun w e => condText w.1 = some e ∧ '\'' ∉ w.2) ((asStrings s, k.2) :: qs) ((k :: ks).map (·.1)) := by
        rw [List.map_cons]
        exact List.Forall₂.cons ⟨h2, h4⟩ i2
      have j3 : (((asStrings s, k.2) :: qs).zip ((k :: ks).map (·.1))).flatMap (fun p => [p.2, SExp.str p.1.2]) =
          (k :: ks).flatMap (fun c => [c.1, .str c.2]) := by
        rw [List.map_cons, List.zip_cons_cons, List.flatMap_cons, List.flatMap_cons, i3]
      exact ⟨(asStrings s, k.2) :: qs, j1, j2, j3, by rw [List.length_cons, List.length_cons, i4]⟩
  obtain ⟨qs, h1, h2, h3, h4⟩ := key
  have hr := read_case qs _ h2 others hq
  rw [h3, h4] at hr
  have ht : caseSql c = .ok (caseOf qs others) := by
    simp only [caseSql, hws, h1]
    have : (if (c.els.getD []).isEmpty then [] else "else '".toList ++ c.els.getD [] ++ "' ".toList) = elseText others := by
      rw [hothers]
      cases c.els with
      | none => rfl
      | some l => cases l <;> rfl
    rw [this]
    rfl
  exact ⟨_, _, ht, hr.1, hr.2, case_value I true? null hk env cases others⟩

/-- C77: what is refused: a `case` without `whens`, and an entry without `sql` or `label`. -/
theorem C77_refused (c : CaseDef) : caseSql c = .error .keyError ↔ c.whens = none ∨ ∃ ws, c.whens = some ws ∧ ∃ w ∈ ws, w.sql = none ∨ w.label = none := by
  have key : ∀ ws : List WhenDef, (whensText ws = .error .keyError ↔ ∃ w ∈ ws, w.sql = none ∨ w.label = none) ∧
      (∀ e, whensText ws = .error e → e = .keyError) := by
    intro ws
    induction ws with
    | nil => simp [whensText]
    | cons w ws ih =>
      simp only [whensText, List.mem_cons, exists_eq_or_imp]
      cases hs : w.sql with
      | none => simp
      | some s =>
        cases hl : w.label with
        | none => simp
        | some l =>
          cases ht : whensText ws with
          | error er =>
            have := ih.2 er ht
            subst this
            simp [ih.1.mp ht]
          | ok t =>
            simp only [reduceCtorEq, false_or, false_iff, IsEmpty.forall_iff, implies_true, and_true]
            intro hx
            have := ih.1.mpr hx
            rw [ht] at this
            cases this
  unfold caseSql
  cases hw : c.whens with
  | none => simp
  | some ws =>
    cases ht : whensText ws with
    | error er =>
      have := (key ws).2 er ht
      subst this
      simp only [ht, true_iff]
      exact .inr ⟨ws, rfl, (key ws).1.mp ht⟩
    | ok t =>
      simp only [ht, reduceCtorEq, false_or, Option.some.injEq, false_iff]
      rintro ⟨ws', rfl, hx⟩
      have := (key ws).1.mpr hx
      rw [ht] at this
      cases this

/-! ### Tiers -/

/-- The expression of a condition with references (for the proofs; it models no file in /repo). -/
def condPieces (ps : List Piece) : Option SExp :=
  match readParts [] [] [] (pieceTokens .idle ps) with
  | none => none
  | some is => if is = [] ∨ .comma ∈ is ∨ is.any caseWord = true then none else readOne is

theorem cond_fill (ps : List Piece) (E : SExp) (hE : condPieces ps = some E) (v : List Char → List Char)
    (σ : List Char → SExp) (hv : ∀ n ∈ refNames ps, aloneText (v n) = some (σ n)) : condText (fill v ps) = some (E.subst σ) := by
  unfold condPieces at hE
  cases hp : readParts [] [] [] (pieceTokens .idle ps) with
  | none => rw [hp] at hE; cases hE
  | some is =>
    rw [hp] at hE
    simp only at hE
    split_ifs at hE with hn
    obtain ⟨J, hJ, h1, _⟩ := parts_fill ps is hp v σ hv
    rw [not_or, not_or] at hn
    obtain ⟨n1, n2, n3⟩ := hn
    unfold condText
    rw [h1]
    simp only
    rw [if_neg, readOne_subst hJ is E hE]
    rw [not_or, not_or]
    refine ⟨fun h' => n1 ((items_nil hJ is).mp h'), noComma_subst hJ is n2, ?_⟩
    simp only [List.any_eq_true, not_exists, not_and, Bool.not_eq_true] at n3
    simp only [List.any_eq_true, List.mem_flatMap, not_exists, not_and, Bool.not_eq_true]
    rintro i ⟨j, hj, hi⟩
    have := n3 j hj
    cases j with
    | ref n => exact (hJ n).noCase i hi
    | word w => simp only [itemSubst, List.mem_singleton] at hi; rw [hi]; exact this
    | _ => simp only [itemSubst, List.mem_singleton] at hi; rw [hi]; rfl

/-- A minus in front or not (for the proofs; it models no file in /repo). -/
def signed (neg : Bool) (e : SExp) : SExp := if neg then .un "neg".toList e else e

/-- The sign (for the proofs; it models no file in /repo). -/
def signText (neg : Bool) : List Char := if neg then ['-'] else []

/-- The names of the template (for the proofs; it models no file in /repo). -/
def tierVal (sql a b : List Char) : List Char → List Char := fun n => if n = ['x'] then sql else if n = ['a'] then a else b

/-- Their expressions (for the proofs; it models no file in /repo). -/
def tierExp (x a b : SExp) : List Char → SExp := fun n => if n = ['x'] then x else if n = ['a'] then a else b

theorem cond_less {sql b : List Char} {x e : SExp} (neg : Bool) (hx : aloneText sql = some x) (hb : aloneText b = some e) :
    condText (sql ++ " < ".toList ++ (signText neg ++ b)) = some (.bin "<".toList x (signed neg e)) := by
  have h := cond_fill [.ref ['x'], .lit " < ".toList, .lit (signText neg), .ref ['b']] (.bin ['<'] (.ref ['x']) (signed neg (.ref ['b'])))
    (by cases neg <;> decide +kernel) (tierVal sql b b) (tierExp x e e) (by
      intro n hn
      simp only [refNames, List.mem_cons, List.not_mem_nil, or_false] at hn
      rcases hn with rfl | rfl
      · exact hx
      · exact hb)
  cases neg <;> simpa [fill, tierVal, tierExp, SExp.subst, signed, signText] using h

theorem cond_atLeast {sql b : List Char} {x e : SExp} (neg : Bool) (hx : aloneText sql = some x) (hb : aloneText b = some e) :
    condText (sql ++ " >= ".toList ++ (signText neg ++ b)) = some (.bin ">=".toList x (signed neg e)) := by
  have h := cond_fill [.ref ['x'], .lit " >= ".toList, .lit (signText neg), .ref ['b']] (.bin ['>', '='] (.ref ['x']) (signed neg (.ref ['b'])))
    (by cases neg <;> decide +kernel) (tierVal sql b b) (tierExp x e e) (by
      intro n hn
      simp only [refNames, List.mem_cons, List.not_mem_nil, or_false] at hn
      rcases hn with rfl | rfl
      · exact hx
      · exact hb)
  cases neg <;> simpa [fill, tierVal, tierExp, SExp.subst, signed, signText] using h

theorem cond_between {sql a b : List Char} {x e e' : SExp} (neg neg' : Bool) (hx : aloneText sql = some x) (ha : aloneText a = some e)
    (hb : aloneText b = some e') :
    condText (sql ++ " >= ".toList ++ (signText neg ++ a) ++ " and ".toList ++ sql ++ " < ".toList ++ (signText neg' ++ b)) =
      some (.bin "and".toList (.bin ">=".toList x (signed neg e)) (.bin "<".toList x (signed neg' e'))) := by
  have h := cond_fill [.ref ['x'], .lit " >= ".toList, .lit (signText neg), .ref ['a'], .lit " and ".toList, .ref ['x'], .lit " < ".toList,
      .lit (signText neg'), .ref ['b']]
    (.bin "and".toList (.bin ['>', '='] (.ref ['x']) (signed neg (.ref ['a']))) (.bin ['<'] (.ref ['x']) (signed neg' (.ref ['b']))))
    (by cases neg <;> cases neg' <;> decide +kernel) (tierVal sql a b) (tierExp x e e') (by
      intro n hn
      simp only [refNames, List.mem_cons, List.not_mem_nil, or_false] at hn
      rcases hn with rfl | rfl | rfl | rfl
      · exact hx
      · exact ha
      · exact hx
      · exact hb)
  cases neg <;> cases neg' <;> simpa [fill, tierVal, tierExp, SExp.subst, signed, signText] using h

/-- The condition of a tier (for the proofs; it models no file in /repo). -/
def tierCond (num : ℚ → String) (sql : List Char) : TierWhen → List Char
  | .below b => sql ++ " < ".toList ++ (num b).toList
  | .between a b => sql ++ " >= ".toList ++ (num a).toList ++ " and ".toList ++ sql ++ " < ".toList ++ (num b).toList
  | .atLeast a => sql ++ " >= ".toList ++ (num a).toList

/-- The condition of a tier, as a string (for the proofs; it models no file in /repo). -/
def tierCondS (num : ℚ → String) (sql : String) : TierWhen → String
  | .below b => sql ++ " < " ++ num b
  | .between a b => sql ++ " >= " ++ num a ++ " and " ++ sql ++ " < " ++ num b
  | .atLeast a => sql ++ " >= " ++ num a

theorem tier_condS (num : ℚ → String) (sql : String) (w : TierWhen) :
    w.text num sql = "when " ++ tierCondS num sql w ++ " then '" ++ tierLabel num w ++ "' " := by
  have e1 : " then 'Below " = " then '" ++ "Below " := by decide +kernel
  have e2 : " then '[" = " then '" ++ "[" := by decide +kernel
  have e3 : ")' " = ")" ++ "' " := by decide +kernel
  have e4 : ",inf)' " = ",inf)" ++ "' " := by decide +kernel
  cases w with
  | below b =>
    unfold TierWhen.text tierLabel tierCondS
    rw [e1]
    simp only [String.append_assoc]
  | between a b =>
    unfold TierWhen.text tierLabel tierCondS
    rw [e2, e3]
    simp only [String.append_assoc]
  | atLeast a =>
    unfold TierWhen.text tierLabel tierCondS
    rw [e2, e4]
    simp only [String.append_assoc]

theorem tier_condS_toList (num : ℚ → String) (sql : List Char) (w : TierWhen) : (tierCondS num (String.ofList sql) w).toList = tierCond num sql w := by
  cases w <;> unfold tierCondS tierCond <;> simp only [String.toList_append, String.toList_ofList]

theorem tier_branch (num : ℚ → String) (sql : List Char) (w : TierWhen) :
    (w.text num (String.ofList sql)).toList = branchText (tierCond num sql w) (tierLabel num w).toList := by
  rw [tier_condS]
  unfold branchText
  simp only [String.toList_append, tier_condS_toList]

theorem tier_text (num : ℚ → String) (sql : List Char) (ws : List TierWhen) :
    (tierText num (String.ofList sql) ws).toList =
      caseOf (ws.map (fun w => (tierCond num sql w, (tierLabel num w).toList))) (some "Unknown".toList) := by
  have e1 : "else 'Unknown' end".toList = elseText (some "Unknown".toList) ++ "end".toList := by decide +kernel
  have e2 : ∀ l : List String, (String.join l).toList = l.flatMap String.toList := by
    intro l
    simp [String.join_eq, List.flatMap]
  simp only [tierText, caseOf, String.toList_append, e1, e2, List.flatMap_map, tier_branch, List.append_assoc]

theorem written_parts {D : Type} {I : Interp D} {env : List Char → D} {number : D → Option ℚ} {t : List Char} {q : ℚ}
    (h : WrittenNumber I env number t q) :
    ∃ neg r e, t = signText neg ++ r ∧ aloneText r = some e ∧ number ((signed neg e).value I env) = some q := by
  rcases h with ⟨e, h1, h2⟩ | ⟨r, e, h1, h2, h3⟩
  · exact ⟨false, t, e, rfl, h1, h2⟩
  · exact ⟨true, r, e, h1, h2, h3⟩

theorem buckets_bounds (l : List ℚ) : ∀ w ∈ tierBuckets l, ∀ q ∈ boundsOf w, q ∈ l := by
  induction l with
  | nil => simp [tierBuckets]
  | cons a r ih =>
    cases r with
    | nil => simp [tierBuckets]
    | cons b r =>
      intro w hw q hq
      rcases List.mem_cons.mp (by simpa only [tierBuckets] using hw) with rfl | hw
      · simp only [boundsOf, List.mem_cons, List.not_mem_nil, or_false] at hq
        rcases hq with rfl | rfl <;> simp
      · exact List.mem_cons_of_mem _ (ih w hw q hq)

theorem tier_bounds {tiers : List ℚ} {whens : List TierWhen} (h : tierCase tiers = .ok whens) : ∀ w ∈ whens, ∀ q ∈ boundsOf w, q ∈ tiers := by
  unfold tierCase at h
  cases h1 : tiers.head? with
  | none => simp [h1] at h
  | some a =>
    cases h2 : tiers.getLast? with
    | none => simp [h1, h2] at h
    | some b =>
      rw [h1, h2] at h
      injection h with h
      subst h
      intro w hw q hq
      simp only [List.cons_append, List.mem_cons, List.mem_append, List.not_mem_nil, or_false] at hw
      rcases hw with rfl | hw | rfl
      · simp only [boundsOf, List.mem_cons, List.not_mem_nil, or_false] at hq
        subst hq
        exact List.mem_of_mem_head? h1
      · exact buckets_bounds tiers w hw q hq
      · simp only [boundsOf, List.mem_cons, List.not_mem_nil, or_false] at hq
        subst hq
        exact List.mem_of_getLast? h2

theorem tier_cond_value {D : Type} (I : Interp D) (true? : D → Bool) (number : D → Option ℚ) (hn : KnowsNumbers I true? number) (env : List Char → D)
    (num : ℚ → String) (sql : List Char) (x : SExp) (hx : aloneText sql = some x) (w : TierWhen)
    (hw : ∀ q ∈ boundsOf w, WrittenNumber I env number (num q).toList q) :
    ∃ e, condText (tierCond num sql w) = some e ∧ true? (e.value I env) = w.holds (number (x.value I env)) := by
  cases w with
  | below b =>
    obtain ⟨neg, r, e, h1, h2, h3⟩ := written_parts (hw b (by simp [boundsOf]))
    refine ⟨_, by unfold tierCond; dsimp only; rw [h1]; exact cond_less neg hx h2, ?_⟩
    simp only [SExp.value]
    rw [hn.less, h3]
    cases number (x.value I env) <;> rfl
  | between a b =>
    obtain ⟨neg, r, e, h1, h2, h3⟩ := written_parts (hw a (by simp [boundsOf]))
    obtain ⟨neg', r', e', h1', h2', h3'⟩ := written_parts (hw b (by simp [boundsOf]))
    refine ⟨_, by unfold tierCond; dsimp only; rw [h1, h1']; exact cond_between neg neg' hx h2 h2', ?_⟩
    simp only [SExp.value]
    rw [hn.both, hn.less, hn.atLeast, h3, h3']
    cases number (x.value I env) <;> rfl
  | atLeast a =>
    obtain ⟨neg, r, e, h1, h2, h3⟩ := written_parts (hw a (by simp [boundsOf]))
    refine ⟨_, by unfold tierCond; dsimp only; rw [h1]; exact cond_atLeast neg hx h2, ?_⟩
    simp only [SExp.value]
    rw [hn.atLeast, h3]
    cases number (x.value I env) <;> rfl

theorem tier_label_quotes (num : ℚ → String) (w : TierWhen) (h : ∀ q ∈ boundsOf w, '\'' ∉ (num q).toList) : '\'' ∉ (tierLabel num w).toList := by
  have e1 : '\'' ∉ "Below ".toList := by decide +kernel
  have e2 : '\'' ∉ "[".toList := by decide +kernel
  have e3 : '\'' ∉ ",".toList := by decide +kernel
  have e4 : '\'' ∉ ")".toList := by decide +kernel
  have e5 : '\'' ∉ ",inf)".toList := by decide +kernel
  cases w with
  | below b =>
    have := h b (by simp [boundsOf])
    unfold tierLabel
    simp only [String.toList_append, List.mem_append, e1, this, or_self, not_false_eq_true]
  | between a b =>
    have k1 := h a (by simp [boundsOf])
    have k2 := h b (by simp [boundsOf])
    unfold tierLabel
    simp only [String.toList_append, List.mem_append, e2, e3, e4, k1, k2, or_self, not_false_eq_true]
  | atLeast a =>
    have := h a (by simp [boundsOf])
    unfold tierLabel
    simp only [String.toList_append, List.mem_append, e2, e5, this, or_self, not_false_eq_true]

/-- The text of tiers is read as CASE, its value the label of the tier. -/
theorem tier_value {D : Type} (I : Interp D) (true? : D → Bool) (null : D) (hk : KnowsCase I true? null) (number : D → Option ℚ)
    (hn : KnowsNumbers I true? number) (env : List Char → D) (num : ℚ → String) (sql : List Char) (x : SExp) (hx : aloneText sql = some x)
    (whens : List TierWhen) (hw : ∀ w ∈ whens, ∀ q ∈ boundsOf w, WrittenNumber I env number (num q).toList q ∧ '\'' ∉ (num q).toList) :
    ∃ e, readText (tierText num (String.ofList sql) whens).toList = some e ∧ aloneText (tierText num (String.ofList sql) whens).toList = some e ∧
      e.value I env = I.str (match tierOf whens (number (x.value I env)) with | some w => (tierLabel num w).toList | none => "Unknown".toList) := by
  have key : ∃ cs : List (SExp × List Char),
      List.Forall₂ (fun (w : List Char × List Char) e => condText w.1 = some e ∧ '\'' ∉ w.2)
        (whens.map (fun w => (tierCond num sql w, (tierLabel num w).toList))) (cs.map (·.1)) ∧
      ((whens.map (fun w => (tierCond num sql w, (tierLabel num w).toList))).zip (cs.map (·.1))).flatMap (fun p => [p.2, SExp.str p.1.2]) =
        cs.flatMap (fun c => [c.1, .str c.2]) ∧ cs.length = whens.length ∧
      (cs.find? (fun c => true? (c.1.value I env))).map (·.2) = (tierOf whens (number (x.value I env))).map (fun w => (tierLabel num w).toList) := by
    induction whens with
    | nil => exact ⟨[], .nil, rfl, rfl, rfl⟩
    | cons w ws ih =>
      obtain ⟨cs, i1, i2, i3, i4⟩ := ih (fun v hv => hw v (List.mem_cons_of_mem _ hv))
      obtain ⟨e, h1, h2⟩ := tier_cond_value I true? number hn env num sql x hx w (fun q hq => (hw w (by simp) q hq).1)
      refine ⟨(e, (tierLabel num w).toList) :: cs, .cons ⟨h1, tier_label_quotes num w (fun q hq => (hw w (by simp) q hq).2)⟩ i1, ?_, by simp [i3], ?_⟩
      · simp only [List.map_cons, List.zip_cons_cons, List.flatMap_cons]
        rw [i2]
      · unfold tierOf at i4 ⊢
        rw [List.find?_cons, List.find?_cons]
        simp only [h2]
        cases w.holds (number (x.value I env))
        · exact i4
        · rfl
  obtain ⟨cs, k1, k2, k3, k4⟩ := key
  obtain ⟨r1, r2⟩ := read_case _ _ k1 (some "Unknown".toList) (by intro l hl; injection hl with hl; rw [← hl]; decide +kernel)
  rw [tier_text]
  refine ⟨_, r1, r2, ?_⟩
  rw [k2, List.length_map, ← k3]
  rw [case_value I true? null hk env cs (some "Unknown".toList)]
  unfold firstLabel
  cases hf : cs.find? (fun c => true? (c.1.value I env)) with
  | none =>
    rw [hf] at k4
    cases ht : tierOf whens (number (x.value I env)) with
    | none => rfl
    | some w => rw [ht] at k4; cases k4
  | some c =>
    rw [hf] at k4
    cases ht : tierOf whens (number (x.value I env)) with
    | none => rw [ht] at k4; cases k4
    | some w => rw [ht] at k4; simp only [Option.map_some] at k4; injection k4 with k4; simp only [k4]

/-- C77: a dimension of type tier gives each row the label of the tier its number lies in, and 'Unknown' if it is NULL or no number. Its SQL is one operand wherever the
dimension is used. What is missing: an `sql` that is several operands, which is taken apart (`C77_tier_taken_apart`). -/
theorem C77_tier_partial {D : Type} (I : Interp D) (true? : D → Bool) (null : D) (hk : KnowsCase I true? null) (number : D → Option ℚ)
    (hn : KnowsNumbers I true? number) (env : List Char → D) (num : ℚ → String) (d : DimDef) (sql : List Char) (x : SExp) (tiers : List ℚ)
    (hs : d.sql = some sql) (hx : aloneText sql = some x) (ht : d.type = "tier") (htiers : d.tiers = some tiers) (hne : tiers ≠ [])
    (hw : ∀ q ∈ tiers, WrittenNumber I env number (num q).toList q ∧ '\'' ∉ (num q).toList) :
    ∃ t e, dimSql num d = .ok (some t) ∧ readText t = some e ∧ aloneText t = some e ∧
      (∀ q, number (x.value I env) = some q →
        ∃ w, InTier w q ∧ (∀ b ∈ boundsOf w, b ∈ tiers) ∧ e.value I env = I.str (tierLabel num w).toList) ∧
      (number (x.value I env) = none → e.value I env = I.str "Unknown".toList) := by
  obtain ⟨whens, h1, h2⟩ := C31_total tiers hne
  obtain ⟨e, r1, r2, r3⟩ := tier_value I true? null hk number hn env num sql x hx whens
    (fun w hwm q hq => hw q (tier_bounds h1 w hwm q hq))
  refine ⟨_, e, ?_, r1, r2, ?_, ?_⟩
  · have hy : ¬ d.type = "yesno" := by rw [ht]; decide +kernel
    unfold dimSql
    simp only [hs, htiers, ht, if_true, h1, Except.map]
    rw [if_neg (by decide +kernel)]
  · intro q hq
    obtain ⟨w, k1, k2⟩ := h2 q
    refine ⟨w, k2, tier_bounds h1 w (List.mem_of_find?_eq_some k1), ?_⟩
    rw [r3, hq, k1]
  · intro hnone
    rw [r3, hnone, C31_null tiers whens h1]

end ML
