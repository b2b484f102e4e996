import Verif.SqlText.Read
import Verif.SqlText.AsText
/-
The parts `get_query` hands to the builder, as they are read.
-/
set_option autoImplicit false
namespace ML
open Spec

/-- A text with these tokens, which keep to their place. -/
def Has (a : List Char) (ta : List SqlTok) : Prop := tokens a = some ta ∧ plain ta = true

theorem Has.keeps {a : List Char} {ta : List SqlTok} (h : Has a ta) : Keeps a ∧ toks a = ta := by
  have e : toks a = ta := by simp [toks, h.1]
  exact ⟨⟨by rw [h.1]; simp, by rw [e]; exact h.2⟩, e⟩

theorem has_of_keeps {a : List Char} (h : Keeps a) : Has a (toks a) := ⟨toks_of h.1, h.2⟩

theorem has_space {a b : List Char} {ta tb : List SqlTok} (ha : Has a ta) (hb : Has b tb) : Has (a ++ ' ' :: b) (ta ++ tb) :=
  ⟨tokens_space ha.1 hb.1, plain_append ha.2 hb.2⟩

theorem has_word (s : String) (h1 : tokens s.toList = some [kw s]) (h2 : plain [kw s] = true) : Has s.toList [kw s] := ⟨h1, h2⟩

theorem plain_group (s : List Char) : plain [SqlTok.group s] = true := by
  simp [plain, startsClause, clauseWord, clauseOf, dangling, isSemicolon]

theorem noComma_iff {ts : List SqlTok} : ts.all (fun t => !isComma t) = true ↔ ∀ t ∈ ts, isComma t = false := by
  simp

/-! ### Columns -/

theorem column_has (c : List Char × List Char) (h1 : OneItem c.1) (h2 : OneItem c.2) :
    OneItem (aliasedColumn c) ∧ toks (aliasedColumn c) = toks c.1 ++ .word "as".toList :: toks c.2 := by
  have h := has_space (has_of_keeps h1.1) (has_space (has_word "as" (by decide +kernel) (by decide +kernel)) (has_of_keeps h2.1))
  have e : aliasedColumn c = c.1 ++ ' ' :: ("as".toList ++ ' ' :: c.2) := by simp [aliasedColumn]
  rw [← e] at h
  obtain ⟨hk, ht⟩ := h.keeps
  refine ⟨⟨hk, ?_⟩, ?_⟩
  · rw [ht, noComma_iff]
    intro t ht'
    simp only [List.mem_append, List.mem_cons, List.not_mem_nil, or_false] at ht'
    rcases ht' with ht' | rfl | ht'
    · exact noComma_iff.mp h1.2 t ht'
    · decide +kernel
    · exact noComma_iff.mp h2.2 t ht'
  · rw [ht]
    rfl

theorem readTop_none {ts : List SqlTok} (h : (readTop ts).1 = none) : readTop ts = (none, ts) := by
  unfold readTop at h ⊢
  split at h
  · split_ifs at h ⊢
    rfl
  · rfl

theorem readTop_as (a b : List SqlTok) (h : (readTop a).1 = none) :
    readTop (a ++ .word "as".toList :: b) = (none, a ++ .word "as".toList :: b) := by
  have h := readTop_none h
  match a with
  | [] =>
    have : isTop (SqlTok.word "as".toList) = false := by decide +kernel
    cases b with
    | nil => rfl
    | cons u r =>
      cases u with
      | group n =>
        simp only [List.nil_append, readTop, this]
        rfl
      | _ => rfl
  | [t] => rfl
  | t :: u :: r' =>
    cases u with
    | group n =>
      simp only [readTop] at h
      simp only [List.cons_append, readTop]
      by_cases ht : isTop t = true
      · rw [if_pos ht] at h
        cases h
      · rw [if_neg ht]
    | _ => rfl

theorem dedup_firsts (cols : List (List Char × List Char)) (h : ∀ c ∈ cols, NoAsEnd c.1 ∧ ' ' ∉ c.2) (seen : List (List Char)) :
    dedupColumns seen (cols.map aliasedColumn) = ((firsts cols).filter (fun c => c.2 ∉ seen)).map aliasedColumn := by
  induction cols generalizing seen with
  | nil => rfl
  | cons c r ih =>
    have hc := h c (by simp)
    have ih := ih (fun d hd => h d (by simp [hd]))
    simp only [List.map_cons, dedupColumns, afterLastAs_column c hc.1 hc.2, firsts, List.filter_cons]
    by_cases hm : c.2 ∈ seen
    · simp only [hm, if_true, not_true_eq_false, decide_false, Bool.false_eq_true, if_false]
      rw [ih, List.filter_filter]
      congr 1
      apply List.filter_congr
      intro d _
      simp only [Bool.and_eq_decide, decide_eq_decide, decide_eq_true_eq]
      constructor
      · intro hd
        exact ⟨hd, fun e => hd (e ▸ hm)⟩
      · exact fun hd => hd.1
    · simp only [hm, if_false, not_false_eq_true, decide_true, if_true, List.map_cons]
      rw [ih, List.filter_filter]
      congr 2
      apply List.filter_congr
      intro d _
      simp only [Bool.and_eq_decide, decide_eq_decide, decide_eq_true_eq, List.mem_cons, not_or]
      exact and_comm

theorem firsts_sub (cols : List (List Char × List Char)) : ∀ c ∈ firsts cols, c ∈ cols := by
  induction cols with
  | nil => simp [firsts]
  | cons c r ih =>
    intro d hd
    rcases List.mem_cons.mp hd with rfl | hd
    · simp
    · exact List.mem_cons_of_mem _ (ih d (List.mem_of_mem_filter hd))

theorem firsts_ne {cols : List (List Char × List Char)} (h : cols ≠ []) : firsts cols ≠ [] := by
  cases cols with
  | nil => exact absurd rfl h
  | cons c r => simp [firsts]

/-- The columns selected: with their names, each name once if nothing is grouped. -/
theorem textSelect_eq (q : TextQuery) (exprs : List (List Char)) (h : WellWritten q exprs) :
    textSelect q = (if q.noGroup then firsts q.rawColumns else q.columns).map aliasedColumn ++ q.raw := by
  unfold textSelect
  split_ifs
  · rw [dedup_firsts q.rawColumns (fun c hc => (h.columns c (Or.inr hc)).2.2.2)]
    simp
  · rfl

/-! ### Raw columns -/

theorem stripAlias_raw {r e : List Char} (h : RawColumn r e) : stripAlias r = e := by
  cases h with
  | bare _ h =>
    apply stripAlias_bare
    cases hf : findAs 0 r with
    | nil => rfl
    | cons m ms =>
      exfalso
      obtain ⟨h1, h2⟩ := findAs_infix r 0 m (by rw [hf]; simp)
      apply h
      rw [← asLit, ← h2]
      exact h1.map Char.toLower
  | named _ m a hm he ha h =>
    rw [List.append_assoc]
    have hup : [' ', 'A', 'S', ' '] = " AS ".toList := by decide +kernel
    refine stripAlias_named m (asSep_of_lower (by rw [hm, asLit])) e a he ha ?_ ?_
    · intro x hx
      obtain ⟨h1, h2⟩ := findAs_infix e 0 x hx
      rw [← hup]
      exact h x h1 (by rw [h2, asLit])
    · by_cases hi : m <:+: e
      · left
        rw [← hup]
        exact h m hi hm
      · exact Or.inr hi

theorem map_stripAlias {rs es : List (List Char)} (h : List.Forall₂ RawColumn rs es) : rs.map stripAlias = es := by
  induction h with
  | nil => rfl
  | cons h1 _ ih => simp [stripAlias_raw h1, ih]

/-! ### Tables and filters -/

theorem table_has (t : TableRef) (h : TableKeeps t) : Has t.text (tableToks t) := by
  cases t with
  | table name label => exact has_space (has_of_keeps h.1) (has_of_keeps h.2)
  | derived sql name =>
    have hn := has_space (has_word "as" (by decide +kernel) (by decide +kernel)) (has_of_keeps h.2)
    have hs := tokens_space (show tokens [] = some [] from rfl) hn.1
    have hg := tokens_group h.1 hs
    refine ⟨?_, ?_⟩
    · have e : (TableRef.derived sql name).text = '(' :: sql ++ ')' :: ([] ++ ' ' :: ("as".toList ++ ' ' :: name)) := by
        simp [TableRef.text]
      rw [e, hg]
      rfl
    · exact plain_append (plain_group sql) hn.2

theorem natText_digits (n : ℕ) : ∀ c ∈ natText n, wordChar c = true := by
  intro c hc
  unfold natText at hc
  rw [Nat.toString_eq_repr, Nat.toList_repr] at hc
  have := Nat.isDigit_of_mem_toDigits (b := 10) (by decide) (by decide) hc
  simp [wordChar, Char.isAlphanum, this]

theorem filterName_has (i : ℕ) : Has (entityName i) [.word (filterName i)] := by
  have hw : ∀ c ∈ "filter_subquery_".toList, wordChar c = true := by decide +kernel
  refine ⟨tokens_words (by unfold entityName; simp) ?_, ?_⟩
  · intro c hc
    rcases List.mem_append.mp hc with h | h
    · exact hw c h
    · exact natText_digits i c h
  · have hk : ∀ k : List Char, k.length < 16 → (filterName i).map Char.toLower ≠ k := by
      intro k hk e
      have := congrArg List.length e
      unfold filterName at this
      simp at this
      omega
    have hcw : clauseWord (.word (filterName i)) = none := by
      simp only [clauseWord, hk "select".toList (by decide +kernel), hk "from".toList (by decide +kernel), hk "left".toList (by decide +kernel),
        hk "inner".toList (by decide +kernel), hk "full".toList (by decide +kernel), hk "outer".toList (by decide +kernel),
        hk "cross".toList (by decide +kernel), hk "join".toList (by decide +kernel), hk "on".toList (by decide +kernel),
        hk "where".toList (by decide +kernel), hk "group".toList (by decide +kernel), hk "by".toList (by decide +kernel),
        hk "having".toList (by decide +kernel), hk "order".toList (by decide +kernel), hk "limit".toList (by decide +kernel), if_false]
    simp [plain, startsClause, hcw, clauseOf, dangling, isSemicolon]

theorem isin_has (f l : List Char) (i : ℕ) (hf : NoOr f) (hl : tokens l ≠ none) :
    NoOr (isinText f l (entityName i)) ∧ toks (isinText f l (entityName i)) =
      toks f ++ [.word "IN".toList, .group ("SELECT DISTINCT ".toList ++ l ++ " FROM ".toList ++ filterName i)] := by
  have hin : tokens ("SELECT DISTINCT ".toList ++ l ++ " FROM ".toList ++ filterName i) ≠ none := by
    have h := tokens_space (show tokens "SELECT DISTINCT".toList = some [kw "SELECT", kw "DISTINCT"] by decide +kernel)
      (tokens_space (toks_of hl) (tokens_space (show tokens "FROM".toList = some [kw "FROM"] by decide +kernel) (filterName_has i).1))
    have e : "SELECT DISTINCT ".toList ++ l ++ " FROM ".toList ++ filterName i =
        "SELECT DISTINCT".toList ++ ' ' :: (l ++ ' ' :: ("FROM".toList ++ ' ' :: entityName i)) := by
      unfold filterName entityName
      simp
    rw [e, h]
    simp
  have hg := tokens_group hin (show tokens [] = some [] from rfl)
  have hgh : Has ('(' :: ("SELECT DISTINCT ".toList ++ l ++ " FROM ".toList ++ filterName i) ++ ')' :: [])
      [.group ("SELECT DISTINCT ".toList ++ l ++ " FROM ".toList ++ filterName i)] := ⟨hg, plain_group _⟩
  have h := has_space (has_of_keeps hf.1) (has_space (has_word "IN" (by decide +kernel) (by decide +kernel)) hgh)
  have e : isinText f l (entityName i) = f ++ ' ' :: ("IN".toList ++ ' ' ::
      ('(' :: ("SELECT DISTINCT ".toList ++ l ++ " FROM ".toList ++ filterName i) ++ ')' :: [])) := by
    unfold isinText filterName entityName
    simp
  rw [← e] at h
  obtain ⟨hk, ht⟩ := h.keeps
  refine ⟨⟨hk, ?_⟩, ?_⟩
  · rw [ht]
    have hi : isOr (kw "IN") = false := by decide +kernel
    have h2 := hf.2
    simp only [List.all_append, List.all_cons, List.all_nil, hi, h2]
    simp [isOr, isWord]
  · rw [ht]
    rfl

end ML
