import Verif.Expr.Stack
/- White space around a text and runs of spaces in it do not matter to its reader, outside of strings. -/
set_option autoImplicit false
namespace ML
open Spec

theorem space_start {c : Char} (h : isSpace c = true) : lexStart c = (.idle, []) ∧ exprChar c = false ∧ symChar c = false ∧ c ≠ '\'' := by
  have key : c = ' ' ∨ c = '\t' ∨ c = '\n' ∨ c = '\r' := by
    simp [isSpace] at h
    tauto
  rcases key with rfl | rfl | rfl | rfl <;> decide +kernel

theorem lexed_space (st : LexSt) {c : Char} (h : isSpace c = true) (hs : ∀ s, st ≠ .str s) (rest : List Char) :
    lexed st (c :: rest) = st.flush ++ lexed .idle rest := by
  obtain ⟨h1, h2, h3, h4⟩ := space_start h
  rw [lexed_cons]
  cases st with
  | str s => exact absurd rfl (hs s)
  | idle => simp [lexStep, h1, LexSt.flush]
  | afterRef => simp [lexStep, h1, h2, h4, LexSt.flush]
  | word w => simp [lexStep, h1, h2, LexSt.flush]
  | closed s => simp [lexStep, h1, h4, LexSt.flush]
  | sym d =>
    have : opPair d c = false := by
      cases hp : opPair d c with
      | false => rfl
      | true => rw [pair_sym hp] at h3; cases h3
    simp [lexStep, h1, this, LexSt.flush]

theorem lexed_spaces_end (st : LexSt) (ws : List Char) (h : ∀ c ∈ ws, isSpace c = true) (hs : ∀ s, st ≠ .str s) : lexed st ws = st.flush := by
  induction ws generalizing st with
  | nil => simp [lexed, lexRun]
  | cons c ws ih =>
    rw [lexed_space st (h c (by simp)) hs, ih .idle (fun d hd => h d (by simp [hd])) (by simp)]
    simp [LexSt.flush]

theorem mem_front {c : Char} {l : List Char} (h : c ∈ l.takeWhile isSpace) : isSpace c = true := by
  induction l with
  | nil => cases h
  | cons d l ih =>
    rw [List.takeWhile_cons] at h
    split at h
    · next hd =>
      rcases List.mem_cons.mp h with rfl | h
      · exact hd
      · exact ih h
    · cases h

theorem strip_parts (t : List Char) : ∃ a b, t = a ++ strip t ++ b ∧ (∀ c ∈ a, isSpace c = true) ∧ ∀ c ∈ b, isSpace c = true := by
  refine ⟨t.takeWhile isSpace, ((t.dropWhile isSpace).reverse.takeWhile isSpace).reverse, ?_, ?_, ?_⟩
  · have h1 : strip t ++ ((t.dropWhile isSpace).reverse.takeWhile isSpace).reverse = t.dropWhile isSpace := by
      unfold strip
      rw [← List.reverse_append, List.takeWhile_append_dropWhile, List.reverse_reverse]
    rw [List.append_assoc, h1, List.takeWhile_append_dropWhile]
  · intro c hc
    exact mem_front hc
  · intro c hc
    rw [List.mem_reverse] at hc
    exact mem_front hc

theorem lexed_front (ws rest : List Char) (h : ∀ c ∈ ws, isSpace c = true) : lexed .idle (ws ++ rest) = lexed .idle rest := by
  induction ws with
  | nil => rfl
  | cons c ws ih =>
    rw [List.cons_append, lexed_space .idle (h c (by simp)) (by simp), ih (fun d hd => h d (by simp [hd]))]
    rfl

/-- White space around a text. -/
theorem tokens_strip {t : List Char} (h : ETok.bad ∉ exprTokens t) : exprTokens (strip t) = exprTokens t := by
  obtain ⟨a, b, he, ha, hb⟩ := strip_parts t
  have e : exprTokens t = lexed .idle (strip t ++ b) := by
    show lexed .idle t = _
    conv_lhs => rw [he, List.append_assoc]
    exact lexed_front a _ ha
  have e2 := e
  rw [lexed_append] at e2
  by_cases hs : ∀ s, (lexRun .idle (strip t)).1 ≠ .str s
  · rw [lexed_spaces_end _ b hb hs] at e2
    exact e2.symm
  · push Not at hs
    obtain ⟨s, hs⟩ := hs
    exfalso
    apply h
    rw [e2, hs, List.mem_append]
    right
    clear e e2 he h hs
    induction b generalizing s with
    | nil => simp [lexed, lexRun, LexSt.flush]
    | cons c b ih =>
      rw [lexed_cons]
      have : c ≠ '\'' := (space_start (hb c (by simp))).2.2.2
      simp only [lexStep, this, if_false, List.nil_append]
      exact ih (fun d hd => hb d (by simp [hd])) _

theorem loose_stays (t : List Char) : ∀ (s : List Char), [' ', ' '] <:+: s →
    ETok.bad ∈ lexed (.str s) t ∨ ∃ u, ETok.str u ∈ lexed (.str s) t ∧ [' ', ' '] <:+: u := by
  have aux : ∀ (n : ℕ) (t : List Char), t.length ≤ n → ∀ s, [' ', ' '] <:+: s →
      ETok.bad ∈ lexed (.str s) t ∨ ∃ u, ETok.str u ∈ lexed (.str s) t ∧ [' ', ' '] <:+: u := by
    intro n
    induction n with
    | zero =>
      intro t ht s hs
      cases t with
      | nil => exact Or.inl (by simp [lexed, lexRun, LexSt.flush])
      | cons c t => simp at ht
    | succ n ih =>
      intro t ht s hs
      cases t with
      | nil => exact Or.inl (by simp [lexed, lexRun, LexSt.flush])
      | cons c t =>
        rw [lexed_cons]
        by_cases hc : c = '\''
        · simp only [lexStep, hc, if_true, List.nil_append]
          cases t with
          | nil => exact Or.inr ⟨s, by simp [lexed, lexRun, LexSt.flush], hs⟩
          | cons d t =>
            rw [lexed_cons]
            by_cases hd : d = '\''
            · simp only [lexStep, hd, if_true, List.nil_append]
              refine ih t ?_ _ (hs.trans (List.prefix_append _ _).isInfix)
              simp at ht
              omega
            · exact Or.inr ⟨s, by simp [lexStep, hd, LexSt.flush], hs⟩
        · simp only [lexStep, hc, if_false, List.nil_append]
          refine ih t ?_ _ (hs.trans (List.prefix_append _ _).isInfix)
          simp at ht
          omega
  exact aux t.length t le_rfl

/-- Runs of spaces outside of strings. -/
theorem lexed_collapse (t : List Char) : ∀ (st : LexSt) (b : Bool), (b = true → st = .idle ∨ ∃ s, st = .str (s ++ [' '])) →
    ETok.bad ∉ lexed st t → TightStrings (lexed st t) → lexed st (collapseSpaces b t) = lexed st t := by
  induction t with
  | nil => intro st b _ _ _; rfl
  | cons c t ih =>
    intro st b hb hbad ht
    by_cases hc : c = ' '
    · subst hc
      have hsp : isSpace ' ' = true := by decide
      have hnext : (lexStep st ' ').1 = .idle ∨ ∃ s, (lexStep st ' ').1 = .str (s ++ [' ']) := by
        obtain ⟨h1, h2, h3, h4⟩ := space_start hsp
        cases st with
        | str s => exact Or.inr ⟨s, by simp [lexStep]⟩
        | idle => exact Or.inl (by simp [lexStep, h1])
        | afterRef => exact Or.inl (by simp [lexStep, h1, h2])
        | word w => exact Or.inl (by simp [lexStep, h1, h2])
        | closed s => exact Or.inl (by simp [lexStep, h1])
        | sym d =>
          have : opPair d ' ' = false := by
            cases hp : opPair d ' ' with
            | false => rfl
            | true => rw [pair_sym hp] at h3; cases h3
          exact Or.inl (by simp [lexStep, h1, this])
      have hbad' : ETok.bad ∉ lexed (lexStep st ' ').1 t := fun h => hbad (by rw [lexed_cons]; simp [h])
      have ht' : TightStrings (lexed (lexStep st ' ').1 t) := fun s hs => ht s (by rw [lexed_cons]; simp [hs])
      cases b with
      | false =>
        simp only [collapseSpaces, if_true, Bool.false_eq_true, if_false]
        rw [lexed_cons, lexed_cons, ih _ true (fun _ => hnext) hbad' ht']
      | true =>
        simp only [collapseSpaces, if_true]
        rcases hb rfl with rfl | ⟨s, rfl⟩
        · have e : lexed .idle (' ' :: t) = lexed .idle t := by
            rw [lexed_space .idle hsp (by simp)]
            rfl
          rw [e] at hbad ht ⊢
          exact ih .idle true (fun _ => Or.inl rfl) hbad ht
        · exfalso
          have hl := loose_stays t (s ++ [' '] ++ [' ']) ⟨s, [], by simp⟩
          have e : lexed (.str (s ++ [' '])) (' ' :: t) = lexed (.str (s ++ [' '] ++ [' '])) t := by
            rw [lexed_cons]
            simp [lexStep]
          rw [e] at hbad ht
          rcases hl with h | ⟨u, hu, h⟩
          · exact hbad h
          · exact ht u hu h
    · have e : collapseSpaces b (c :: t) = c :: collapseSpaces false t := by simp [collapseSpaces, hc]
      rw [e, lexed_cons, lexed_cons, ih _ false (by simp) (fun h => hbad (by rw [lexed_cons]; simp [h]))
        (fun s hs => ht s (by rw [lexed_cons]; simp [hs]))]

theorem tokens_collapse {t : List Char} (h : ETok.bad ∉ exprTokens t) (hs : TightStrings (exprTokens t)) : exprTokens (collapseSpaces false t) = exprTokens t :=
  lexed_collapse t .idle false (by simp) h hs

end ML
