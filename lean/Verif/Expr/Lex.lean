import Verif.Expr.Spec
/- The parts of a text put together from pieces. -/
set_option autoImplicit false
namespace ML
open Spec

theorem lexRun_append (st : LexSt) (a b : List Char) :
    lexRun st (a ++ b) = ((lexRun (lexRun st a).1 b).1, (lexRun st a).2 ++ (lexRun (lexRun st a).1 b).2) := by
  induction a generalizing st with
  | nil => simp [lexRun]
  | cons c cs ih =>
    simp only [List.cons_append, lexRun]
    rw [ih]
    simp

/-- The parts of a text after what has been read (for the proofs; it models no file in /repo). -/
def lexed (st : LexSt) (t : List Char) : List ETok := (lexRun st t).2 ++ (lexRun st t).1.flush

theorem lexed_append (st : LexSt) (a b : List Char) : lexed st (a ++ b) = (lexRun st a).2 ++ lexed (lexRun st a).1 b := by
  simp [lexed, lexRun_append]

theorem lexed_cons (st : LexSt) (c : Char) (b : List Char) : lexed st (c :: b) = (lexStep st c).2 ++ lexed (lexStep st c).1 b := by
  simp [lexed, lexRun]

/-- No reference among the parts (for the proofs; it models no file in /repo). -/
def NoRefs (ts : List ETok) : Prop := ∀ n, ETok.ref n ∉ ts

theorem flush_noRefs (st : LexSt) : NoRefs st.flush := by
  intro n
  cases st <;> simp [LexSt.flush]

theorem start_noRefs (c : Char) : NoRefs (lexStart c).2 := by
  intro n
  unfold lexStart
  split_ifs <;> simp

theorem start_state (c : Char) : (lexStart c).1 ≠ .afterRef := by
  unfold lexStart
  split_ifs <;> simp

theorem step_noRefs (st : LexSt) (c : Char) : NoRefs (lexStep st c).2 := by
  intro n h
  have hs := start_noRefs c n
  cases st with
  | idle => exact hs h
  | afterRef =>
    simp only [lexStep] at h
    split_ifs at h with h1
    · simp at h
    · exact hs h
  | word w =>
    simp only [lexStep] at h
    split_ifs at h with h1
    · simp at h
    · simp [LexSt.flush] at h
      exact hs h
  | sym d =>
    simp only [lexStep] at h
    split_ifs at h with h1 h2
    · simp at h
    · simp at h
    · simp [LexSt.flush] at h
      exact hs h
  | str s =>
    simp only [lexStep] at h
    split_ifs at h <;> simp at h
  | closed s =>
    simp only [lexStep] at h
    split_ifs at h with h1
    · simp at h
    · simp [LexSt.flush] at h
      exact hs h

theorem step_state (st : LexSt) (c : Char) : (lexStep st c).1 ≠ .afterRef := by
  have hs := start_state c
  cases st with
  | idle => exact hs
  | _ =>
    simp only [lexStep]
    split_ifs <;> first | exact hs | simp

theorem run_noRefs (st : LexSt) (t : List Char) : NoRefs (lexRun st t).2 := by
  induction t generalizing st with
  | nil => intro n; simp [lexRun]
  | cons c cs ih =>
    intro n h
    simp only [lexRun, List.mem_append] at h
    rcases h with h | h
    · exact step_noRefs st c n h
    · exact ih _ n h

theorem run_state (st : LexSt) (t : List Char) (h : st ≠ .afterRef) : (lexRun st t).1 ≠ .afterRef := by
  induction t generalizing st with
  | nil => exact h
  | cons c cs ih => exact ih _ (step_state st c)

theorem tokens_noRefs (t : List Char) : NoRefs (exprTokens t) := by
  intro n h
  simp only [exprTokens, List.mem_append] at h
  rcases h with h | h
  · exact run_noRefs _ _ n h
  · exact flush_noRefs _ n h

/-- The parts with each reference replaced by parts (for the proofs; it models no file in /repo). -/
def expandTok (V : List Char → List ETok) : ETok → List ETok
  | .ref n => V n
  | t => [t]

theorem expand_noRefs (V : List Char → List ETok) (ts : List ETok) (h : NoRefs ts) : ts.flatMap (expandTok V) = ts := by
  induction ts with
  | nil => rfl
  | cons t ts ih =>
    rw [List.flatMap_cons, ih (fun n hn => h n (by simp [hn]))]
    cases t with
    | ref n => exact absurd (by simp) (h n)
    | _ => rfl

theorem start_sym {c d : Char} (h : (lexStart c).1 = .sym d) : symChar c = true := by
  unfold lexStart at h
  split_ifs at h with h1 h2
  · exact h2

theorem step_sym {st : LexSt} {c d : Char} (h : (lexStep st c).1 = .sym d) : symChar c = true := by
  cases st with
  | idle => exact start_sym h
  | _ =>
    simp only [lexStep] at h
    split_ifs at h <;> exact start_sym h

theorem run_sym (st : LexSt) (t : List Char) (c d : Char) (hc : t.getLast? = some c) (h : (lexRun st t).1 = .sym d) : symChar c = true := by
  obtain ⟨ys, rfl⟩ := List.getLast?_eq_some_iff.mp hc
  rw [lexRun_append] at h
  exact step_sym h

theorem pair_sym {d c : Char} (h : opPair d c = true) : symChar c = true := by
  simp only [opPair, List.contains_iff_mem] at h
  have : c ∈ ['=', '>', '|', ':', '-', '*'] := by
    simp at h
    simp
    tauto
  simp only [symChar, List.contains_iff_mem]
  simp at this ⊢
  tauto

/-- After a reference, the state in which the reader of the replaced text is (for the proofs; it models no file in /repo). -/
def AtEnd (s : LexSt) : Prop := s = .idle ∨ (∃ w, s = .word w) ∨ ∃ t, s = .closed t

/-- A text that can stand for a reference among the parts (for the proofs; it models no file in /repo). -/
structure LexUnit (t : List Char) : Prop where
  head : ∃ c r, t = c :: r ∧ symChar c = false
  ends : AtEnd (lexRun .idle t).1

theorem lexUnit_of (t : List Char) (h : noSymEnds t = true) (hb : ETok.bad ∉ exprTokens t) : LexUnit t := by
  simp only [noSymEnds, Bool.and_eq_true, beq_iff_eq] at h
  obtain ⟨h1, h2⟩ := h
  cases t with
  | nil => simp at h1
  | cons c r =>
    refine ⟨⟨c, r, rfl, by simpa using h1⟩, ?_⟩
    cases hl : (c :: r).getLast? with
    | none => simp at hl
    | some d =>
      rw [hl] at h2
      have hd : symChar d = false := by simpa using h2
      cases hs : (lexRun .idle (c :: r)).1 with
      | idle => exact Or.inl rfl
      | word w => exact Or.inr (Or.inl ⟨w, rfl⟩)
      | closed s => exact Or.inr (Or.inr ⟨s, rfl⟩)
      | sym e =>
        rw [run_sym _ _ d e hl hs] at hd
        cases hd
      | str s =>
        exfalso
        apply hb
        simp [exprTokens, hs, LexSt.flush]
      | afterRef => exact absurd hs (run_state _ _ (by simp))

theorem step_end {s : LexSt} (h : AtEnd s) {c : Char} (h1 : exprChar c = false) (h2 : c ≠ '\'') :
    lexStep s c = ((lexStart c).1, s.flush ++ (lexStart c).2) := by
  rcases h with rfl | ⟨w, rfl⟩ | ⟨t, rfl⟩
  · simp [lexStep, LexSt.flush]
  · simp [lexStep, h1]
  · simp [lexStep, h2]

theorem lexed_unit (st : LexSt) (hst : st = .idle ∨ ∃ d, st = .sym d) {t : List Char} (ht : LexUnit t) (rest : List Char) :
    lexed st (t ++ rest) = st.flush ++ (lexRun .idle t).2 ++ lexed (lexRun .idle t).1 rest := by
  rcases hst with rfl | ⟨d, rfl⟩
  · rw [lexed_append]
    simp [LexSt.flush]
  · obtain ⟨⟨c, r, rfl, hc⟩, _⟩ := ht
    have hp : opPair d c = false := by
      cases h : opPair d c with
      | false => rfl
      | true => rw [pair_sym h] at hc; cases hc
    have hstep : lexStep (.sym d) c = ((lexStart c).1, LexSt.flush (.sym d) ++ (lexStart c).2) := by
      simp [lexStep, hp]
    rw [lexed_append]
    have hidle : lexStep .idle c = lexStart c := rfl
    simp only [lexRun]
    rw [hstep, hidle]
    simp

theorem lexed_fill (v : List Char → List Char) (hv : ∀ n, LexUnit (v n)) (ps : List Piece) :
    (∀ st, st ≠ .afterRef → ETok.bad ∉ pieceTokens st ps → lexed st (fill v ps) = (pieceTokens st ps).flatMap (expandTok (fun n => exprTokens (v n)))) ∧
    (∀ s, AtEnd s → ETok.bad ∉ pieceTokens .afterRef ps →
      lexed s (fill v ps) = s.flush ++ (pieceTokens .afterRef ps).flatMap (expandTok (fun n => exprTokens (v n)))) := by
  induction ps with
  | nil =>
    constructor
    · intro st _ _
      simp only [fill, lexed, lexRun, pieceTokens, List.nil_append]
      rw [expand_noRefs _ _ (flush_noRefs st)]
    · intro s _ _
      simp [fill, lexed, lexRun, pieceTokens, LexSt.flush]
  | cons p ps ih =>
    obtain ⟨iha, ihb⟩ := ih
    cases p with
    | lit l =>
      constructor
      · intro st hst hb
        simp only [pieceTokens, List.mem_append, not_or] at hb
        simp only [fill, pieceTokens, List.flatMap_append]
        rw [lexed_append, iha _ (run_state _ _ hst) hb.2, expand_noRefs _ _ (run_noRefs st l)]
      · intro s hs hb
        cases l with
        | nil => exact ihb s hs (by simpa [pieceTokens, lexRun] using hb)
        | cons c cs =>
          simp only [pieceTokens, lexRun, List.mem_append, not_or] at hb
          have hc : exprChar c = false ∧ c ≠ '\'' := by
            by_contra hc
            have : exprChar c = true ∨ c = '\'' := by
              rw [not_and_or] at hc
              rcases hc with hc | hc
              · exact Or.inl (by simpa using hc)
              · exact Or.inr (by simpa using hc)
            apply hb.1.1
            simp [lexStep, this]
          have hstep : lexStep .afterRef c = lexStart c := by simp [lexStep, hc]
          rw [hstep] at hb
          simp only [fill, pieceTokens, lexRun, List.cons_append]
          rw [hstep, lexed_cons, step_end hs hc.1 hc.2, lexed_append, iha _ (run_state _ _ (start_state c)) hb.2]
          simp only [List.flatMap_append]
          rw [expand_noRefs _ _ (start_noRefs c), expand_noRefs _ _ (run_noRefs _ cs)]
          simp
    | ref n =>
      constructor
      · intro st hst hb
        simp only [pieceTokens, List.mem_append, not_or] at hb
        have h2 : st = .idle ∨ ∃ d, st = .sym d := by
          cases st with
          | idle => exact Or.inl rfl
          | sym d => exact Or.inr ⟨d, rfl⟩
          | _ => exact absurd (by simp [LexSt.atRef]) hb.1
        have h3 : st.atRef n = st.flush ++ [.ref n] := by
          rcases h2 with rfl | ⟨d, rfl⟩ <;> rfl
        simp only [fill, pieceTokens, h3, List.flatMap_append]
        rw [lexed_unit st h2 (hv n), ihb _ (hv n).ends hb.2, expand_noRefs _ _ (flush_noRefs st)]
        simp [expandTok, exprTokens]
      · intro s _ hb
        exact absurd (by simp [pieceTokens, LexSt.atRef]) hb

/-- The parts of the text with the references replaced. -/
theorem tokens_fill (v : List Char → List Char) (hv : ∀ n, LexUnit (v n)) (ps : List Piece) (h : ETok.bad ∉ pieceTokens .idle ps) :
    exprTokens (fill v ps) = (pieceTokens .idle ps).flatMap (expandTok (fun n => exprTokens (v n))) :=
  (lexed_fill v hv ps).1 .idle (by simp) h

end ML
