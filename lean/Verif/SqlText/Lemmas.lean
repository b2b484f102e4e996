import Verif.SqlText.Spec
/-
The reader of texts over texts put together, and over the clauses `sqlText` writes.
-/
set_option autoImplicit false
namespace ML
open Spec

/-! ### Reading -/

theorem readFrom_append (p : Place) (a b : List Char) :
    readFrom p (a ++ b) = (readFrom p a).bind (fun x => (readFrom x.2 b).map (fun y => (x.1 ++ y.1, y.2))) := by
  induction a generalizing p with
  | nil => simp [readFrom]
  | cons c cs ih =>
    simp only [List.cons_append, readFrom]
    cases readChar p c with
    | none => rfl
    | some x =>
      simp only [ih]
      cases readFrom x.2 cs with
      | none => rfl
      | some y =>
        simp only [Option.bind_some]
        cases readFrom y.2 b with
        | none => rfl
        | some z => simp

/-- Tokens, as the reader ends at the top. -/
theorem tokens_some {a : List Char} {ta : List SqlTok} (h : tokens a = some ta) :
    ∃ ts w, readFrom (.top []) a = some (ts, .top w) ∧ ta = ts ++ endWord w := by
  unfold tokens at h
  split at h
  · rename_i ts w e
    exact ⟨ts, w, e, (Option.some.inj h).symm⟩
  · cases h

/-- From the top after a word, a character that is none of a word's ends the word. -/
theorem readFrom_top_ne (w : List Char) (c : Char) (b : List Char) (hc : wordChar c = false) :
    readFrom (.top w) (c :: b) = (readFrom (.top []) (c :: b)).map (fun y => (endWord w ++ y.1, y.2)) := by
  simp only [readFrom, readChar, hc, Bool.false_eq_true, if_false]
  by_cases h1 : c = '('
  · simp only [h1, if_true]
    cases readFrom (.inside 0 none []) b <;> simp [endWord]
  · by_cases h2 : c = ')'
    · simp [h2]
    · simp only [h1, h2, if_false]
      by_cases h3 : quoteChar c = true
      · simp only [h3, if_true]
        cases readFrom (.quote c []) b <;> simp [endWord]
      · simp only [h3, Bool.false_eq_true, if_false]
        by_cases h4 : isSpace c = true
        · simp only [h4, if_true]
          cases readFrom (.top []) b <;> simp [endWord]
        · simp only [h4, Bool.false_eq_true, if_false]
          cases readFrom (.top []) b <;> simp [endWord]

/-- Two texts, the second starting with a character that is none of a word's. -/
theorem tokens_append {a : List Char} {ta : List SqlTok} (h : tokens a = some ta) (c : Char) (b : List Char) (hc : wordChar c = false) :
    tokens (a ++ c :: b) = (tokens (c :: b)).map (fun tb => ta ++ tb) := by
  obtain ⟨ts, w, e, rfl⟩ := tokens_some h
  unfold tokens
  rw [readFrom_append, e]
  simp only [Option.bind_some]
  rw [readFrom_top_ne w c b hc]
  cases readFrom (.top []) (c :: b) with
  | none => rfl
  | some y =>
    obtain ⟨us, q⟩ := y
    cases q <;> simp

/-- A space between. -/
theorem tokens_space {a b : List Char} {ta tb : List SqlTok} (ha : tokens a = some ta) (hb : tokens b = some tb) :
    tokens (a ++ ' ' :: b) = some (ta ++ tb) := by
  rw [tokens_append ha ' ' b (by decide)]
  have : tokens (' ' :: b) = tokens b := by
    unfold tokens
    have : readFrom (.top []) (' ' :: b) = readFrom (.top []) b := by
      simp only [readFrom]
      rw [show readChar (.top []) ' ' = some ([], .top []) by decide +kernel]
      simp only []
      cases readFrom (.top []) b <;> simp
    rw [this]
  rw [this, hb]
  rfl

/-- Another character between. -/
theorem tokens_sym {a b : List Char} {ta tb : List SqlTok} (c : Char) (hc : readChar (.top []) c = some ([.sym c], .top []))
    (hw : wordChar c = false) (ha : tokens a = some ta) (hb : tokens b = some tb) :
    tokens (a ++ c :: b) = some (ta ++ .sym c :: tb) := by
  rw [tokens_append ha c b hw]
  obtain ⟨ts, w, e, rfl⟩ := tokens_some hb
  simp [tokens, readFrom, hc, e]

/-- A comma between. -/
theorem tokens_comma {a b : List Char} {ta tb : List SqlTok} (ha : tokens a = some ta) (hb : tokens b = some tb) :
    tokens (a ++ ',' :: b) = some (ta ++ .sym ',' :: tb) :=
  tokens_sym ',' (by decide +kernel) (by decide +kernel) ha hb

/-- A semicolon after. -/
theorem tokens_semicolon {a : List Char} {ta : List SqlTok} (ha : tokens a = some ta) :
    tokens (a ++ [';']) = some (ta ++ [.sym ';']) :=
  tokens_sym ';' (by decide +kernel) (by decide +kernel) ha (by rfl)

/-! ### Parentheses -/

/-- The place inside parentheses that a place at the top becomes, after the text `s` (reversed). -/
def within (d : ℕ) (s : List Char) : Place → Place
  | .top _ => .inside d none s
  | .quote q _ => .inside d (some q) s
  | .inside e q _ => .inside (d + 1 + e) q s

/-- Inside parentheses nothing is given out while they stay open. -/
theorem readChar_within (d : ℕ) (s : List Char) (p : Place) (c : Char) (ts : List SqlTok) (p' : Place)
    (h : readChar p c = some (ts, p')) : readChar (within d s p) c = some ([], within d (c :: s) p') := by
  cases p with
  | top w =>
    simp only [readChar] at h
    simp only [within, readChar]
    by_cases h0 : wordChar c = true
    · simp only [h0, if_true, Option.some.injEq, Prod.mk.injEq] at h
      obtain ⟨-, rfl⟩ := h
      have h1 : c ≠ '(' := by rintro rfl; exact absurd h0 (by decide +kernel)
      have h2 : c ≠ ')' := by rintro rfl; exact absurd h0 (by decide +kernel)
      have h3 : quoteChar c = false := by
        by_contra hq
        simp only [quoteChar, Bool.not_eq_false, Bool.or_eq_true, decide_eq_true_eq] at hq
        rcases hq with (rfl | rfl) | rfl <;> exact absurd h0 (by decide +kernel)
      simp [h1, h2, h3]
    · simp only [h0] at h
      by_cases h1 : c = '('
      · subst h1
        simp only [if_true, Bool.false_eq_true, if_false, Option.some.injEq, Prod.mk.injEq] at h
        obtain ⟨-, rfl⟩ := h
        simp
      · by_cases h2 : c = ')'
        · simp [h2] at h
        · simp only [h1, h2, if_false, Bool.false_eq_true] at h ⊢
          by_cases h3 : quoteChar c = true
          · simp only [h3, if_true, Option.some.injEq, Prod.mk.injEq] at h ⊢
            obtain ⟨-, rfl⟩ := h
            simp
          · simp only [h3, Bool.false_eq_true, if_false] at h ⊢
            split_ifs at h <;>
            · simp only [Option.some.injEq, Prod.mk.injEq] at h
              obtain ⟨-, rfl⟩ := h
              simp
  | quote q r =>
    simp only [readChar] at h
    simp only [within, readChar]
    split_ifs at h ⊢ <;>
    · simp only [Option.some.injEq, Prod.mk.injEq] at h
      obtain ⟨-, rfl⟩ := h
      simp
  | inside e q r =>
    cases q with
    | some q =>
      simp only [readChar] at h
      simp only [within, readChar]
      split_ifs at h ⊢ <;>
      · simp only [Option.some.injEq, Prod.mk.injEq] at h
        obtain ⟨-, rfl⟩ := h
        simp
    | none =>
      simp only [readChar] at h
      simp only [within, readChar]
      by_cases h1 : c = '('
      · simp only [h1, if_true, Option.some.injEq, Prod.mk.injEq] at h ⊢
        obtain ⟨-, rfl⟩ := h
        simp [Nat.add_assoc]
      · by_cases h2 : c = ')'
        · subst h2
          simp only [if_true] at h ⊢
          cases e with
          | zero =>
            obtain ⟨-, rfl⟩ := Prod.mk.inj (Option.some.inj h)
            rfl
          | succ e =>
            obtain ⟨-, rfl⟩ := Prod.mk.inj (Option.some.inj h)
            rfl
        · simp only [h1, h2, if_false] at h ⊢
          split_ifs at h ⊢ <;>
          · simp only [Option.some.injEq, Prod.mk.injEq] at h
            obtain ⟨-, rfl⟩ := h
            simp

theorem readFrom_within (d : ℕ) (s : List Char) (p : Place) (q : List Char) (ts : List SqlTok) (p' : Place)
    (h : readFrom p q = some (ts, p')) : readFrom (within d s p) q = some ([], within d (q.reverse ++ s) p') := by
  induction q generalizing p s ts with
  | nil =>
    simp only [readFrom, Option.some.injEq, Prod.mk.injEq] at h
    obtain ⟨-, rfl⟩ := h
    rfl
  | cons c cs ih =>
    simp only [readFrom] at h
    cases hc : readChar p c with
    | none => rw [hc] at h; cases h
    | some x =>
      obtain ⟨us, p1⟩ := x
      rw [hc] at h
      simp only [] at h
      cases hr : readFrom p1 cs with
      | none => rw [hr] at h; cases h
      | some y =>
        obtain ⟨vs, p2⟩ := y
        rw [hr] at h
        simp only [Option.some.injEq, Prod.mk.injEq] at h
        obtain ⟨-, rfl⟩ := h
        simp only [readFrom, readChar_within d s p c us p1 hc, ih (c :: s) p1 vs hr]
        simp

/-- A text in parentheses. -/
theorem tokens_group {q b : List Char} {tb : List SqlTok} (hq : tokens q ≠ none) (hb : tokens b = some tb) :
    tokens ('(' :: q ++ ')' :: b) = some (.group q :: tb) := by
  obtain ⟨tq, hq⟩ := Option.ne_none_iff_exists'.mp hq
  obtain ⟨ts, w, e, -⟩ := tokens_some hq
  obtain ⟨us, v, f, rfl⟩ := tokens_some hb
  have h1 := readFrom_within 0 [] (.top []) q ts (.top w) e
  simp only [within, List.append_nil] at h1
  have h2 : readFrom (.top []) ('(' :: q ++ ')' :: b) = some (.group q :: us, .top v) := by
    rw [List.cons_append]
    simp only [readFrom]
    rw [show readChar (.top []) '(' = some ([], .inside 0 none []) by decide +kernel]
    simp only []
    rw [readFrom_append, h1]
    simp only [Option.bind_some, readFrom]
    rw [show readChar (.inside 0 none q.reverse) ')' = some ([.group q], .top []) by simp [readChar]]
    simp [f]
  unfold tokens
  rw [h2]
  rfl

/-- The same after another text. -/
theorem tokens_group_after {a q b : List Char} {ta tb : List SqlTok} (ha : tokens a = some ta) (hq : tokens q ≠ none)
    (hb : tokens b = some tb) : tokens (a ++ ('(' :: q ++ ')' :: b)) = some (ta ++ .group q :: tb) := by
  have := tokens_append ha '(' (q ++ ')' :: b) (by decide +kernel)
  rw [List.cons_append, this]
  rw [← List.cons_append, tokens_group hq hb]
  rfl

/-! ### Clauses -/

theorem clauseOf_tail (a b c : Option ClauseWord) (h : clauseOf a none none = none)
    (hd : a ≠ some .left ∧ a ≠ some .inner ∧ a ≠ some .full ∧ a ≠ some .outer ∧ a ≠ some .cross ∧ a ≠ some .group ∧ a ≠ some .order) :
    clauseOf a b c = none := by
  obtain ⟨h1, h2, h3, h4, h5, h6, h7⟩ := hd
  cases a with
  | none => rfl
  | some x => cases x <;> simp_all [clauseOf]

theorem clauseOf_tail2 (a b c : Option ClauseWord) (h : clauseOf a b none = none) (hb : b ≠ some .outer) :
    clauseOf a b c = none := by
  cases a with
  | none => rfl
  | some x => cases x <;> simp_all [clauseOf]

theorem dangling_not {t : SqlTok} (h : dangling t = false) :
    clauseWord t ≠ some .left ∧ clauseWord t ≠ some .inner ∧ clauseWord t ≠ some .full ∧ clauseWord t ≠ some .outer ∧
      clauseWord t ≠ some .cross ∧ clauseWord t ≠ some .group ∧ clauseWord t ≠ some .order := by
  unfold dangling at h
  cases e : clauseWord t with
  | none => simp
  | some x => rw [e] at h; cases x <;> simp_all

theorem plain_cons {t : SqlTok} {ts : List SqlTok} (h : plain (t :: ts) = true) :
    startsClause (t :: ts) = none ∧ (ts = [] → dangling t = false) ∧ isSemicolon t = false ∧ plain ts = true := by
  simp only [plain, Bool.and_eq_true, Option.isNone_iff_eq_none, Bool.or_eq_true, Bool.not_eq_true'] at h
  obtain ⟨⟨⟨h1, h2⟩, h3⟩, h4⟩ := h
  refine ⟨h1, ?_, h3, h4⟩
  rintro rfl
  rcases h2 with h | h
  · simp at h
  · exact h

/-- No clause starts in plain tokens, whatever follows. -/
theorem startsClause_plain {t : SqlTok} {ts : List SqlTok} (h : plain (t :: ts) = true) (more : List SqlTok) :
    startsClause (t :: ts ++ more) = none := by
  obtain ⟨h1, h2, -, h4⟩ := plain_cons h
  match ts, more with
  | [], [] => exact h1
  | [], [u] => exact clauseOf_tail _ _ _ h1 (dangling_not (h2 rfl))
  | [], u :: v :: _ => exact clauseOf_tail _ _ _ h1 (dangling_not (h2 rfl))
  | [u], [] => exact h1
  | [u], v :: _ =>
    obtain ⟨-, h5, -, -⟩ := plain_cons h4
    exact clauseOf_tail2 _ _ _ h1 (dangling_not (h5 rfl)).2.2.2.1
  | u :: v :: r, _ => exact h1

/-- The cut over plain tokens. -/
theorem cut_plain {ts : List SqlTok} (h : plain ts = true) (more : List SqlTok) :
    cut 0 (ts ++ more) = (ts ++ (cut 0 more).1, (cut 0 more).2) := by
  induction ts with
  | nil => rfl
  | cons t ts ih =>
    have hs := startsClause_plain h more
    obtain ⟨-, -, -, h4⟩ := plain_cons h
    rw [List.cons_append] at hs ⊢
    simp only [cut, hs, ih h4, List.cons_append]

theorem cut_plain' {ts : List SqlTok} (h : plain ts = true) : cut 0 ts = (ts, []) := by
  have := cut_plain h []
  simpa [cut] using this

/-! ### Separators -/

theorem partsBetween_ne (sep : SqlTok → Bool) (ts : List SqlTok) : partsBetween sep ts ≠ [] := by
  cases ts with
  | nil => simp [partsBetween]
  | cons t ts =>
    simp only [partsBetween]
    split_ifs
    · simp
    · split <;> simp

theorem partsBetween_append (sep : SqlTok → Bool) (a b : List SqlTok) (s : SqlTok) (hs : sep s = true) :
    partsBetween sep (a ++ s :: b) = partsBetween sep a ++ partsBetween sep b := by
  induction a with
  | nil => simp [partsBetween, hs]
  | cons t ts ih =>
    simp only [List.cons_append, partsBetween, ih]
    split_ifs
    · rfl
    · cases e : partsBetween sep ts with
      | nil => exact absurd e (partsBetween_ne sep ts)
      | cons x y => simp

theorem partsBetween_none (sep : SqlTok → Bool) (a : List SqlTok) (h : ∀ t ∈ a, sep t = false) : partsBetween sep a = [a] := by
  induction a with
  | nil => rfl
  | cons t ts ih =>
    simp only [partsBetween, h t (by simp), ih (fun u hu => h u (by simp [hu]))]
    simp

end ML
