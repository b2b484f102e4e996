import Verif.SqlText.Lemmas
/-
The clauses `sqlText` writes, as the reader cuts them.
-/
set_option autoImplicit false
namespace ML
open Spec

theorem toks_of {a : List Char} (h : tokens a ≠ none) : tokens a = some (toks a) := by
  obtain ⟨t, e⟩ := Option.ne_none_iff_exists'.mp h
  simp [toks, e]

theorem plain_append {a b : List SqlTok} (ha : plain a = true) (hb : plain b = true) : plain (a ++ b) = true := by
  induction a with
  | nil => exact hb
  | cons t ts ih =>
    have hs := startsClause_plain ha b
    obtain ⟨-, h2, h3, h4⟩ := plain_cons ha
    rw [List.cons_append] at hs ⊢
    simp only [plain, hs, h3, ih h4, Option.isNone_none, Bool.true_and, Bool.and_true, Bool.not_false]
    cases ts with
    | nil => simp [h2 rfl]
    | cons u us => simp

/-! ### Items and separators -/

/-- Token lists with a token between. -/
def sepJoin (s : SqlTok) : List (List SqlTok) → List SqlTok
  | [] => []
  | [x] => x
  | x :: y :: r => x ++ s :: sepJoin s (y :: r)

theorem tokens_joinWith (sep : List Char) (s : SqlTok)
    (hsep : ∀ (a b : List Char) (ta tb : List SqlTok), tokens a = some ta → tokens b = some tb → tokens (a ++ sep ++ b) = some (ta ++ s :: tb))
    (items : List (List Char)) (h : ∀ i ∈ items, tokens i ≠ none) :
    tokens (joinWith sep items) = some (sepJoin s (items.map toks)) := by
  induction items with
  | nil => rfl
  | cons x r ih =>
    cases r with
    | nil => exact toks_of (h x (by simp))
    | cons y r =>
      exact hsep x _ _ _ (toks_of (h x (by simp))) (ih (fun i hi => h i (by simp [hi])))

theorem sep_comma (a b : List Char) (ta tb : List SqlTok) (ha : tokens a = some ta) (hb : tokens b = some tb) :
    tokens (a ++ [','] ++ b) = some (ta ++ .sym ',' :: tb) := by
  have := tokens_comma ha hb
  simpa using this

theorem sep_and (a b : List Char) (ta tb : List SqlTok) (ha : tokens a = some ta) (hb : tokens b = some tb) :
    tokens (a ++ " AND ".toList ++ b) = some (ta ++ .word "AND".toList :: tb) := by
  have h := tokens_space ha (tokens_space (show tokens "AND".toList = some [.word "AND".toList] by decide +kernel) hb)
  have e : a ++ " AND ".toList ++ b = a ++ ' ' :: ("AND".toList ++ ' ' :: b) := by simp
  rw [e, h]
  rfl

theorem partsBetween_sepJoin (sep : SqlTok → Bool) (s : SqlTok) (hs : sep s = true) (items : List (List SqlTok)) (hne : items ≠ []) :
    partsBetween sep (sepJoin s items) = items.flatMap (partsBetween sep) := by
  induction items with
  | nil => exact absurd rfl hne
  | cons x r ih =>
    cases r with
    | nil => simp [sepJoin]
    | cons y r =>
      simp only [sepJoin]
      rw [partsBetween_append _ _ _ _ hs, ih (by simp)]
      simp

theorem flatMap_parts_single (sep : SqlTok → Bool) (items : List (List SqlTok)) (h : ∀ x ∈ items, ∀ t ∈ x, sep t = false) :
    items.flatMap (partsBetween sep) = items := by
  induction items with
  | nil => rfl
  | cons x r ih =>
    simp only [List.flatMap_cons]
    rw [partsBetween_none _ _ (h x (by simp)), ih (fun y hy => h y (by simp [hy]))]
    rfl

theorem plain_sepJoin (s : SqlTok) (hs : plain [s] = true) (items : List (List SqlTok)) (h : ∀ x ∈ items, plain x = true) :
    plain (sepJoin s items) = true := by
  induction items with
  | nil => rfl
  | cons x r ih =>
    cases r with
    | nil => exact h x (by simp)
    | cons y r =>
      simp only [sepJoin]
      have := plain_append (h x (by simp)) (plain_append hs (ih (fun z hz => h z (by simp [hz]))))
      simpa using this

theorem mem_sepJoin (s : SqlTok) (items : List (List SqlTok)) (t : SqlTok) (h : t ∈ sepJoin s items) : t = s ∨ ∃ x ∈ items, t ∈ x := by
  induction items with
  | nil => cases h
  | cons x r ih =>
    cases r with
    | nil => exact Or.inr ⟨x, by simp, h⟩
    | cons y r =>
      simp only [sepJoin, List.mem_append, List.mem_cons] at h
      rcases h with h | h | h
      · exact Or.inr ⟨x, by simp, h⟩
      · exact Or.inl h
      · rcases ih h with e | ⟨z, hz, e⟩
        · exact Or.inl e
        · exact Or.inr ⟨z, by simp [List.mem_cons.mp hz], e⟩

/-! ### Segments: a space and a clause -/

/-- A text that starts with a space, or nothing, and its tokens. -/
def Tail (b : List Char) (tb : List SqlTok) : Prop :=
  (b = [] ∧ tb = []) ∨ ∃ b', b = ' ' :: b' ∧ tokens b' = some tb

theorem tokens_tail {a b : List Char} {ta tb : List SqlTok} (ha : tokens a = some ta) (hb : Tail b tb) :
    tokens (a ++ b) = some (ta ++ tb) := by
  rcases hb with ⟨rfl, rfl⟩ | ⟨b', rfl, h⟩
  · simpa using ha
  · exact tokens_space ha h

theorem tail_append {a b : List Char} {ta tb : List SqlTok} (ha : Tail a ta) (hb : Tail b tb) : Tail (a ++ b) (ta ++ tb) := by
  rcases ha with ⟨rfl, rfl⟩ | ⟨a', rfl, h⟩
  · exact hb
  · exact Or.inr ⟨a' ++ b, rfl, tokens_tail h hb⟩

/-- The tokens are these sections. -/
def Secs (ts : List SqlTok) (ss : Sections) : Prop := cut 0 ts = ([], ss)

/-- These tokens are the start of this clause, whatever follows. -/
def Starts (h : List SqlTok) (k : Clause) : Prop := ∀ more, cut 0 (h ++ more) = ([], (k, (cut 0 more).1) :: (cut 0 more).2)

theorem secs_cons {h body rest : List SqlTok} {k : Clause} {ss : Sections} (hh : Starts h k) (hb : plain body = true) (hr : Secs rest ss) :
    Secs (h ++ body ++ rest) ((k, body) :: ss) := by
  unfold Secs at *
  rw [List.append_assoc, hh, cut_plain hb, hr]
  simp

/-- A text that is a tail and whose tokens are these sections. -/
structure Seg (b : List Char) (ss : Sections) : Prop where
  ex : ∃ tb, Tail b tb ∧ (∀ rest rs, Secs rest rs → Secs (tb ++ rest) (ss ++ rs)) ∧ ∀ t ∈ tb, isSemicolon t = false

theorem seg_nil : Seg [] [] := ⟨[], Or.inl ⟨rfl, rfl⟩, fun _ _ h => h, by simp⟩

theorem seg_append {a b : List Char} {ss rs : Sections} (ha : Seg a ss) (hb : Seg b rs) : Seg (a ++ b) (ss ++ rs) := by
  obtain ⟨ta, h1, h2, h5⟩ := ha.ex
  obtain ⟨tb, h3, h4, h6⟩ := hb.ex
  refine ⟨ta ++ tb, tail_append h1 h3, fun rest us h => ?_, ?_⟩
  · rw [List.append_assoc, List.append_assoc]
    exact h2 _ _ (h4 _ _ h)
  · intro t ht
    rcases List.mem_append.mp ht with h | h
    · exact h5 t h
    · exact h6 t h

theorem plain_semicolon {ts : List SqlTok} (h : plain ts = true) : ∀ t ∈ ts, isSemicolon t = false := by
  induction ts with
  | nil => simp
  | cons t ts ih =>
    obtain ⟨-, -, h3, h4⟩ := plain_cons h
    intro u hu
    rcases List.mem_cons.mp hu with rfl | hu
    · exact h3
    · exact ih h4 u hu

/-- A space, the start of a clause, a space and the body. -/
theorem seg_clause {w body : List Char} {tw tb : List SqlTok} {k : Clause} (hw : tokens w = some tw) (hs : Starts tw k)
    (hsemi : ∀ t ∈ tw, isSemicolon t = false) (hb : tokens body = some tb) (hp : plain tb = true) :
    Seg (' ' :: (w ++ ' ' :: body)) [(k, tb)] := by
  refine ⟨tw ++ tb, Or.inr ⟨_, rfl, tokens_space hw hb⟩, fun rest rs h => ?_, ?_⟩
  · exact secs_cons hs hp h
  · intro t ht
    rcases List.mem_append.mp ht with h | h
    · exact hsemi t h
    · exact plain_semicolon hp t h

/-! ### The starts of clauses -/

theorem starts_one {t : SqlTok} {k : Clause} (h : ∀ b c, clauseOf (clauseWord t) b c = some (k, 0)) : Starts [t] k := by
  intro more
  have : startsClause (t :: more) = some (k, 0) := by
    match more with
    | [] => exact h _ _
    | [u] => exact h _ _
    | u :: v :: r => exact h _ _
  simp [cut, this]

theorem starts_two {t u : SqlTok} {k : Clause} (h : ∀ c, clauseOf (clauseWord t) (clauseWord u) c = some (k, 1)) : Starts [t, u] k := by
  intro more
  have : startsClause (t :: u :: more) = some (k, 1) := by
    match more with
    | [] => exact h _
    | v :: r => exact h _
  simp [cut, this]

theorem starts_three {t u v : SqlTok} {k : Clause} (h : clauseOf (clauseWord t) (clauseWord u) (clauseWord v) = some (k, 2)) :
    Starts [t, u, v] k := by
  intro more
  have : startsClause (t :: u :: v :: more) = some (k, 2) := h
  simp [cut, this]

/-- A word in capitals. -/
def kw (s : String) : SqlTok := .word s.toList

theorem cw_select : clauseWord (kw "SELECT") = some .select := by decide +kernel
theorem cw_from : clauseWord (kw "FROM") = some .from_ := by decide +kernel
theorem cw_left : clauseWord (kw "LEFT") = some .left := by decide +kernel
theorem cw_full : clauseWord (kw "FULL") = some .full := by decide +kernel
theorem cw_outer : clauseWord (kw "OUTER") = some .outer := by decide +kernel
theorem cw_cross : clauseWord (kw "CROSS") = some .cross := by decide +kernel
theorem cw_join : clauseWord (kw "JOIN") = some .join := by decide +kernel
theorem cw_on : clauseWord (kw "ON") = some .on := by decide +kernel
theorem cw_where : clauseWord (kw "WHERE") = some .where_ := by decide +kernel
theorem cw_group : clauseWord (kw "GROUP") = some .group := by decide +kernel
theorem cw_by : clauseWord (kw "BY") = some .by_ := by decide +kernel
theorem cw_having : clauseWord (kw "HAVING") = some .having := by decide +kernel
theorem cw_order : clauseWord (kw "ORDER") = some .order := by decide +kernel
theorem cw_limit : clauseWord (kw "LIMIT") = some .limit := by decide +kernel

theorem starts_select : Starts [kw "SELECT"] .select := starts_one (by intro b c; rw [cw_select]; rfl)
theorem starts_from : Starts [kw "FROM"] .from_ := starts_one (by intro b c; rw [cw_from]; rfl)
theorem starts_on : Starts [kw "ON"] .on := starts_one (by intro b c; rw [cw_on]; rfl)
theorem starts_where : Starts [kw "WHERE"] .where_ := starts_one (by intro b c; rw [cw_where]; rfl)
theorem starts_having : Starts [kw "HAVING"] .having := starts_one (by intro b c; rw [cw_having]; rfl)
theorem starts_limit : Starts [kw "LIMIT"] .limit := starts_one (by intro b c; rw [cw_limit]; rfl)
theorem starts_group : Starts [kw "GROUP", kw "BY"] .groupBy := starts_two (by intro c; rw [cw_group, cw_by]; rfl)
theorem starts_order : Starts [kw "ORDER", kw "BY"] .orderBy := starts_two (by intro c; rw [cw_order, cw_by]; rfl)

/-- The tokens of a join word. -/
def JoinWord.toks : JoinWord → List SqlTok
  | .left => [kw "LEFT", kw "JOIN"]
  | .inner => [kw "JOIN"]
  | .full => [kw "FULL", kw "OUTER", kw "JOIN"]
  | .cross => [kw "CROSS", kw "JOIN"]

theorem starts_join (w : JoinWord) : Starts w.toks (.join w) := by
  cases w
  · exact starts_two (by intro c; rw [cw_left, cw_join]; rfl)
  · exact starts_one (by intro b c; rw [cw_join]; rfl)
  · exact starts_three (by rw [cw_full, cw_outer, cw_join]; rfl)
  · exact starts_two (by intro c; rw [cw_cross, cw_join]; rfl)

/-! ### The clauses -/

theorem tokens_words {w : List Char} (hne : w ≠ []) (h : ∀ c ∈ w, wordChar c = true) : tokens w = some [.word w] := by
  have hr : ∀ (a b : List Char), (∀ c ∈ b, wordChar c = true) → readFrom (.top a) b = some ([], .top (b.reverse ++ a)) := by
    intro a b hb
    induction b generalizing a with
    | nil => rfl
    | cons c cs ih =>
      simp only [readFrom, readChar, hb c (by simp), if_true]
      rw [ih (c :: a) (fun d hd => hb d (by simp [hd]))]
      simp
  unfold tokens
  rw [hr [] w h]
  simp [endWord, hne]

theorem tokens_nat (n : ℕ) : tokens (natText n) = some [.word (natText n)] := by
  have e : natText n = Nat.toDigits 10 n := by
    unfold natText
    rw [Nat.toString_eq_repr, Nat.toList_repr]
  refine tokens_words (by rw [e]; exact Nat.toDigits_ne_nil) (fun c hc => ?_)
  rw [e] at hc
  have := Nat.isDigit_of_mem_toDigits (b := 10) (by decide) (by decide) hc
  simp [wordChar, Char.isAlphanum, this]

theorem plain_nat (n : ℕ) : plain [.word (natText n)] = true := by
  have hcw : clauseWord (.word (natText n)) = none := by
    obtain ⟨c, r, e⟩ : ∃ c r, natText n = c :: r := by
      cases e : natText n with
      | nil =>
        exfalso
        have : natText n = Nat.toDigits 10 n := by
          unfold natText
          rw [Nat.toString_eq_repr, Nat.toList_repr]
        rw [this] at e
        exact Nat.toDigits_ne_nil e
      | cons c r => exact ⟨c, r, rfl⟩
    have hd : c.isDigit = true := by
      have hc : c ∈ natText n := by rw [e]; simp
      have e2 : natText n = Nat.toDigits 10 n := by
        unfold natText
        rw [Nat.toString_eq_repr, Nat.toList_repr]
      rw [e2] at hc
      exact Nat.isDigit_of_mem_toDigits (b := 10) (by decide) (by decide) hc
    have hl : c.toLower = c := by
      simp only [Char.isDigit, Bool.and_eq_true, decide_eq_true_eq] at hd
      unfold Char.toLower
      rw [dif_neg]
      rintro ⟨h2, -⟩
      exact absurd (UInt32.le_trans h2 hd.2) (by decide)
    have hk : ∀ s : List Char, s.head?.all Char.isDigit = false → List.map Char.toLower (natText n) ≠ s := by
      rintro s hx rfl
      rw [e] at hx
      simp only [List.map_cons, hl, List.head?_cons, Option.all_some, hd] at hx
      cases hx
    simp only [clauseWord, hk "select".toList (by decide +kernel), hk "from".toList (by decide +kernel), hk "left".toList (by decide +kernel),
      hk "inner".toList (by decide +kernel), hk "full".toList (by decide +kernel), hk "outer".toList (by decide +kernel),
      hk "cross".toList (by decide +kernel), hk "join".toList (by decide +kernel), hk "on".toList (by decide +kernel),
      hk "where".toList (by decide +kernel), hk "group".toList (by decide +kernel), hk "by".toList (by decide +kernel),
      hk "having".toList (by decide +kernel), hk "order".toList (by decide +kernel), hk "limit".toList (by decide +kernel), if_false]
  simp [plain, startsClause, hcw, clauseOf, dangling, isSemicolon]

/-- An optional clause as sections. -/
def opt (k : Clause) : Option (List SqlTok) → Sections
  | none => []
  | some b => [(k, b)]

theorem seg_list {w sep : List Char} {tw : List SqlTok} {k : Clause} {s : SqlTok} (hw : tokens w = some tw) (hs : Starts tw k)
    (hsemi : ∀ t ∈ tw, isSemicolon t = false)
    (hsep : ∀ (a b : List Char) (ta tb : List SqlTok), tokens a = some ta → tokens b = some tb → tokens (a ++ sep ++ b) = some (ta ++ s :: tb))
    (hps : plain [s] = true) (items : List (List Char)) (h : ∀ i ∈ items, Keeps i) :
    Seg (clause (' ' :: (w ++ [' '])) sep items) (opt k (if items = [] then none else some (sepJoin s (items.map toks)))) := by
  unfold clause
  by_cases hi : items = []
  · simp only [hi, if_true]
    exact seg_nil
  · simp only [hi, if_false, opt]
    have e : ' ' :: (w ++ [' ']) ++ joinWith sep items = ' ' :: (w ++ ' ' :: joinWith sep items) := by simp
    rw [e]
    refine seg_clause hw hs hsemi (tokens_joinWith sep s hsep items (fun i hi' => (h i hi').1)) (plain_sepJoin s hps _ ?_)
    intro x hx
    obtain ⟨i, hi', rfl⟩ := List.mem_map.mp hx
    exact (h i hi').2

theorem seg_limit (l : Option ℕ) : Seg (limitText l) (opt .limit (l.map (fun n => [.word (natText n)]))) := by
  cases l with
  | none => exact seg_nil
  | some n =>
    have e : limitText (some n) = ' ' :: ("LIMIT".toList ++ ' ' :: natText n) := by
      unfold limitText
      simp
    rw [e]
    have hl : tokens "LIMIT".toList = some [kw "LIMIT"] := by decide +kernel
    have hs : ∀ t ∈ [kw "LIMIT"], isSemicolon t = false := by decide +kernel
    exact seg_clause hl starts_limit hs (tokens_nat n) (plain_nat n)

theorem seg_join (j : TJoin) (h : Keeps j.table ∧ (j.word = .cross ↔ j.on = none) ∧ ∀ c, j.on = some c → Keeps c) :
    Seg (' ' :: j.text) ((.join j.word, toks j.table) :: opt .on (j.on.map toks)) := by
  obtain ⟨w, t, on⟩ := j
  obtain ⟨h1, -, h3⟩ := h
  have hw : ∃ wt : List Char, w.text = wt ++ [' '] ∧ tokens wt = some w.toks ∧ ∀ t ∈ w.toks, isSemicolon t = false := by
    cases w
    · exact ⟨"LEFT JOIN".toList, by decide +kernel, by decide +kernel, by decide +kernel⟩
    · exact ⟨"JOIN".toList, by decide +kernel, by decide +kernel, by decide +kernel⟩
    · exact ⟨"FULL OUTER JOIN".toList, by decide +kernel, by decide +kernel, by decide +kernel⟩
    · exact ⟨"CROSS JOIN".toList, by decide +kernel, by decide +kernel, by decide +kernel⟩
  obtain ⟨wt, e1, e2, e3⟩ := hw
  have hs1 := seg_clause e2 (starts_join w) e3 (toks_of h1.1) h1.2
  cases on with
  | none =>
    have e : ' ' :: (TJoin.text ⟨w, t, none⟩) = ' ' :: (wt ++ ' ' :: t) := by simp [TJoin.text, e1]
    rw [e]
    exact hs1
  | some c =>
    have hc := h3 c rfl
    have hs2 := seg_clause (show tokens "ON".toList = some [kw "ON"] by decide +kernel) starts_on (by decide +kernel) (toks_of hc.1) hc.2
    have e : ' ' :: (TJoin.text ⟨w, t, some c⟩) = ' ' :: (wt ++ ' ' :: t) ++ ' ' :: ("ON".toList ++ ' ' :: c) := by
      simp [TJoin.text, e1]
    rw [e]
    exact seg_append hs1 hs2

theorem seg_joins (js : List TJoin) (h : ∀ j ∈ js, Keeps j.table ∧ (j.word = .cross ↔ j.on = none) ∧ ∀ c, j.on = some c → Keeps c) :
    Seg (js.flatMap (fun j => ' ' :: j.text)) (js.flatMap (fun j => (.join j.word, toks j.table) :: opt .on (j.on.map toks))) := by
  induction js with
  | nil => exact seg_nil
  | cons j r ih =>
    simp only [List.flatMap_cons]
    exact seg_append (seg_join j (h j (by simp))) (ih (fun i hi => h i (by simp [hi])))

/-! ### The ordering -/

theorem last_asc : isLast (kw "ASC") = false := by decide +kernel
theorem last_desc : isLast (kw "DESC") = false := by decide +kernel
theorem last_last : isLast (kw "LAST") = true := by decide +kernel
theorem nulls_nulls : isNulls (kw "NULLS") = true := by decide +kernel
theorem desc_asc : isDesc (kw "ASC") = false := by decide +kernel
theorem asc_asc : isAsc (kw "ASC") = true := by decide +kernel
theorem desc_desc : isDesc (kw "DESC") = true := by decide +kernel

theorem orderText_tokens (o : List Char × Bool × Bool) (h : OneItem o.1) :
    ∃ tl : List SqlTok, tokens (orderText o) = some (toks o.1 ++ tl) ∧ plain tl = true ∧ (∀ t ∈ tl, isComma t = false) ∧
      readOrder (toks o.1 ++ tl) = (toks o.1, o.2.1, o.2.2) := by
  obtain ⟨a, d, n⟩ := o
  have ha : tokens a = some (toks a) := toks_of h.1.1
  cases d <;> cases n
  · refine ⟨[kw "ASC"], ?_, by decide +kernel, by decide +kernel, ?_⟩
    · have := tokens_space ha (show tokens "ASC".toList = some [kw "ASC"] by decide +kernel)
      simpa [orderText] using this
    · cases hr : (toks a).reverse with
      | nil =>
        have : toks a = [] := by simpa using hr
        simp [this, readOrder, desc_asc, asc_asc]
      | cons x r =>
        have e : toks a = (x :: r).reverse := by rw [← hr, List.reverse_reverse]
        simp [readOrder, last_asc, desc_asc, asc_asc, e]
  · refine ⟨[kw "ASC", kw "NULLS", kw "LAST"], ?_, by decide +kernel, by decide +kernel, ?_⟩
    · have := tokens_space ha (show tokens "ASC NULLS LAST".toList = some [kw "ASC", kw "NULLS", kw "LAST"] by decide +kernel)
      simpa [orderText] using this
    · simp [readOrder, last_last, nulls_nulls, desc_asc, asc_asc]
  · refine ⟨[kw "DESC"], ?_, by decide +kernel, by decide +kernel, ?_⟩
    · have := tokens_space ha (show tokens "DESC".toList = some [kw "DESC"] by decide +kernel)
      simpa [orderText] using this
    · cases hr : (toks a).reverse with
      | nil =>
        have : toks a = [] := by simpa using hr
        simp [this, readOrder, desc_desc]
      | cons x r =>
        have e : toks a = (x :: r).reverse := by rw [← hr, List.reverse_reverse]
        simp [readOrder, last_desc, desc_desc, e]
  · refine ⟨[kw "DESC", kw "NULLS", kw "LAST"], ?_, by decide +kernel, by decide +kernel, ?_⟩
    · have := tokens_space ha (show tokens "DESC NULLS LAST".toList = some [kw "DESC", kw "NULLS", kw "LAST"] by decide +kernel)
      simpa [orderText] using this
    · simp [readOrder, last_last, nulls_nulls, desc_desc]

theorem orderText_item (o : List Char × Bool × Bool) (h : OneItem o.1) :
    OneItem (orderText o) ∧ readOrder (toks (orderText o)) = (toks o.1, o.2.1, o.2.2) := by
  obtain ⟨tl, h1, h2, h3, h4⟩ := orderText_tokens o h
  have e : toks (orderText o) = toks o.1 ++ tl := by simp [toks, h1]
  refine ⟨⟨⟨by rw [h1]; simp, ?_⟩, ?_⟩, ?_⟩
  · rw [e]
    exact plain_append h.1.2 h2
  · rw [e, List.all_append, h.2]
    simpa using h3
  · rw [e, h4]

end ML
