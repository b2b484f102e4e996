import Verif.SqlText.Sections
/-
The whole text read: the named sub-queries, the columns, and the clauses one after the other.
-/
set_option autoImplicit false
namespace ML
open Spec

/-! ### Named sub-queries -/

/-- The tokens of a named sub-query. -/
def cteToks (c : List Char × List Char) : List SqlTok := toks c.1 ++ [kw "AS", .group c.2]

theorem tokens_cte {b : List Char} {tb : List SqlTok} (c : List Char × List Char) (h1 : tokens c.1 ≠ none) (h2 : tokens c.2 ≠ none)
    (hb : tokens b = some tb) : tokens (cteText c ++ b) = some (cteToks c ++ tb) := by
  have hg := tokens_group h2 (tokens_space (show tokens [] = some [] from rfl) hb)
  have h := tokens_space (toks_of h1) (tokens_space (show tokens "AS".toList = some [kw "AS"] by decide +kernel) hg)
  have e : cteText c ++ b = c.1 ++ ' ' :: ("AS".toList ++ ' ' :: ('(' :: c.2 ++ ')' :: ([] ++ ' ' :: b))) := by
    simp [cteText]
  rw [e, h]
  simp [cteToks]

theorem tokens_ctes {b : List Char} {tb : List SqlTok} (cs : List (List Char × List Char)) (hne : cs ≠ [])
    (h : ∀ c ∈ cs, tokens c.1 ≠ none ∧ tokens c.2 ≠ none) (hb : tokens b = some tb) :
    tokens (joinWith [','] (cs.map cteText) ++ b) = some (sepJoin (.sym ',') (cs.map cteToks) ++ tb) := by
  induction cs with
  | nil => exact absurd rfl hne
  | cons c r ih =>
    cases r with
    | nil => exact tokens_cte c (h c (by simp)).1 (h c (by simp)).2 hb
    | cons d r =>
      have h1 := tokens_cte c (h c (by simp)).1 (h c (by simp)).2 (show tokens [] = some [] from rfl)
      have h2 := ih (by simp) (fun x hx => h x (by simp [List.mem_cons.mp hx]))
      have h3 := tokens_comma h1 h2
      simpa [joinWith, sepJoin] using h3

theorem readCte_cteToks (c : List Char × List Char) : readCte (cteToks c) = some (toks c.1, c.2) := by
  have : isAs (kw "AS") = true := by decide +kernel
  simp [readCte, cteToks, this]

theorem cteToks_plain (c : List Char × List Char) (h : Keeps c.1) : plain (cteToks c) = true := by
  refine plain_append h.2 ?_
  have h1 : plain [kw "AS"] = true := by decide +kernel
  have h2 : plain [SqlTok.group c.2] = true := by
    simp [plain, startsClause, clauseWord, clauseOf, dangling, isSemicolon]
  exact plain_append h1 h2

theorem cteToks_commas (c : List Char × List Char) (h : OneItem c.1) : ∀ t ∈ cteToks c, isComma t = false := by
  intro t ht
  simp only [cteToks, List.mem_append, List.mem_cons, List.not_mem_nil, or_false] at ht
  rcases ht with ht | rfl | rfl
  · have := List.all_eq_true.mp h.2 t ht
    simpa using this
  · decide +kernel
  · simp [isComma]

/-- The tokens of the WITH. -/
def withToks (p : SqlParts) : List SqlTok :=
  if p.ctes = [] then [] else kw "WITH" :: sepJoin (.sym ',') (p.ctes.map cteToks)

theorem withToks_plain (p : SqlParts) (h : WellPlaced p) : plain (withToks p) = true := by
  unfold withToks
  split_ifs
  · rfl
  · have h1 : plain [kw "WITH"] = true := by decide +kernel
    refine plain_append h1 (plain_sepJoin _ (by decide +kernel) _ ?_)
    intro x hx
    obtain ⟨c, hc, rfl⟩ := List.mem_map.mp hx
    exact cteToks_plain c (h.ctes c hc).1.1

theorem mapM_readCte (cs : List (List Char × List Char)) :
    (cs.map cteToks).mapM readCte = some (cs.map (fun c => (toks c.1, c.2))) := by
  induction cs with
  | nil => rfl
  | cons c r ih => simp [List.mapM_cons, readCte_cteToks, ih]

theorem readWith_withToks (p : SqlParts) (h : WellPlaced p) : readWith (withToks p) = some (p.ctes.map (fun c => (toks c.1, c.2))) := by
  unfold withToks
  split_ifs with he
  · rw [he]
    rfl
  · have hw : isWith (kw "WITH") = true := by decide +kernel
    simp only [readWith, hw, if_true]
    rw [partsBetween_sepJoin _ _ (by decide +kernel) _ (by simpa using he), flatMap_parts_single, mapM_readCte]
    intro x hx
    obtain ⟨c, hc, rfl⟩ := List.mem_map.mp hx
    exact cteToks_commas c (h.ctes c hc).1

/-! ### Columns -/

/-- The tokens after SELECT. -/
def columnToks (p : SqlParts) : List SqlTok :=
  (match p.top with | none => [] | some n => [kw "TOP", .group (natText n)]) ++ sepJoin (.sym ',') (p.select.map toks)

theorem columnToks_plain (p : SqlParts) (h : WellPlaced p) : plain (columnToks p) = true := by
  refine plain_append ?_ (plain_sepJoin _ (by decide +kernel) _ ?_)
  · cases p.top with
    | none => rfl
    | some n =>
      have h1 : plain [kw "TOP"] = true := by decide +kernel
      have h2 : plain [SqlTok.group (natText n)] = true := by
        simp [plain, startsClause, clauseWord, clauseOf, dangling, isSemicolon]
      exact plain_append h1 h2
  · intro x hx
    obtain ⟨c, hc, rfl⟩ := List.mem_map.mp hx
    exact (h.columns.2 c hc).1.2

theorem readTop_append (a r : List SqlTok) (h : readTop a = (none, a)) : readTop (a ++ .sym ',' :: r) = (none, a ++ .sym ',' :: r) := by
  match a with
  | [] =>
    simp only [List.nil_append]
    cases r with
    | nil => rfl
    | cons u r =>
      have : isTop (SqlTok.sym ',') = false := by decide +kernel
      cases u <;> simp [readTop, this]
  | [t] => simp [readTop]
  | t :: u :: r' =>
    cases u with
    | group n =>
      simp only [readTop] at h
      simp only [List.cons_append, readTop]
      by_cases ht : isTop t = true
      · rw [if_pos ht] at h
        cases h
      · rw [if_neg ht]
    | _ => simp [readTop]

theorem readTop_columnToks (p : SqlParts) (h : WellPlaced p) :
    readTop (columnToks p) = (p.top.map natText, sepJoin (.sym ',') (p.select.map toks)) := by
  unfold columnToks
  cases p.top with
  | some n =>
    have : isTop (kw "TOP") = true := by decide +kernel
    simp [readTop, this]
  | none =>
    have hc := h.noTop
    cases e : p.select with
    | nil => exact absurd e h.columns.1
    | cons c r =>
      rw [e] at hc
      have hc' := hc c rfl
      cases r with
      | nil => simpa [sepJoin] using hc'
      | cons d r =>
        have := readTop_append (toks c) (sepJoin (.sym ',') ((d :: r).map toks)) hc'
        simpa [sepJoin] using this

theorem tokens_columns (p : SqlParts) (h : WellPlaced p) {b : List Char} {tb : List SqlTok} (hb : Tail b tb) :
    tokens ("SELECT ".toList ++ topText p.top ++
      joinWith [','] p.select ++ b) = some (kw "SELECT" :: columnToks p ++ tb) := by
  have hc := tokens_joinWith [','] (.sym ',') sep_comma p.select (fun i hi => (h.columns.2 i hi).1.1)
  have hs : tokens "SELECT".toList = some [kw "SELECT"] := by decide +kernel
  have ht := tokens_tail hc hb
  unfold columnToks
  cases p.top with
  | none =>
    have := tokens_space hs ht
    simpa [topText] using this
  | some n =>
    have hg := tokens_group (q := natText n) (by rw [tokens_nat]; simp) (tokens_space (show tokens [] = some [] from rfl) ht)
    have := tokens_space hs (tokens_space (show tokens "TOP".toList = some [kw "TOP"] by decide +kernel) hg)
    simpa [topText] using this

/-! ### The rest -/

/-- The sections after the columns. -/
def restSections (p : SqlParts) : Sections :=
  (.from_, toks p.source) :: (p.joins.flatMap (fun j => (.join j.word, toks j.table) :: opt .on (j.on.map toks)) ++
    (opt .where_ (if p.wheres = [] then none else some (sepJoin (kw "AND") (p.wheres.map toks))) ++
     (opt .groupBy (if p.groupBy = [] then none else some (sepJoin (.sym ',') (p.groupBy.map toks))) ++
      (opt .having (if p.havings = [] then none else some (sepJoin (kw "AND") (p.havings.map toks))) ++
       (opt .orderBy (if p.orderBy.map orderText = [] then none else some (sepJoin (.sym ',') ((p.orderBy.map orderText).map toks))) ++
        opt .limit (p.limit.map (fun n => [.word (natText n)])))))))

theorem seg_rest (p : SqlParts) (h : WellPlaced p) :
    Seg (fromText p ++ clause " WHERE ".toList " AND ".toList p.wheres ++ clause " GROUP BY ".toList [','] p.groupBy ++
      clause " HAVING ".toList " AND ".toList p.havings ++ clause " ORDER BY ".toList [','] (p.orderBy.map orderText) ++
      limitText p.limit) (restSections p) := by
  have hand : plain [kw "AND"] = true := by decide +kernel
  have hcomma : plain [SqlTok.sym ','] = true := by decide +kernel
  have h1 := seg_clause (show tokens "FROM".toList = some [kw "FROM"] by decide +kernel) starts_from (by decide +kernel)
    (toks_of h.source.1) h.source.2
  have h2 := seg_joins p.joins h.joins
  have h3 := seg_list (show tokens "WHERE".toList = some [kw "WHERE"] by decide +kernel) starts_where (by decide +kernel) sep_and hand p.wheres
    (fun c hc => (h.wheres c hc).1)
  have h4 := seg_list (show tokens "GROUP BY".toList = some [kw "GROUP", kw "BY"] by decide +kernel) starts_group (by decide +kernel) sep_comma
    hcomma p.groupBy (fun c hc => (h.groups c hc).1)
  have h5 := seg_list (show tokens "HAVING".toList = some [kw "HAVING"] by decide +kernel) starts_having (by decide +kernel) sep_and hand
    p.havings (fun c hc => (h.havings c hc).1)
  have h6 := seg_list (show tokens "ORDER BY".toList = some [kw "ORDER", kw "BY"] by decide +kernel) starts_order (by decide +kernel) sep_comma
    hcomma (p.orderBy.map orderText) (by
      intro c hc
      obtain ⟨o, ho, rfl⟩ := List.mem_map.mp hc
      exact (orderText_item o (h.orders o ho)).1.1)
  have h7 := seg_limit p.limit
  have := seg_append h1 (seg_append h2 (seg_append h3 (seg_append h4 (seg_append h5 (seg_append h6 h7)))))
  have e : fromText p = ' ' :: ("FROM".toList ++ ' ' :: p.source) ++ p.joins.flatMap (fun j => ' ' :: j.text) := by
    simp [fromText]
  rw [e]
  simp only [List.append_assoc] at this ⊢
  exact this

/-- The text and the sections it is cut into. -/
theorem sqlText_cut (p : SqlParts) (h : WellPlaced p) :
    ∃ ts, tokens (sqlText p) = some ts ∧ (∀ t ∈ ts, isSemicolon t = false) ∧
      cut 0 ts = (withToks p, (.select, columnToks p) :: restSections p) := by
  obtain ⟨tr, h1, h2, h3⟩ := (seg_rest p h).ex
  have hcol := tokens_columns p h h1
  refine ⟨withToks p ++ (kw "SELECT" :: columnToks p ++ tr), ?_, ?_, ?_⟩
  · unfold sqlText
    rw [if_neg h.columns.1]
    unfold selectText withToks
    by_cases he : p.ctes = []
    · simp only [he, if_true, List.nil_append, List.append_assoc] at hcol ⊢
      exact hcol
    · have hc := tokens_ctes p.ctes he (fun c hc => ⟨(h.ctes c hc).1.1.1, (h.ctes c hc).2⟩) hcol
      have := tokens_space (show tokens "WITH".toList = some [kw "WITH"] by decide +kernel) hc
      simp only [he, if_false, List.append_assoc] at this ⊢
      have e : ∀ x : List Char, "WITH ".toList ++ x = "WITH".toList ++ ' ' :: x := by intro x; simp
      rw [e, this]
      simp
  · intro t ht
    simp only [List.mem_append, List.mem_cons] at ht
    rcases ht with ht | (rfl | ht) | ht
    · exact plain_semicolon (withToks_plain p h) t ht
    · decide +kernel
    · exact plain_semicolon (columnToks_plain p h) t ht
    · exact h3 t ht
  · rw [cut_plain (withToks_plain p h)]
    have hsec : Secs (kw "SELECT" :: columnToks p ++ tr) ((.select, columnToks p) :: restSections p) := by
      have hr : Secs tr (restSections p) := by
        have := h2 [] [] rfl
        simpa using this
      have := secs_cons starts_select (columnToks_plain p h) hr
      simpa using this
    unfold Secs at hsec
    rw [hsec]
    simp

theorem opt_none (k : Clause) : opt k none = [] := rfl

theorem opt_some (k : Clause) (b : List SqlTok) : opt k (some b) = [(k, b)] := rfl

theorem readJoins_cross (b : List SqlTok) (r : Sections) :
    readJoins ((.join .cross, b) :: r) = (readJoins r).map (fun x => ((.cross, b, none) :: x.1, x.2)) := by
  cases r with
  | nil => rfl
  | cons x r =>
    obtain ⟨k, c⟩ := x
    cases k <;> simp [readJoins]

theorem readJoins_joins (js : List TJoin) (h : ∀ j ∈ js, (j.word = .cross ↔ j.on = none)) (ss : Sections)
    (hss : readJoins ss = some ([], ss)) :
    readJoins (js.flatMap (fun j => (.join j.word, toks j.table) :: opt .on (j.on.map toks)) ++ ss) =
      some (js.map (fun j => (j.word, toks j.table, j.on.map toks)), ss) := by
  induction js with
  | nil => exact hss
  | cons j r ih =>
    have ih := ih (fun i hi => h i (by simp [hi]))
    have hj := h j (by simp)
    simp only [List.flatMap_cons, List.cons_append, List.append_assoc]
    cases ho : j.on with
    | none =>
      have hw := hj.mpr ho
      simp only [Option.map_none, opt_none, List.nil_append]
      rw [hw, readJoins_cross]
      simp [hw, ih, ho]
    | some c =>
      have hw : j.word ≠ .cross := fun e => by
        have := hj.mp e
        rw [ho] at this
        cases this
      simp only [Option.map_some, opt_some, List.cons_append, List.nil_append]
      rw [readJoins]
      simp [hw, ih, ho]

theorem flatMap_no (sep : SqlTok → Bool) (items : List (List Char)) (h : ∀ c ∈ items, (toks c).all (fun t => !sep t) = true) :
    ∀ x ∈ items.map toks, ∀ t ∈ x, sep t = false := by
  intro x hx t ht
  obtain ⟨c, hc, rfl⟩ := List.mem_map.mp hx
  have := List.all_eq_true.mp (h c hc) t ht
  simpa using this

theorem readConditions_and (items : List (List Char)) (h : ∀ c ∈ items, NoOr c) :
    readConditions (if items = [] then none else some (sepJoin (kw "AND") (items.map toks))) =
      if items = [] then [] else [items.flatMap (fun c => partsBetween isAnd (toks c))] := by
  by_cases he : items = []
  · simp [he, readConditions]
  · simp only [he, if_false, readConditions]
    rw [partsBetween_none isOr]
    · simp only [List.map_cons, List.map_nil]
      rw [partsBetween_sepJoin isAnd (kw "AND") (by decide +kernel) _ (by simpa using he), List.flatMap_map]
    · intro t ht
      rcases mem_sepJoin _ _ _ ht with rfl | ⟨x, hx, hm⟩
      · decide +kernel
      · exact flatMap_no isOr items (fun c hc => (h c hc).2) x hx t hm

theorem readItems_commas (items : List (List Char)) (h : ∀ c ∈ items, OneItem c) :
    readItems (if items = [] then none else some (sepJoin (.sym ',') (items.map toks))) = items.map toks := by
  by_cases he : items = []
  · simp [he, readItems]
  · simp only [he, if_false, readItems]
    rw [partsBetween_sepJoin _ _ (by decide +kernel) _ (by simpa using he), flatMap_parts_single]
    exact flatMap_no isComma items (fun c hc => (h c hc).2)

/-- The reading of the sections. -/
theorem readSelect_cut (p : SqlParts) (h : WellPlaced p) (ts : List SqlTok)
    (hc : cut 0 ts = (withToks p, (.select, columnToks p) :: restSections p)) : readSelect ts = some (asRead p) := by
  unfold readSelect
  rw [hc]
  simp only [readWith_withToks p h, restSections]
  rw [readJoins_joins p.joins (fun j hj => (h.joins j hj).2.1)]
  swap
  · generalize (if p.wheres = [] then none else some (sepJoin (kw "AND") (p.wheres.map toks))) = w
    generalize (if p.groupBy = [] then none else some (sepJoin (SqlTok.sym ',') (p.groupBy.map toks))) = g
    generalize (if p.havings = [] then none else some (sepJoin (kw "AND") (p.havings.map toks))) = hv
    generalize (if p.orderBy.map orderText = [] then none else some (sepJoin (SqlTok.sym ',') ((p.orderBy.map orderText).map toks))) = o
    generalize (p.limit.map (fun n => [SqlTok.word (natText n)])) = l
    cases w <;> cases g <;> cases hv <;> cases o <;> cases l <;> rfl
  have hw := readConditions_and p.wheres h.wheres
  have hh := readConditions_and p.havings h.havings
  have hg := readItems_commas p.groupBy h.groups
  have ho := readItems_commas (p.orderBy.map orderText) (by
      intro c hc
      obtain ⟨o, ho, rfl⟩ := List.mem_map.mp hc
      exact (orderText_item o (h.orders o ho)).1)
  have ho' : (readItems (if p.orderBy.map orderText = [] then none
      else some (sepJoin (SqlTok.sym ',') ((p.orderBy.map orderText).map toks)))).map readOrder =
        p.orderBy.map (fun o => (toks o.1, o.2.1, o.2.2)) := by
    rw [ho]
    simp only [List.map_map]
    exact List.map_congr_left (fun o hm => (orderText_item o (h.orders o hm)).2)
  have hcols : partsBetween isComma (readTop (columnToks p)).2 = p.select.map toks := by
    rw [readTop_columnToks p h]
    simp only []
    rw [partsBetween_sepJoin _ _ (by decide +kernel) _ (by simpa using h.columns.1), flatMap_parts_single]
    exact flatMap_no isComma p.select (fun c hc => (h.columns.2 c hc).2)
  have htop : (readTop (columnToks p)).1 = p.top.map natText := by rw [readTop_columnToks p h]
  unfold asRead
  rw [← hcols, ← htop]
  generalize (if p.wheres = [] then none else some (sepJoin (kw "AND") (p.wheres.map toks))) = w at hw ⊢
  generalize (if p.groupBy = [] then none else some (sepJoin (SqlTok.sym ',') (p.groupBy.map toks))) = g at hg ⊢
  generalize (if p.havings = [] then none else some (sepJoin (kw "AND") (p.havings.map toks))) = hv at hh ⊢
  generalize (if p.orderBy.map orderText = [] then none
    else some (sepJoin (SqlTok.sym ',') ((p.orderBy.map orderText).map toks))) = o at ho' ⊢
  rw [← hw, ← hh, ← hg, ← ho']
  generalize (p.limit.map (fun n => [SqlTok.word (natText n)])) = l
  cases w <;> cases g <;> cases hv <;> cases o <;> cases l <;> rfl

theorem sqlText_read (p : SqlParts) (h : WellPlaced p) : readSql (sqlText p) = some (asRead p) := by
  obtain ⟨ts, h1, h2, h3⟩ := sqlText_cut p h
  unfold readSql
  rw [h1]
  simp only []
  rw [partsBetween_none _ _ h2]
  exact readSelect_cut p h ts h3

theorem sqlText_read_semicolon (p : SqlParts) (h : WellPlaced p) : readSql (sqlText p ++ [';']) = some (asRead p) := by
  obtain ⟨ts, h1, h2, h3⟩ := sqlText_cut p h
  unfold readSql
  rw [tokens_semicolon h1]
  simp only []
  rw [partsBetween_append isSemicolon ts [] (.sym ';') (by decide +kernel), partsBetween_none _ _ h2]
  exact readSelect_cut p h ts h3

end ML
