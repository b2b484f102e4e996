import Verif.ParseQ.Lemmas
import Verif.MergePlan.Props
/- C29 (duplicates, GROUP BY, HAVING and ORDER BY of a single query) and C44 (ordering clauses). -/
set_option autoImplicit false
namespace ML
open Spec

theorem lookupAll_forall (get : String → Res QField) (ns : List String) (fs : List QField) (h : lookupAll get ns = .ok fs) :
    List.Forall₂ (fun n f => get n = .ok f) ns fs := by
  induction ns generalizing fs with
  | nil => injection h with h; subst h; exact .nil
  | cons n ns ih =>
    rw [lookupAll] at h
    cases h1 : get n with
    | error e => rw [h1] at h; exact absurd h (by simp)
    | ok f =>
      cases h2 : lookupAll get ns with
      | error e => rw [h1, h2] at h; exact absurd h (by simp)
      | ok gs => rw [h1, h2] at h; injection h with h; subst h; exact .cons h1 (ih gs h2)

theorem lookupAll_known (get : String → Res QField) (ns : List String) (h : ∀ n ∈ ns, ∃ f, get n = .ok f) :
    ∃ fs, lookupAll get ns = .ok fs := by
  induction ns with
  | nil => exact ⟨[], rfl⟩
  | cons n ns ih =>
    obtain ⟨f, hf⟩ := h n (by simp)
    obtain ⟨fs, hfs⟩ := ih (fun m hm => h m (List.mem_cons_of_mem _ hm))
    exact ⟨f :: fs, by rw [lookupAll, hf, hfs]⟩

theorem nodup_iff_length (l : List String) : l.dedup.length = l.length ↔ l.Nodup := by
  constructor
  · intro h
    rw [← List.dedup_eq_self]
    exact (List.dedup_sublist l).eq_of_length h
  · intro h; rw [List.dedup_eq_self.mpr h]

theorem parseInput_ok (get : String → Res QField) (q : QRequest) (p : Parsed) (h : parseInput get q = .ok p) :
    (q.metrics ++ q.dimensions).Nodup ∧ lookupAll get q.metrics = .ok p.metricFields ∧ lookupAll get q.dimensions = .ok p.dimFields ∧
    (p.noGroupBy = true ↔ RowPerKey get q.metrics q.dimensions q.force) := by
  unfold parseInput at h
  split at h
  · cases h
  · rename_i hd
    rw [not_not, nodup_iff_length] at hd
    cases h1 : lookupAll get q.metrics with
    | error e => rw [h1] at h; cases h
    | ok ms =>
      cases h2 : lookupAll get q.dimensions with
      | error e => rw [h1, h2] at h; cases h
      | ok ds =>
        cases h3 : lookupAll get (q.whereNames ++ q.havingNames ++ q.orderNames) with
        | error e => rw [h1, h2, h3] at h; cases h
        | ok os =>
          rw [h1, h2, h3] at h
          injection h with h
          subst h
          refine ⟨hd, rfl, rfl, ?_⟩
          have fm := lookupAll_forall _ _ _ h1
          have fd := lookupAll_forall _ _ _ h2
          simp only [List.any_eq_true, Bool.and_eq_true, beq_iff_eq, Bool.not_eq_true', RowPerKey]
          constructor
          · rintro ⟨x, hx, ⟨hpk, hv⟩, hf⟩
            obtain ⟨i, hi, rfl⟩ := List.mem_iff_getElem.mp hx
            have hi' : i < q.dimensions.length := by rw [fd.length_eq]; exact hi
            cases hm : q.metrics with
            | nil => rw [hm] at fm; cases fm; cases hv
            | cons m rest =>
              rw [hm] at fm
              cases fm with
              | cons hg _ =>
                refine ⟨hf, m, _, q.dimensions[i], _, rfl, hg, by simp, ?_, hpk, Option.some.inj hv⟩
                exact (List.forall₂_iff_get.mp fd).2 i hi' hi
          · rintro ⟨hf, m, f, d, g, hm, hgm, hd', hgd, hpk, hv⟩
            obtain ⟨i, hi, rfl⟩ := List.mem_iff_getElem.mp hd'
            have hi' : i < ds.length := by rw [← fd.length_eq]; exact hi
            have e := (List.forall₂_iff_get.mp fd).2 i hi hi'
            simp only [List.get_eq_getElem] at e
            rw [hgd] at e
            injection e with e
            refine ⟨ds[i], by simp, ⟨by rw [← e]; exact hpk, ?_⟩, hf⟩
            cases hq : q.metrics with
            | nil => rw [hq] at hm; cases hm
            | cons m' rest =>
              rw [hq] at hm fm
              injection hm with hm
              subst hm
              cases fm with
              | cons hg _ =>
                rw [hgm] at hg
                injection hg with hg
                subst hg
                rw [← e, hv]
                rfl

/-- C29: a single query that names the same metric or dimension twice is refused with a QueryError. -/
theorem C29_duplicate_partial (get : String → Res QField) (q : QRequest) (h : ¬ (q.metrics ++ q.dimensions).Nodup) :
    queryClauses get q = .error .query := by
  rw [← nodup_iff_length] at h
  simp only [queryClauses, parseInput, ne_eq, h, not_false_eq_true, if_true]

/-- C29: in a query that is answered, GROUP BY is left out exactly when a requested dimension is the primary key of the view of
the first metric and grouping is not forced; then there is neither HAVING nor ORDER BY. Otherwise GROUP BY lists every requested
dimension, in order, followed by the raw columns, and HAVING is present exactly when it was asked for. -/
theorem C29_group_by (get : String → Res QField) (q : QRequest) (c : Clauses) (h : queryClauses get q = .ok c) :
    (c.groupBy = none ↔ RowPerKey get q.metrics q.dimensions q.force) ∧
    (c.groupBy = none → q.hasHaving = false ∧ q.order.given = false ∧ c.having = false ∧ c.orderBy = []) ∧
    (∀ cols, c.groupBy = some cols → c.having = q.hasHaving ∧ ∃ own, cols = own ++ q.raw ∧
      List.Forall₂ (fun d col => ∃ f, get d = .ok f ∧ col = if q.bigquery then f.label else f.sql) q.dimensions own) := by
  unfold queryClauses at h
  cases hp : parseInput get q with
  | error e => rw [hp] at h; cases h
  | ok p =>
    obtain ⟨_, _, hds, hk⟩ := parseInput_ok get q p hp
    rw [hp] at h
    simp only at h
    cases hc : checkClauses q p.noGroupBy with
    | error e => rw [hc] at h; cases h
    | ok u =>
      rw [hc] at h
      simp only at h
      cases hn : p.noGroupBy with
      | true =>
        rw [hn] at h hc hk
        simp only [if_true] at h
        injection h with h
        subst h
        refine ⟨by simpa using hk, fun _ => ?_, fun cols hcols => by cases hcols⟩
        unfold checkClauses at hc
        cases h1 : q.hasHaving with
        | true => rw [h1] at hc; cases hc
        | false =>
          cases h2 : q.order.given with
          | true => rw [h1, h2] at hc; cases hc
          | false => exact ⟨rfl, rfl, rfl, rfl⟩
      | false =>
        rw [hn] at h hk
        simp only [Bool.false_eq_true, if_false] at h
        cases ho : orderItems get (p.metricFields ++ p.dimFields) (orderArgs q) with
        | error e => rw [ho] at h; cases h
        | ok items =>
          rw [ho] at h
          injection h with h
          subst h
          refine ⟨by simpa using hk, fun hh => absurd hh (by simp), fun cols hcols => ⟨rfl, ?_⟩⟩
          injection hcols with hcols
          subst hcols
          refine ⟨_, rfl, ?_⟩
          have := lookupAll_forall _ _ _ hds
          rw [List.forall₂_map_right_iff]
          exact this.imp (fun n f hf => ⟨f, hf, rfl⟩)

/-- C29: when every name is known and none is repeated, a query without GROUP BY is refused with an ArgumentError exactly when it
asks for HAVING or ORDER BY. -/
theorem C29_rejects (get : String → Res QField) (q : QRequest) (hk : AllKnown get q) (hn : (q.metrics ++ q.dimensions).Nodup)
    (hr : RowPerKey get q.metrics q.dimensions q.force) :
    (queryClauses get q = .error .argument ↔ q.hasHaving = true ∨ q.order.given = true) ∧
    (q.hasHaving = false → q.order.given = false → queryClauses get q = .ok ⟨none, false, []⟩) := by
  obtain ⟨ms, hms⟩ := lookupAll_known get q.metrics (fun n h => hk n (by simp [h]))
  obtain ⟨ds, hds⟩ := lookupAll_known get q.dimensions (fun n h => hk n (by simp [h]))
  obtain ⟨os, hos⟩ := lookupAll_known get (q.whereNames ++ q.havingNames ++ q.orderNames) (fun n h => hk n (List.mem_append_right _ h))
  have hp : parseInput get q = .ok ⟨ms, ds, ds.any (fun d => d.primaryKey && (some d.view == ms.head?.map QField.view) && !q.force)⟩ := by
    unfold parseInput
    rw [if_neg (by rw [not_not, nodup_iff_length]; exact hn), hms, hds, hos]
  have hb := (parseInput_ok get q _ hp).2.2.2.mpr hr
  simp only at hb
  rw [hb] at hp
  unfold queryClauses
  rw [hp]
  simp only [checkClauses, Bool.and_true]
  cases q.hasHaving <;> cases q.order.given <;> simp

/-! ### Ordering -/

theorem orderClause_clause (f c : List Char) (d : Dir) (n : Nulls) (hc : IsClause f d n c) (hs : SafeName f d) :
    orderClause c = ⟨String.ofList (f.map Char.toLower), if d = .desc then "desc" else "asc"⟩ := by
  obtain ⟨k, j, ws, rfl, hw⟩ := hc
  obtain ⟨_, hsp, hdesc, hasc⟩ := hs
  have hlow : (List.replicate k ' ' ++ (f ++ (ws ++ List.replicate j ' '))).map Char.toLower
      = around k j (f.map Char.toLower) (words d n) := by
    rw [around]
    simp only [List.map_append, List.map_replicate, hw]
    rfl
  have hg : ∀ c ∈ f.map Char.toLower, isSpace c = false := by
    intro c hc
    obtain ⟨c', hc', rfl⟩ := List.mem_map.mp hc
    exact isSpace_toLower c' (hsp c' hc').1
  have hg' : ' ' ∉ f.map Char.toLower := fun h => absurd (hg _ h) (by decide)
  unfold orderClause
  simp only
  rw [hlow]
  generalize hgd : f.map Char.toLower = g at *
  have hlast : "nulls last".toList = "nulls".toList ++ ' ' :: "last".toList := by decide
  have hfirst : "nulls first".toList = "nulls".toList ++ ' ' :: "first".toList := by decide
  have fin : ∀ (r1 r2 r3 : List Char) (i : ℕ), (r1 = [] ∨ ∃ t, r1 = ' ' :: t ∧ "last".toList.isPrefixOf t = false) →
      replaceAll "nulls last".toList [] r1 = r2 → (r2 = [] ∨ ∃ t, r2 = ' ' :: t ∧ "first".toList.isPrefixOf t = false) →
      replaceAll "nulls first".toList [] r2 = r3 → r3 = List.replicate i ' ' →
      strip (replaceAll "nulls first".toList [] (replaceAll "nulls last".toList [] (around k j g r1))) = g := by
    intro r1 r2 r3 i h1 e1 h2 e2 e3
    rw [hlast, replace_nulls k j _ _ g r1 'n' 't' (by decide) (by decide) (by decide) (by decide) (by decide) hg' h1, ← hlast, e1,
      hfirst, replace_nulls k j _ _ g r2 'n' 't' (by decide) (by decide) (by decide) (by decide) (by decide) hg' h2, ← hfirst, e2, e3,
      strip_around k j i g hg]
  cases d with
  | desc =>
    rw [if_pos (desc_around k j g (words .desc n) _ rfl)]
    rw [replace_word k j _ g (words .desc n) 'd' 'c' (by decide) (by decide) (by decide) (by decide) (by decide) hdesc (.inr ⟨_, rfl⟩)]
    simp only [if_true]
    congr 2
    cases n with
    | none => exact fin [' '] [' '] _ 1 (.inr ⟨_, rfl, by decide⟩) (by decide) (.inr ⟨_, rfl, by decide⟩) rfl (by decide)
    | first => exact fin "  nulls first".toList "  nulls first".toList _ 2 (.inr ⟨_, rfl, by decide⟩) (by decide) (.inr ⟨_, rfl, by decide⟩) rfl (by decide)
    | last => exact fin "  nulls last".toList "  ".toList _ 2 (.inr ⟨_, rfl, by decide⟩) (by decide) (.inr ⟨_, rfl, by decide⟩) rfl (by decide)
  | asc =>
    rw [if_neg (by
      rw [infix_around k j _ g (words .asc n) 'd' 'c' (by decide) (by decide) (by decide) (by decide) (by decide) hdesc (.inr ⟨_, rfl⟩) (by cases n <;> decide)]
      simp)]
    rw [replace_word k j _ g (words .asc n) 'a' 'c' (by decide) (by decide) (by decide) (by decide) (by decide) (hasc (by decide)) (.inr ⟨_, rfl⟩)]
    simp only [reduceCtorEq, if_false]
    congr 2
    cases n with
    | none => exact fin [' '] [' '] _ 1 (.inr ⟨_, rfl, by decide⟩) (by decide) (.inr ⟨_, rfl, by decide⟩) rfl (by decide)
    | first => exact fin "  nulls first".toList "  nulls first".toList _ 2 (.inr ⟨_, rfl, by decide⟩) (by decide) (.inr ⟨_, rfl, by decide⟩) rfl (by decide)
    | last => exact fin "  nulls last".toList "  ".toList _ 2 (.inr ⟨_, rfl, by decide⟩) (by decide) (.inr ⟨_, rfl, by decide⟩) rfl (by decide)
  | none =>
    have hr : words .none n = [] ∨ ∃ t, words .none n = ' ' :: t := by
      cases n
      · exact .inl rfl
      · exact .inr ⟨_, rfl⟩
      · exact .inr ⟨_, rfl⟩
    rw [if_neg (by
      rw [infix_around k j _ g _ 'd' 'c' (by decide) (by decide) (by decide) (by decide) (by decide) hdesc hr (by cases n <;> decide)]
      simp)]
    rw [replace_word k j _ g _ 'a' 'c' (by decide) (by decide) (by decide) (by decide) (by decide) (hasc (by decide)) hr]
    simp only [reduceCtorEq, if_false]
    congr 2
    cases n with
    | none => exact fin [] [] _ 0 (.inl rfl) (by decide) (.inl rfl) rfl (by decide)
    | first => exact fin " nulls first".toList " nulls first".toList _ 1 (.inr ⟨_, rfl, by decide⟩) (by decide) (.inr ⟨_, rfl, by decide⟩) rfl (by decide)
    | last => exact fin " nulls last".toList " ".toList _ 1 (.inr ⟨_, rfl, by decide⟩) (by decide) (.inr ⟨_, rfl, by decide⟩) rfl (by decide)

theorem split_join (ps : List (List Char)) (hne : ps ≠ []) (h : ∀ p ∈ ps, ',' ∉ p) : splitChars ',' ([','].intercalate ps) = ps := by
  induction ps with
  | nil => exact absurd rfl hne
  | cons p ps ih =>
    cases ps with
    | nil =>
      have : [','].intercalate [p] = p := by simp [List.intercalate]
      rw [this, splitChars_noSep _ _ (h p (by simp))]
    | cons r rs =>
      have : [','].intercalate (p :: r :: rs) = p ++ ',' :: [','].intercalate (r :: rs) := by simp [List.intercalate]
      rw [this, splitChars_append _ _ _ (h p (by simp)), ih (by simp) (fun x hx => h x (List.mem_cons_of_mem _ hx))]

theorem words_no_comma (d : Dir) (n : Nulls) : ',' ∉ words d n := by
  cases d <;> cases n <;> decide

theorem clause_no_comma (f c : List Char) (d : Dir) (n : Nulls) (hc : IsClause f d n c) (hs : SafeName f d) : ',' ∉ c := by
  obtain ⟨k, j, ws, rfl, hw⟩ := hc
  intro h
  simp only [List.mem_append, List.mem_replicate] at h
  rcases h with h | h | h | h
  · exact absurd h.2 (by decide)
  · exact (hs.2.1 _ h).2 rfl
  · apply words_no_comma d n
    rw [← hw]
    exact List.mem_map.mpr ⟨',', h, by decide⟩
  · exact absurd h.2 (by decide)

theorem lower_not_default (f : List Char) : String.ofList (f.map Char.toLower) ≠ "__DEFAULT__" := by
  intro h
  have h' := congrArg String.toList h
  rw [String.toList_ofList] at h'
  have : 'D' ∈ f.map Char.toLower := by rw [h']; decide
  obtain ⟨c, _, hc⟩ := List.mem_map.mp this
  have := toLower_plain c 'D' (by decide) hc
  subst this
  exact absurd hc (by decide)

theorem orderItems_named (get : String → Res QField) (fields : List QField) (as : List OrderArg) (items : List OrderItem)
    (hn : ∀ a ∈ as, a.field ≠ "__DEFAULT__") (h : orderItems get fields as = .ok items) :
    List.Forall₂ (fun a it => ∃ f, get a.field = .ok f ∧ it = ⟨f.label, a.sort == "desc", true⟩) as items := by
  induction as generalizing items with
  | nil => injection h with h; subst h; exact .nil
  | cons a as ih =>
    rw [orderItems, if_neg (hn a (by simp))] at h
    cases hg : get a.field with
    | error e => rw [hg] at h; cases h
    | ok f =>
      cases hr : orderItems get fields as with
      | error e => rw [hg, hr] at h; cases h
      | ok rest =>
        rw [hg, hr] at h
        injection h with h
        subst h
        exact .cons ⟨f, hg, rfl⟩ (ih rest (fun b hb => hn b (List.mem_cons_of_mem _ hb)) hr)

theorem queryClauses_order (get : String → Res QField) (q : QRequest) (c : Clauses) (h : queryClauses get q = .ok c)
    (hg : q.order.given = true) : ∃ fields, orderItems get fields (parseOrderBy q.order) = .ok c.orderBy := by
  unfold queryClauses at h
  cases hp : parseInput get q with
  | error e => rw [hp] at h; cases h
  | ok p =>
    rw [hp] at h
    simp only at h
    cases hc : checkClauses q p.noGroupBy with
    | error e => rw [hc] at h; cases h
    | ok u =>
      rw [hc] at h
      simp only at h
      cases hn : p.noGroupBy with
      | true =>
        rw [hn] at hc
        unfold checkClauses at hc
        rw [hg] at hc
        cases hh : q.hasHaving <;> rw [hh] at hc <;> cases hc
      | false =>
        rw [hn] at h
        simp only [Bool.false_eq_true, if_false] at h
        have ha : orderArgs q = parseOrderBy q.order := by unfold orderArgs; rw [if_pos hg]
        rw [ha] at h
        cases ho : orderItems get (p.metricFields ++ p.dimFields) (parseOrderBy q.order) with
        | error e => rw [ho] at h; cases h
        | ok items =>
          rw [ho] at h
          injection h with h
          subst h
          exact ⟨_, ho⟩

/-- C44, for names in which the parser finds nothing to delete: an ordering text made of clauses `f`, `f asc`, `f desc`, each
optionally followed by `nulls first` or `nulls last`, in any letter case and spacing, sorts by exactly those fields, in that
order, descending exactly where `desc` was written. Missing: names containing `asc` or `desc`, which the code corrupts
(`C44_corrupted`), and `nulls first`, which the code ignores (`C44_nulls_first`). -/
theorem C44_text_partial (get : String → Res QField) (q : QRequest) (c : Clauses)
    (clauses : List (List Char × Dir × Nulls × List Char)) (hne : clauses ≠ [])
    (hcl : ∀ x ∈ clauses, IsClause x.1 x.2.1 x.2.2.1 x.2.2.2 ∧ SafeName x.1 x.2.1)
    (hq : q.order = .text (String.ofList ([','].intercalate (clauses.map (fun x => x.2.2.2)))))
    (h : queryClauses get q = .ok c) :
    List.Forall₂ (fun x it => ∃ f, get (lower (String.ofList x.1)) = .ok f ∧ it = ⟨f.label, decide (x.2.1 = .desc), true⟩)
      clauses c.orderBy := by
  have hcomma : ∀ p ∈ clauses.map (fun x => x.2.2.2), ',' ∉ p := by
    intro p hp
    obtain ⟨x, hx, rfl⟩ := List.mem_map.mp hp
    exact clause_no_comma _ _ _ _ (hcl x hx).1 (hcl x hx).2
  have hgiven : q.order.given = true := by
    rw [hq]
    simp only [OrderBy.given, String.toList_ofList, Bool.not_eq_true', List.isEmpty_eq_false_iff]
    intro e
    have e' := split_join _ (by simpa using hne) hcomma
    rw [e] at e'
    cases clauses with
    | nil => exact hne rfl
    | cons x xs =>
      have e1 : x.2.2.2 = [] := by
        simp only [splitChars, List.map_cons, List.cons.injEq] at e'
        exact e'.1.symm
      obtain ⟨⟨k, j, ws, hx, _⟩, hs⟩ := hcl x (by simp)
      rw [e1] at hx
      simp only [List.nil_eq, List.append_eq_nil_iff] at hx
      exact hs.1 hx.2.1
  obtain ⟨fields, ho⟩ := queryClauses_order get q c h hgiven
  have hparse : parseOrderBy q.order = clauses.map (fun x => ⟨lower (String.ofList x.1), if x.2.1 = .desc then "desc" else "asc"⟩) := by
    rw [hq]
    simp only [parseOrderBy, String.toList_ofList]
    rw [split_join _ (by simpa using hne) hcomma, List.map_map]
    apply List.map_congr_left
    intro x hx
    simp only [Function.comp_apply, lower, String.toList_ofList]
    exact orderClause_clause _ _ _ _ (hcl x hx).1 (hcl x hx).2
  rw [hparse] at ho
  have := orderItems_named get fields _ _ (by
    intro a ha
    obtain ⟨x, _, rfl⟩ := List.mem_map.mp ha
    simp only [lower, String.toList_ofList]
    exact lower_not_default _) ho
  rw [List.forall₂_map_left_iff] at this
  refine this.imp ?_
  rintro x it ⟨f, hf, rfl⟩
  refine ⟨f, hf, ?_⟩
  by_cases hd : x.2.1 = .desc
  · simp [hd]
  · simp [hd]

/-- C44: an ordering given as a list sorts by exactly the fields of the list, in that order, descending exactly where `sort` is
`desc` in any letter case; without `sort` it is ascending. -/
theorem C44_list (get : String → Res QField) (q : QRequest) (c : Clauses) (l : List (String × Option String)) (hne : l ≠ [])
    (hq : q.order = .json l) (hn : ∀ x ∈ l, x.1 ≠ "__DEFAULT__") (h : queryClauses get q = .ok c) :
    List.Forall₂ (fun x it => ∃ f, get x.1 = .ok f ∧ it = ⟨f.label, decide (∃ s, x.2 = some s ∧ lower s = "desc"), true⟩)
      l c.orderBy := by
  have hgiven : q.order.given = true := by rw [hq]; cases l <;> simp_all [OrderBy.given]
  obtain ⟨fields, ho⟩ := queryClauses_order get q c h hgiven
  rw [hq, parseOrderBy] at ho
  have := orderItems_named get fields _ _ (by
    intro a ha
    obtain ⟨x, hx, rfl⟩ := List.mem_map.mp ha
    exact hn x hx) ho
  rw [List.forall₂_map_left_iff] at this
  refine this.imp ?_
  rintro ⟨x, s⟩ it ⟨f, hf, rfl⟩
  refine ⟨f, hf, ?_⟩
  cases s with
  | none =>
    have : lower "asc" ≠ "desc" := by decide
    simp [this]
  | some s =>
    simp only [Option.getD_some, Option.some.injEq, exists_eq_left', OrderItem.mk.injEq, true_and, and_true]
    rw [Bool.eq_iff_iff]
    simp

/-- C44: without an ordering, a grouped query on a warehouse that orders by default is sorted by its first metric, descending,
or by its first dimension, ascending, when it has no metric (for fields that are what they are requested as). -/
theorem C44_default (get : String → Res QField) (q : QRequest) (c : Clauses) (cols : List String) (n : String) (f : QField)
    (hq : q.order.given = false) (hd : q.defaultOrder = true) (h : queryClauses get q = .ok c) (hgb : c.groupBy = some cols)
    (hn : (q.metrics ++ q.dimensions).head? = some n) (hf : get n = .ok f) : c.orderBy = [⟨f.label, f.isMeasure, true⟩] := by
  unfold queryClauses at h
  cases hp : parseInput get q with
  | error e => rw [hp] at h; cases h
  | ok p =>
    obtain ⟨_, hm, hds, _⟩ := parseInput_ok get q p hp
    rw [hp] at h
    simp only at h
    cases hc : checkClauses q p.noGroupBy with
    | error e => rw [hc] at h; cases h
    | ok u =>
      rw [hc] at h
      simp only at h
      cases hn : p.noGroupBy with
      | true => rw [hn] at h; simp only [if_true] at h; injection h with h; subst h; cases hgb
      | false =>
        rw [hn] at h
        simp only [Bool.false_eq_true, if_false] at h
        have ha : orderArgs q = [⟨"__DEFAULT__", ""⟩] := by simp [orderArgs, hq, hd]
        have hh : (p.metricFields ++ p.dimFields).head? = some f := by
          have fm := lookupAll_forall _ _ _ hm
          have fd := lookupAll_forall _ _ _ hds
          generalize q.metrics = qm at *
          generalize q.dimensions = qd at *
          generalize p.metricFields = pm at *
          generalize p.dimFields = pd at *
          cases fm with
          | cons h1 _ =>
            injection hn with hn
            subst hn
            rw [h1] at hf
            injection hf with hf
            simp [hf]
          | nil =>
            cases fd with
            | nil => cases ‹([] ++ [] : List String).head? = some n›
            | cons h1 _ =>
              injection hn with hn
              subst hn
              rw [h1] at hf
              injection hf with hf
              simp [hf]
        rw [ha] at h
        simp only [orderItems, if_true, hh, Option.map_some] at h
        injection h with h
        subst h
        rfl

/-! ### Concrete cases -/

def exFields : String → Res QField := fun n =>
  match (["revenue", "orders.revenue"].contains n, n) with
  | (true, _) => .ok ⟨"orders", false, true, "orders_revenue", "SUM(orders.revenue)"⟩
  | (_, "region") => .ok ⟨"orders", false, false, "orders_region", "orders.region"⟩
  | (_, "order_id") => .ok ⟨"orders", true, false, "orders_order_id", "orders.order_id"⟩
  | (_, "ription") => .ok ⟨"orders", false, false, "orders_ription", "orders.ription"⟩
  | (_, "description") => .ok ⟨"orders", false, false, "orders_description", "orders.description"⟩
  | _ => .error .accessDenied

def exRequest : QRequest := ⟨["revenue"], ["region"], false, [], [], ["revenue", "region"], true, .text " Revenue DESC nulls last, region  ", [], false, true⟩

/-- A query with HAVING and ORDER BY is answered with the expected clauses. -/
example : queryClauses exFields exRequest = .ok ⟨some ["orders.region"], true, [⟨"orders_revenue", true, true⟩, ⟨"orders_region", false, true⟩]⟩ := by
  decide +kernel

/-- The hypotheses of `C44_text_partial` hold for that query. -/
example : (∀ x ∈ [("Revenue".toList, Dir.desc, Nulls.last, " Revenue DESC nulls last".toList), ("region".toList, Dir.none, Nulls.none, " region  ".toList)],
      IsClause x.1 x.2.1 x.2.2.1 x.2.2.2 ∧ SafeName x.1 x.2.1) ∧
    exRequest.order = .text (String.ofList ([','].intercalate [" Revenue DESC nulls last".toList, " region  ".toList])) := by
  refine ⟨?_, by decide +kernel⟩
  intro x hx
  simp only [List.mem_cons, List.not_mem_nil, or_false] at hx
  rcases hx with rfl | rfl
  · refine ⟨⟨1, 0, " DESC nulls last".toList, by decide, by decide⟩, by decide, by decide, ?_, fun h => absurd rfl h⟩
    rw [← containsSub_iff]; decide
  · refine ⟨⟨1, 2, [], by decide, by decide⟩, by decide, by decide, ?_, fun _ => ?_⟩
    · rw [← containsSub_iff]; decide
    · rw [← containsSub_iff]; decide

/-- The hypotheses of `C29_rejects` hold for a query by primary key. -/
example : AllKnown exFields { exRequest with dimensions := ["order_id"] } ∧
    (exRequest.metrics ++ ["order_id"]).Nodup ∧ RowPerKey exFields exRequest.metrics ["order_id"] false := by
  refine ⟨?_, by decide, rfl, "revenue", _, "order_id", _, rfl, rfl, by simp, rfl, rfl, rfl⟩
  intro n hn
  simp only [exRequest, List.cons_append, List.nil_append, List.mem_cons, List.not_mem_nil, or_false] at hn
  rcases hn with rfl | rfl | rfl | rfl <;> exact ⟨_, rfl⟩

example : queryClauses exFields { exRequest with dimensions := ["order_id"] } = .error .argument ∧
    queryClauses exFields { exRequest with dimensions := ["order_id"], force := true } =
      .ok ⟨some ["orders.order_id"], true, [⟨"orders_revenue", true, true⟩, ⟨"orders_region", false, true⟩]⟩ ∧
    queryClauses exFields { exRequest with dimensions := ["order_id"], hasHaving := false, order := .absent } = .ok ⟨none, false, []⟩ ∧
    queryClauses exFields { exRequest with dimensions := ["region", "region"] } = .error .query ∧
    queryClauses exFields { exRequest with order := .absent } = .ok ⟨some ["orders.region"], true, [⟨"orders_revenue", true, true⟩]⟩ ∧
    queryClauses exFields { exRequest with order := .json [("region", some "DESC"), ("revenue", none)] } =
      .ok ⟨some ["orders.region"], true, [⟨"orders_region", true, true⟩, ⟨"orders_revenue", false, true⟩]⟩ := by
  decide +kernel

/-- C29 fails for two spellings of one name: the check compares texts, so the same metric requested twice is answered. -/
theorem C29_spelling : ∃ c, queryClauses exFields { exRequest with metrics := ["revenue", "orders.revenue"] } = .ok c ∧
    exFields "revenue" = exFields "orders.revenue" := by
  refine ⟨⟨some ["orders.region"], true, [⟨"orders_revenue", true, true⟩, ⟨"orders_region", false, true⟩]⟩, by decide +kernel, by decide +kernel⟩

/-- C29 fails for merged queries: they never check for repeated names, so a merged metric requested twice is answered. -/
theorem C29_merged : ∃ p, derivePlan dEnv ["rate", "rate"] [] [] [] = .ok p ∧ (p.metrics.map Prod.fst).length = 2 :=
  ⟨_, rfl, rfl⟩

/-- C44 fails for names that contain the keywords: `description desc` sorts by another field, or by an unknown one. -/
theorem C44_corrupted :
    parseOrderBy (.text "description desc") = [⟨"ription", "desc"⟩] ∧
    parseOrderBy (.text "description") = [⟨"ription", "desc"⟩] ∧
    parseOrderBy (.text "description asc") = [⟨"ription asc", "desc"⟩] ∧
    parseOrderBy (.text "cascade") = [⟨"cade", "asc"⟩] ∧
    queryClauses exFields { exRequest with order := .text "description" } =
      .ok ⟨some ["orders.region"], true, [⟨"orders_ription", true, true⟩]⟩ ∧
    queryClauses exFields { exRequest with order := .text "description asc" } = .error .accessDenied := by
  decide +kernel

/-- C44 fails for `nulls first`: NULLs still come last. -/
theorem C44_nulls_first : queryClauses exFields { exRequest with order := .text "region nulls first" } =
    .ok ⟨some ["orders.region"], true, [⟨"orders_region", false, true⟩]⟩ := by
  decide +kernel

end ML
