import Verif.Filters.Lemmas
/-
C03 Row-level access filters restrict every row returned.
C04 Nested AND/OR filter groups mean what the JSON says.
C27 Filter flattening lists every leaf once, in order.
C28 Measures and dimensions are never mixed in one filter group.
-/
set_option autoImplicit false
namespace ML
open Spec

/-! ### C04 -/

theorem sqlList_json (val : Nat → TV) (fs : List FObj) (h : WellFormedFilters fs) :
    ∃ cs, sqlList (fs.map QFilter.json) = .ok cs ∧ AllVal val cs (meanings val fs) := by
  induction fs with
  | nil => exact ⟨[], rfl, by rw [meanings]; exact .nil⟩
  | cons f fs ih =>
    rw [WellFormedFilters] at h
    obtain ⟨cs, hcs, hv⟩ := ih h.2
    obtain ⟨c, hc, hcv⟩ := groupSql_value val f h.1
    refine ⟨c :: cs, ?_, by rw [meanings]; exact .cons hcv hv⟩
    simp only [List.map_cons, sqlList, QFilter.sql, (validate_ok f).mpr h.1, hc, hcs]

/-- C04 (a): for every non-empty list of documented JSON filters, at any nesting depth, the clause
is produced and the database reads it, with AND binding tighter than OR, as an expression whose
truth value on every row is the conjunction of the filters' meanings. -/
theorem C04_clause_meaning (fs : List FObj) (hne : fs ≠ []) (h : WellFormedFilters fs) :
    ∃ ts e, clauseText (fs.map QFilter.json) = .ok (some ts) ∧ Reads ts e ∧
      ∀ val, e.eval val = TV.conj (meanings val fs) := by
  obtain ⟨cs, hcs, -⟩ := sqlList_json (fun _ => .u) fs h
  have hv : ∀ val, AllVal val cs (meanings val fs) := by
    intro val
    obtain ⟨cs', hcs', hv⟩ := sqlList_json val fs h
    rw [hcs] at hcs'; cases hcs'; exact hv
  have hcne : cs ≠ [] := by
    refine Forall₂_ne_nil (hv (fun _ => .u)) ?_
    cases fs with
    | nil => exact absurd rfl hne
    | cons f fs => rw [meanings]; simp
  have hval := fun val => fold_and_value cs _ hcne (hv val)
  obtain ⟨ts, hts, ⟨e, hr, hev⟩, -⟩ := render_reads _ (good_of_value (hval (fun _ => .u)))
  refine ⟨ts, e, ?_, hr, fun val => HasValue_unique (hev val) (hval val)⟩
  have hm : fs.map QFilter.json ≠ [] := by simpa using hne
  cases hf : fs.map QFilter.json with
  | nil => exact absurd hf hm
  | cons x xs =>
    rw [hf] at hcs
    simp only [clauseText, hcs, hts]

/-- C04 (b): the reading of a text is unique, so (a) describes what the database does. -/
theorem C04_reading_unique (ts : List Tok) (e e' : Expr) (h : Reads ts e) (h' : Reads ts e') :
    e = e' := Reads_unique h h'

/-- C04 (c): three-valued conjunction and disjunction mean what SQL says: a row passes a
conjunction exactly when it passes every member, a disjunction exactly when it passes one. -/
theorem C04_row_kept (l : List TV) :
    (TV.conj l = .t ↔ ∀ v ∈ l, v = .t) ∧ (TV.disj l = .t ↔ ∃ v ∈ l, v = .t) := by
  constructor
  · induction l with
    | nil => simp [TV.conj]
    | cons v l ih =>
      have : TV.conj (v :: l) = v.and (TV.conj l) := rfl
      rw [this]
      simp only [List.mem_cons, forall_eq_or_imp, ← ih]
      cases v <;> cases TV.conj l <;> simp [TV.and]
  · induction l with
    | nil => simp [TV.disj]
    | cons v l ih =>
      have : TV.disj (v :: l) = v.or (TV.disj l) := rfl
      rw [this]
      simp only [List.mem_cons, exists_eq_or_imp, ← ih]
      cases v <;> cases TV.disj l <;> simp [TV.or]

/-- C04 (d): anything that is not a documented filter is rejected, never silently dropped. -/
theorem C04_rejects (f : FObj) (h : ¬ WellFormedFilter f) :
    ∃ e, (QFilter.json f).sql = .error e := by
  cases hv : validateFilter f with
  | ok u => exact absurd ((validate_ok f).mp hv) h
  | error e => exact ⟨e, by simp only [QFilter.sql, hv]⟩

/-! ### C03 -/

theorem joinAnd_operand (val : Nat → TV) (i : Nat) (is : List Nat) :
    ∃ e, ReadsAsOperand (joinAnd ((i :: is).map (fun i => [Tok.atom i]))) e ∧
      e.eval val = TV.conj ((i :: is).map val) := by
  induction is generalizing i with
  | nil =>
    refine ⟨.atom i, ⟨2, rfl⟩, ?_⟩
    simp [Expr.eval, TV.conj, TV.and_t]
  | cons j is ih =>
    obtain ⟨e, he, hev⟩ := ih j
    have ha : ReadsAsOperand [Tok.atom i] (.atom i) := ⟨2, rfl⟩
    obtain ⟨e', he', hev'⟩ := operand_and ha he
    refine ⟨e', ?_, ?_⟩
    · simpa [joinAnd] using he'
    · rw [hev', hev]; rfl

/-- The comparisons the access filters demand of a row: one group per access filter whose
attribute the user has (with a non-empty value). -/
def Spec.Demanded (user : Option User) (cmp : String → String → List Nat)
    (afs : List AccessFilter) (i : Nat) : Prop :=
  ∃ af ∈ afs, ∃ u v, user = some u ∧ HasAttr u af.userAttr v ∧ v ≠ "" ∧ i ∈ cmp af.field v

theorem mem_accessConditions (user : Option User) (cmp : String → String → List Nat)
    (afs : List AccessFilter) (i : Nat) :
    i ∈ accessConditions user cmp afs ↔ Spec.Demanded user cmp afs i := by
  unfold accessConditions Spec.Demanded
  simp only [List.mem_flatMap]
  constructor
  · rintro ⟨af, haf, hi⟩
    refine ⟨af, haf, ?_⟩
    split at hi
    · cases hi
    · rename_i u
      split at hi
      · cases hi
      · rename_i v hv
        split at hi
        · cases hi
        · rename_i hne
          exact ⟨u, v, rfl, (User_get u _ v).mp hv, hne, hi⟩
  · rintro ⟨af, haf, u, v, rfl, hv, hne, hi⟩
    refine ⟨af, haf, ?_⟩
    simp only [(User_get u _ v).mpr hv, if_neg hne, hi]

/-- The user's own filters, as the property allows them: any JSON filters, or a text that the
database reads as one operand of AND. -/
def Spec.SafeWhere : WhereArg → Prop
  | .text ts => ∃ e, ReadsAsOperand ts e
  | .filters fs => WellFormedFilters fs

/-- The meaning of the user's own filters. -/
def Spec.WhereMeans (val : Nat → TV) : WhereArg → TV → Prop
  | .text ts, v => ∃ e, Reads ts e ∧ v = e.eval val
  | .filters fs, v => v = TV.conj (meanings val fs)

/-- The user's part of the filter list. -/
def ownFilters : WhereArg → List QFilter
  | .text ts => [QFilter.literal ts]
  | .filters fs => fs.map QFilter.json

/-- Shared core of C03: the clause is the conjunction of the demanded comparisons and the user's
filters. -/
theorem where_clause_value (w : WhereArg) (hw : Spec.SafeWhere w) (user : Option User)
    (cmp : String → String → List Nat) (afs : List AccessFilter) (i : Nat)
    (hi : Spec.Demanded user cmp afs i) :
    ∃ ts e, whereClause w user cmp afs = .ok (some ts) ∧ Reads ts e ∧ ∀ val, ∃ v,
      Spec.WhereMeans val w v ∧
      e.eval val = (TV.conj ((accessConditions user cmp afs).map val)).and v := by
  have hmem := (mem_accessConditions user cmp afs i).mpr hi
  obtain ⟨j, js, hjs⟩ : ∃ j js, accessConditions user cmp afs = j :: js := by
    cases h : accessConditions user cmp afs with
    | nil => rw [h] at hmem; cases hmem
    | cons j js => exact ⟨j, js, rfl⟩
  have htext : accessFilterText user cmp afs
      = some (joinAnd ((j :: js).map (fun i => [Tok.atom i]))) := by
    simp only [accessFilterText, hjs]
  have hlit : ∀ val, Crit.HasValue val (.lit (joinAnd ((j :: js).map (fun i => [Tok.atom i]))))
      (TV.conj ((j :: js).map val)) := by
    intro val
    obtain ⟨e, he, hev⟩ := joinAnd_operand val j js
    exact ⟨e, he, hev.symm⟩
  have hrest : ∃ cs, sqlList (ownFilters w) = .ok cs ∧
      ∀ val, ∃ vs, AllVal val cs vs ∧ Spec.WhereMeans val w (TV.conj vs) := by
    cases w with
    | text ts =>
      obtain ⟨e, he⟩ := hw
      refine ⟨[.lit ts], rfl, fun val => ⟨[e.eval val], .cons ⟨e, he, rfl⟩ .nil, ?_⟩⟩
      exact ⟨e, operand_reads he, by simp [TV.conj, TV.and_t]⟩
    | filters fs =>
      obtain ⟨cs, hcs, -⟩ := sqlList_json (fun _ => .u) fs hw
      refine ⟨cs, hcs, fun val => ⟨meanings val fs, ?_, rfl⟩⟩
      obtain ⟨cs', hcs', hv⟩ := sqlList_json val fs hw
      rw [hcs] at hcs'; cases hcs'; exact hv
  obtain ⟨cs, hcs, hcv⟩ := hrest
  have hval : ∀ val, ∃ v, Spec.WhereMeans val w v ∧
      (Crit.fold .and (.lit (joinAnd ((j :: js).map (fun i => [Tok.atom i]))) :: cs)).HasValue val
        ((TV.conj ((j :: js).map val)).and v) := by
    intro val
    obtain ⟨vs, h1, h2⟩ := hcv val
    exact ⟨_, h2, fold_and_value _ (_ :: vs) (by simp) (.cons (hlit val) h1)⟩
  obtain ⟨v0, -, h0⟩ := hval (fun _ => .u)
  obtain ⟨ts, hts, ⟨e, hr, hev⟩, -⟩ := render_reads _ (good_of_value h0)
  refine ⟨ts, e, ?_, hr, ?_⟩
  · have hp : parseFilterObject w (accessFilterText user cmp afs) =
        QFilter.literal (joinAnd ((j :: js).map (fun i => [Tok.atom i]))) ::
          ownFilters w := by
      rw [htext]; cases w <;> rfl
    simp only [whereClause, hp, clauseText, sqlList, QFilter.sql, hcs, hts]
  · intro val
    obtain ⟨v, h1, h2⟩ := hval val
    exact ⟨v, h1, by rw [hjs]; exact HasValue_unique (hev val) h2⟩

/-- C03 (a), for queries whose filters are JSON, or a text with no top-level OR: every row the
WHERE clause keeps satisfies every comparison demanded by the access filters, and the user's own
filters. The full property (any text) is false, see `C03_literal_or_bypass`. -/
theorem C03_rows_restricted_partial (w : WhereArg) (hw : Spec.SafeWhere w) (user : Option User)
    (cmp : String → String → List Nat) (afs : List AccessFilter)
    (hi : ∃ i, Spec.Demanded user cmp afs i) :
    ∃ ts e, whereClause w user cmp afs = .ok (some ts) ∧ Reads ts e ∧
      ∀ val, e.eval val = .t →
        (∀ i, Spec.Demanded user cmp afs i → val i = .t) ∧ Spec.WhereMeans val w .t := by
  obtain ⟨i, hi⟩ := hi
  obtain ⟨ts, e, h1, h2, h3⟩ := where_clause_value w hw user cmp afs i hi
  refine ⟨ts, e, h1, h2, ?_⟩
  intro val ht
  obtain ⟨v, hv, hev⟩ := h3 val
  rw [hev] at ht
  have hboth : TV.conj ((accessConditions user cmp afs).map val) = .t ∧ v = .t := by
    revert ht
    cases TV.conj ((accessConditions user cmp afs).map val) <;> cases v <;> simp [TV.and]
  refine ⟨?_, hboth.2 ▸ hv⟩
  intro j hj
  have := (C04_row_kept _).1.mp hboth.1
  exact this _ (List.mem_map.mpr ⟨j, (mem_accessConditions user cmp afs j).mpr hj, rfl⟩)

/-- C03 (b): and no more than that: a row satisfying the access filters and the user's filters is
kept. -/
theorem C03_no_extra_restriction (w : WhereArg) (hw : Spec.SafeWhere w) (user : Option User)
    (cmp : String → String → List Nat) (afs : List AccessFilter)
    (hi : ∃ i, Spec.Demanded user cmp afs i) :
    ∃ ts e, whereClause w user cmp afs = .ok (some ts) ∧ Reads ts e ∧
      ∀ val, (∀ i, Spec.Demanded user cmp afs i → val i = .t) → Spec.WhereMeans val w .t →
        e.eval val = .t := by
  obtain ⟨i, hi⟩ := hi
  obtain ⟨ts, e, h1, h2, h3⟩ := where_clause_value w hw user cmp afs i hi
  refine ⟨ts, e, h1, h2, ?_⟩
  intro val ha hm
  obtain ⟨v, hv, hev⟩ := h3 val
  have hvt : v = .t := by
    cases w with
    | text t =>
      obtain ⟨e1, r1, rfl⟩ := hv
      obtain ⟨e2, r2, h⟩ := hm
      rw [Reads_unique r1 r2]; exact h.symm
    | filters fs => rw [hv]; exact hm.symm
  have hc : TV.conj ((accessConditions user cmp afs).map val) = .t := by
    refine (C04_row_kept _).1.mpr ?_
    intro x hx
    obtain ⟨j, hj, rfl⟩ := List.mem_map.mp hx
    exact ha j ((mem_accessConditions user cmp afs j).mp hj)
  rw [hev, hvt, hc]; rfl

/-- C03 (c): the full property is false for literal texts. With the access filter `a0` and the
user's literal filter `a1 or a2`, the generated text is `a0 AND a1 or a2`, which keeps a row that
fails the access filter. -/
theorem C03_literal_or_bypass :
    ∃ (w : WhereArg) (user : Option User) (cmp : String → String → List Nat)
      (afs : List AccessFilter) (ts : List Tok) (e : Expr) (val : Nat → TV) (i : Nat),
      Spec.Demanded user cmp afs i ∧ whereClause w user cmp afs = .ok (some ts) ∧ Reads ts e ∧
      e.eval val = .t ∧ val i = .f := by
  refine ⟨.text [.atom 1, .or, .atom 2], some [("region", some "eu")], fun _ _ => [0],
    [⟨"orders.region", "region"⟩], [.atom 0, .and, .atom 1, .or, .atom 2],
    .or (.and (.atom 0) (.atom 1)) (.atom 2), fun i => if i = 2 then .t else .f, 0, ?_, ?_, ?_, ?_, ?_⟩
  · exact ⟨_, List.mem_singleton.mpr rfl, _, "eu", rfl, ⟨[], [], rfl, by simp⟩, by decide, by simp⟩
  · decide
  · exact ⟨4, by decide⟩
  · decide
  · decide

/-! ### C27 -/

mutual
theorem flattenRec_eq (acc : List Leaf) : ∀ f : FObj, flattenRec acc f = acc ++ leaves f
  | .leaf l => by rw [flattenRec, leaves]
  | .group op cs => by rw [flattenRec, leaves]; exact flattenRecList_eq acc cs
  | .list cs => by rw [flattenRec, leaves]; exact flattenRecList_eq acc cs
  | .other => by rw [flattenRec, leaves]; simp
theorem flattenRecList_eq (acc : List Leaf) :
    ∀ cs : List FObj, flattenRecList acc cs = acc ++ leavesList cs
  | [] => by rw [flattenRecList, leavesList]; simp
  | c :: cs => by
    rw [flattenRecList, leavesList, flattenRec_eq acc c, flattenRecList_eq _ cs, List.append_assoc]
end

/-- C27 (a): flattening yields exactly the leaves in document order, each as often as it occurs,
at any nesting depth. -/
theorem C27_document_order (fs : List FObj) : flattenFilters fs = leavesList fs := by
  unfold flattenFilters
  rw [flattenRec_eq, leaves]; simp

mutual
theorem mem_leaves (l : Leaf) : ∀ f : FObj, l ∈ leaves f ↔ Inside l f
  | .leaf m => by
    rw [leaves]
    simp only [List.mem_singleton]
    constructor
    · rintro rfl; exact .here
    · intro h; cases h; rfl
  | .group op cs => by
    rw [leaves, mem_leavesList l cs]
    constructor
    · rintro ⟨c, hc, hi⟩; exact .group op cs c hc hi
    · intro h
      cases h with
      | group _ _ c hc hi => exact ⟨c, hc, hi⟩
  | .list cs => by
    rw [leaves, mem_leavesList l cs]
    constructor
    · rintro ⟨c, hc, hi⟩; exact .list cs c hc hi
    · intro h
      cases h with
      | list _ c hc hi => exact ⟨c, hc, hi⟩
  | .other => by
    rw [leaves]
    constructor
    · intro h; cases h
    · intro h; cases h
theorem mem_leavesList (l : Leaf) :
    ∀ cs : List FObj, l ∈ leavesList cs ↔ ∃ c ∈ cs, Inside l c
  | [] => by rw [leavesList]; simp
  | c :: cs => by
    rw [leavesList, List.mem_append, mem_leaves l c, mem_leavesList l cs]
    simp
end

/-- C27 (b): a leaf is listed exactly when it occurs inside one of the filters. -/
theorem C27_mem (fs : List FObj) (l : Leaf) :
    l ∈ flattenFilters fs ↔ ∃ f ∈ fs, Inside l f := by
  rw [C27_document_order, mem_leavesList]

/-- C27 (c): flattening a list of leaves gives the same leaves back. -/
theorem C27_flat_identity (ls : List Leaf) : flattenFilters (ls.map FObj.leaf) = ls := by
  rw [C27_document_order]
  induction ls with
  | nil => rw [List.map_nil, leavesList]
  | cons l ls ih => rw [List.map_cons, leavesList, ih, leaves]; rfl

/-- C27 (d): flattening distributes over concatenation, so each filter's leaves stay together and
in order. -/
theorem C27_append (fs gs : List FObj) :
    flattenFilters (fs ++ gs) = flattenFilters fs ++ flattenFilters gs := by
  simp only [C27_document_order]
  induction fs with
  | nil => rw [leavesList]; simp
  | cons f fs ih => rw [List.cons_append, leavesList, leavesList, ih, List.append_assoc]

/-! ### C28 -/

/-- `n` is registered with type `t` (its first entry). -/
def Spec.TypedAs (lookup : List (String × FieldType)) (n : String) (t : FieldType) : Prop :=
  ∃ pre post, lookup = pre ++ (n, t) :: post ∧ ∀ p ∈ pre, p.1 ≠ n

theorem find_typed {lookup : List (String × FieldType)} {n : String} {p : String × FieldType}
    (h : lookup.find? (fun p => decide (p.1 = n)) = some p) :
    p.1 = n ∧ Spec.TypedAs lookup n p.2 := by
  obtain ⟨h1, as, bs, h2, h3⟩ := List.find?_eq_some_iff_append.mp h
  have hp : p.1 = n := by simpa using h1
  refine ⟨hp, as, bs, ?_, fun q hq => by simpa using h3 q hq⟩
  rw [h2, ← hp]

theorem TypedAs_unique {lookup : List (String × FieldType)} {n : String} {t t' : FieldType}
    (h : Spec.TypedAs lookup n t) (h' : Spec.TypedAs lookup n t') : t = t' := by
  have key : ∀ t, Spec.TypedAs lookup n t →
      lookup.find? (fun p => decide (p.1 = n)) = some (n, t) := by
    rintro t ⟨as, bs, h1, h2⟩
    exact List.find?_eq_some_iff_append.mpr ⟨by simp, as, bs, h1, fun x hx => by simpa using h2 x hx⟩
  have := key t h
  rw [key t' h'] at this
  cases this; rfl

theorem leafTypes_ok {lookup : List (String × FieldType)} {ls : List Leaf} {ts : List FieldType}
    (h : leafTypes lookup ls = .ok ts) :
    (∀ l ∈ ls, ∃ n t, l.field = some n ∧ Spec.TypedAs lookup n t ∧ t ∈ ts) := by
  induction ls generalizing ts with
  | nil => simp
  | cons l ls ih =>
    simp only [leafTypes] at h
    split at h
    · cases h
    · rename_i n hn
      split at h
      · cases h
      · rename_i m t hf
        split at h
        · cases h
        · rename_i ts' hts
          cases h
          obtain ⟨-, hty⟩ := find_typed hf
          intro l' hl'
          simp only [List.mem_cons] at hl'
          rcases hl' with rfl | hl'
          · exact ⟨n, t, hn, hty, by simp⟩
          · obtain ⟨n', t', a, b, c⟩ := ih hts l' hl'
            exact ⟨n', t', a, b, by simp [c]⟩

/-- C28 (a): if the filters are accepted, every group's leaves, at any depth, refer to resolved
fields, and never a measure together with a dimension or dimension group. -/
theorem C28_not_mixed (lookup : List (String × FieldType)) (fs : List FObj)
    (h : parseFilters lookup fs = .ok ()) (op : Option String) (cs : List FObj)
    (hg : FObj.group op cs ∈ fs) :
    (∀ l, Inside l (.group op cs) → ∃ n t, l.field = some n ∧ Spec.TypedAs lookup n t) ∧
    ∀ l l' n n' t', Inside l (.group op cs) → Inside l' (.group op cs) →
      l.field = some n → l'.field = some n' →
      Spec.TypedAs lookup n .measure → Spec.TypedAs lookup n' t' →
      t' ≠ .dimension ∧ t' ≠ .dimensionGroup := by
  have hc : checkMix lookup (.group op cs) = .ok () := by
    induction fs with
    | nil => cases hg
    | cons f fs ih =>
      simp only [parseFilters] at h
      split at h
      · cases h
      · rename_i hf
        simp only [List.mem_cons] at hg
        rcases hg with rfl | hg
        · exact hf
        · exact ih h hg
  have hin : ∀ l, Inside l (.group op cs) → l ∈ flattenFilters cs := by
    intro l hl
    rw [C27_mem]
    cases hl with
    | group _ _ c hc hi => exact ⟨c, hc, hi⟩
  cases cs with
  | nil =>
    have hno : ∀ l, ¬ Inside l (.group op []) := by
      intro l hl
      have := hin l hl
      simp [flattenFilters, flattenRec, flattenRecList] at this
    exact ⟨fun l hl => absurd hl (hno l), fun l _ _ _ _ hl => absurd hl (hno l)⟩
  | cons c cs =>
    simp only [checkMix] at hc
    split at hc
    · cases hc
    · rename_i ts hts
      have hall := leafTypes_ok hts
      constructor
      · intro l hl
        obtain ⟨n, t, a, b, -⟩ := hall l (hin l hl)
        exact ⟨n, t, a, b⟩
      · intro l l' n n' t' hl hl' hn hn' hm ht'
        obtain ⟨m, s, a, b, hs⟩ := hall l (hin l hl)
        obtain ⟨m', s', a', b', hs'⟩ := hall l' (hin l' hl')
        rw [hn] at a; cases a
        rw [hn'] at a'; cases a'
        have e1 := TypedAs_unique hm b
        have e2 := TypedAs_unique ht' b'
        subst e1 e2
        split at hc
        · cases hc
        · rename_i hno
          simp only [Bool.and_eq_true, Bool.or_eq_true, List.contains_iff_mem] at hno
          constructor
          · rintro rfl; exact hno ⟨hs, .inl hs'⟩
          · rintro rfl; exact hno ⟨hs, .inr hs'⟩

theorem leafTypes_of_typed {lookup : List (String × FieldType)} {ls : List Leaf}
    (h : ∀ l ∈ ls, ∃ n t, l.field = some n ∧ Spec.TypedAs lookup n t) :
    ∃ ts, leafTypes lookup ls = .ok ts ∧
      ∀ t ∈ ts, ∃ l ∈ ls, ∃ n, l.field = some n ∧ Spec.TypedAs lookup n t := by
  induction ls with
  | nil => exact ⟨[], rfl, by simp⟩
  | cons l ls ih =>
    obtain ⟨ts, hts, hm⟩ := ih (fun l' hl' => h l' (by simp [hl']))
    obtain ⟨n, t, hn, hty⟩ := h l (by simp)
    have hty' := hty
    obtain ⟨as, bs, h1, h2⟩ := hty
    have hfind : lookup.find? (fun p => decide (p.1 = n)) = some (n, t) :=
      List.find?_eq_some_iff_append.mpr ⟨by simp, as, bs, h1, fun x hx => by simpa using h2 x hx⟩
    refine ⟨t :: ts, by simp only [leafTypes, hn, hfind, hts], ?_⟩
    intro t' ht'
    simp only [List.mem_cons] at ht'
    rcases ht' with rfl | ht'
    · exact ⟨l, by simp, n, hn, hty'⟩
    · obtain ⟨l', hl', r⟩ := hm t' ht'
      exact ⟨l', by simp [hl'], r⟩

/-- C28 (b): conversely a group whose leaves are resolved and not mixed is accepted. -/
theorem C28_accepts (lookup : List (String × FieldType)) (fs : List FObj)
    (hres : ∀ op cs, FObj.group op cs ∈ fs → ∀ l, Inside l (.group op cs) →
      ∃ n t, l.field = some n ∧ Spec.TypedAs lookup n t)
    (hmix : ∀ op cs, FObj.group op cs ∈ fs → ∀ l l' n n' t', Inside l (.group op cs) →
      Inside l' (.group op cs) → l.field = some n → l'.field = some n' →
      Spec.TypedAs lookup n .measure → Spec.TypedAs lookup n' t' →
      t' ≠ .dimension ∧ t' ≠ .dimensionGroup) :
    parseFilters lookup fs = .ok () := by
  induction fs with
  | nil => rfl
  | cons f fs ih =>
    have hrest := ih (fun op cs hg => hres op cs (by simp [hg]))
      (fun op cs hg => hmix op cs (by simp [hg]))
    have hf : checkMix lookup f = .ok () := by
      cases f with
      | group op cs =>
        cases cs with
        | nil => rfl
        | cons c cs =>
          have hins : ∀ l ∈ flattenFilters (c :: cs), Inside l (.group op (c :: cs)) := by
            intro l hl
            obtain ⟨d, hd, hi⟩ := (C27_mem _ _).mp hl
            exact .group op _ d hd hi
          obtain ⟨ts, hts, hm⟩ := leafTypes_of_typed (ls := flattenFilters (c :: cs))
            (fun l hl => hres op (c :: cs) (by simp) l (hins l hl))
          simp only [checkMix, hts]
          split
          · rename_i hbad
            exfalso
            simp only [Bool.and_eq_true, Bool.or_eq_true, List.contains_iff_mem] at hbad
            obtain ⟨l, hl, n, hn, ht⟩ := hm _ hbad.1
            rcases hbad.2 with hb | hb
            · obtain ⟨l', hl', n', hn', ht'⟩ := hm _ hb
              exact (hmix op _ (by simp) l l' n n' _ (hins l hl) (hins l' hl') hn hn' ht ht').1 rfl
            · obtain ⟨l', hl', n', hn', ht'⟩ := hm _ hb
              exact (hmix op _ (by simp) l l' n n' _ (hins l hl) (hins l' hl') hn hn' ht ht').2 rfl
          · rfl
      | leaf l => rfl
      | list cs => rfl
      | other => rfl
    simp only [parseFilters, hf, hrest]

/-- C28 (c): the names looked up before SQL is produced are exactly the leaves' fields (leaves with
a `group_by` are resolved separately), in order; a leaf without a field is an error. -/
theorem C28_identifiers (fs : List FObj) (ns : List String)
    (h : identifiersFromDicts fs = .ok ns) :
    ns.map some = ((flattenFilters fs).filter (fun l => !l.groupBy)).map (·.field) := by
  unfold identifiersFromDicts at h
  revert ns
  induction flattenFilters fs with
  | nil => intro ns h; simp [identifiersFromDicts.go] at h; subst h; rfl
  | cons l ls ih =>
    intro ns h
    simp only [identifiersFromDicts.go] at h
    cases hg : l.groupBy with
    | true =>
      simp only [hg, if_true] at h
      rw [List.filter_cons_of_neg (by simp [hg])]
      exact ih ns h
    | false =>
      simp only [hg, Bool.false_eq_true, if_false] at h
      rw [List.filter_cons_of_pos (by simp [hg])]
      split at h
      · cases h
      · rename_i n hn
        split at h
        · cases h
        · rename_i ns' hns
          cases h
          simp only [List.map_cons, hn, ih ns' hns]

/-! ### Concrete cases -/
namespace FiltersExample

/-- `(a0 AND (a1 OR a2)) OR a3` as JSON. -/
def nested : FObj :=
  .group (some "OR")
    [.group none [.leaf { field := some "v.a", first := 0 },
      .group (some "OR") [.leaf { field := some "v.b", first := 1 },
        .leaf { field := some "v.c", first := 2 }]],
     .leaf { field := some "v.d", first := 3, rest := [4] }]

example : WellFormedFilters [nested, .leaf { field := some "v.e", first := 5 }] := by
  simp [WellFormedFilters, WellFormedFilter, nested]
example : clauseText ([nested, .leaf { field := some "v.e", first := 5 }].map QFilter.json) =
    .ok (some [.lp, .lp, .atom 0, .and, .lp, .atom 1, .or, .atom 2, .rp, .rp, .or, .lp, .atom 3,
      .and, .atom 4, .rp, .rp, .and, .atom 5]) := by rfl
example : flattenFilters [nested] =
    [{ field := some "v.a", first := 0 }, { field := some "v.b", first := 1 },
     { field := some "v.c", first := 2 }, { field := some "v.d", first := 3, rest := [4] }] := by rfl
example : parseFilters [("v.a", .dimension), ("v.b", .measure), ("v.c", .dimension),
    ("v.d", .dimension)] [nested] = .error .query := by rfl
example : parseFilters [("v.a", .dimension), ("v.b", .dimensionGroup), ("v.c", .dimension),
    ("v.d", .dimension)] [nested] = .ok () := by rfl
/-- The hypotheses of C03 are met: a demanded comparison exists and the filter is safe. -/
example : Spec.SafeWhere (.filters [nested]) ∧
    Spec.Demanded (some [("region", some "eu")]) (fun _ _ => [7]) [⟨"v.region", "region"⟩] 7 := by
  refine ⟨by simp [Spec.SafeWhere, WellFormedFilters, WellFormedFilter, nested], ?_⟩
  exact ⟨_, List.mem_singleton.mpr rfl, _, "eu", rfl, ⟨[], [], rfl, by simp⟩, by decide, by simp⟩

end FiltersExample

end ML
