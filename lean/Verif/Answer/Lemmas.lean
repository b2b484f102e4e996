import Verif.Answer.Spec
import Verif.Filters.Props
import Verif.ParseQ.Props
/-
Supporting lemmas for C55 and C56.
-/
set_option autoImplicit false
namespace ML
open Spec

section
variable {ρ : Type}

theorem meanings_all (val : Nat → TV) (fs : List FObj) : TV.conj (meanings val fs) = .t ↔ ∀ v ∈ meanings val fs, v = .t :=
  (C04_row_kept _).1

/-- The clause of access comparisons and filters keeps exactly the items on which all of them are true. -/
theorem clause_keeps (acc : List Nat) (fs : List FObj) (h : WellFormedFilters fs) :
    ∃ o, clauseText (parseFilterObject (.filters fs) (accessText acc)) = .ok o ∧
      ∀ (D : Db ρ) (b : Block) (items kept : List (List ρ)), KeepsItems D b o items kept ↔
        ∃ p : List ρ → Bool, (∀ G, p G = true ↔ (∀ i ∈ acc, b.truth D G i = .t) ∧ ∀ v ∈ meanings (b.truth D G) fs, v = .t) ∧
          kept = items.filter p := by
  have key : ∀ (ts : List Tok) (e : Expr), Reads ts e →
      (∀ val, e.eval val = .t ↔ (∀ i ∈ acc, val i = .t) ∧ ∀ v ∈ meanings val fs, v = .t) →
      ∀ (D : Db ρ) (b : Block) (items kept : List (List ρ)), KeepsItems D b (some ts) items kept ↔
        ∃ p : List ρ → Bool, (∀ G, p G = true ↔ (∀ i ∈ acc, b.truth D G i = .t) ∧ ∀ v ∈ meanings (b.truth D G) fs, v = .t) ∧
          kept = items.filter p := by
    intro ts e hr hv D b items kept
    constructor
    · rintro ⟨e', hr', rfl⟩
      rw [Reads_unique hr' hr]
      refine ⟨fun G => decide (e.eval (b.truth D G) = .t), fun G => ?_, rfl⟩
      rw [decide_eq_true_iff]
      exact hv _
    · rintro ⟨p, hp, rfl⟩
      refine ⟨e, hr, List.filter_congr fun G _ => ?_⟩
      rw [Bool.eq_iff_iff, hp, decide_eq_true_iff]
      exact (hv _).symm
  cases acc with
  | nil =>
    cases fs with
    | nil =>
      refine ⟨none, rfl, fun D b items kept => ?_⟩
      constructor
      · intro hk
        refine ⟨fun _ => true, fun G => ?_, ?_⟩
        · simp [meanings]
        · rw [show kept = items from hk]; simp
      · rintro ⟨p, hp, rfl⟩
        have : ∀ G, p G = true := fun G => (hp G).mpr ⟨by simp, by simp [meanings]⟩
        show items.filter p = items
        exact List.filter_eq_self.mpr fun G _ => this G
    | cons f fs =>
      obtain ⟨ts, e, hc, hr, hv⟩ := C04_clause_meaning (f :: fs) (by simp) h
      refine ⟨some ts, hc, key ts e hr fun val => ?_⟩
      rw [hv, meanings_all]
      simp
  | cons j js =>
    obtain ⟨ts, e, hc, hr, hv⟩ := where_clause_value (.filters fs) h (some [("a", some "x")]) (fun _ _ => j :: js) [⟨"f", "a"⟩] j
      ⟨⟨"f", "a"⟩, by simp, [("a", some "x")], "x", rfl, (User_get _ _ _).mp (by decide), by decide, by simp⟩
    have ha : accessConditions (some [("a", some "x")]) (fun _ _ => j :: js) [⟨"f", "a"⟩] = j :: js := by
      simp [accessConditions, User.get]
    have ht : accessFilterText (some [("a", some "x")]) (fun _ _ => j :: js) [⟨"f", "a"⟩] = accessText (j :: js) := by
      unfold accessFilterText
      rw [ha]
      rfl
    unfold whereClause at hc
    rw [ht] at hc
    refine ⟨some ts, hc, key ts e hr fun val => ?_⟩
    obtain ⟨v, h1, h2⟩ := hv val
    rw [ha] at h2
    rw [h2, show v = TV.conj (meanings val fs) from h1, ← meanings_all]
    have : TV.conj ((j :: js).map val) = .t ↔ ∀ i ∈ j :: js, val i = .t := by
      rw [(C04_row_kept _).1]
      simp only [List.mem_map, forall_exists_index, and_imp, forall_apply_eq_imp_iff₂]
    rw [← this]
    cases TV.conj ((j :: js).map val) <;> cases TV.conj (meanings val fs) <;> simp [TV.and]

/-- The parts of a block. -/
theorem buildBlock_ok {P : AnsProject} {w : Warehouse} {views : List String} {q : Question} {b : Block} (h : buildBlock P w views q = .ok b) :
    ∃ c fs, queryClauses (getQ P.get) (q.toRequest w) = .ok c ∧ getAll P.get (q.dimensions ++ q.metrics) = .ok fs ∧
      b.groupBy = c.groupBy ∧ b.orderBy = c.orderBy ∧ b.views = views ∧ b.nullsOption = hasNullsOption w ∧
      b.limit = limitClause w q.limit ∧ b.byAlias = decide (w = Warehouse.bigquery) ∧
      clauseText (parseFilterObject (.filters q.wheres) (accessText (P.access views))) = .ok b.whereText ∧
      (c.groupBy = none → b.select = rawSelect fs ∧ b.havingText = none) ∧
      (c.groupBy ≠ none → groupSelect w (P.fpk views) fs = .ok b.select ∧ clauseText (q.havings.map QFilter.json) = .ok b.havingText) ∧
      (∀ i, b.cond i = match P.get (q.fieldOf i) with
        | .error e => .error e
        | .ok f => fieldExpr w (P.fpk views) f) ∧
      checkConds b.cond (clauseComparisons b.whereText ++ clauseComparisons b.havingText) = .ok () := by
  unfold buildBlock at h
  cases hc : queryClauses (getQ P.get) (q.toRequest w) with
  | error e => rw [hc] at h; cases h
  | ok c =>
    rw [hc] at h
    simp only at h
    cases hf : getAll P.get (q.dimensions ++ q.metrics) with
    | error e => rw [hf] at h; cases h
    | ok fs =>
      rw [hf] at h
      simp only at h
      cases hs : blockColumns w (P.fpk views) c.groupBy fs with
      | error e => rw [hs] at h; cases h
      | ok sel =>
        rw [hs] at h
        simp only at h
        cases hw : clauseText (parseFilterObject (.filters q.wheres) (accessText (P.access views))) with
        | error e => rw [hw] at h; cases h
        | ok wh =>
          rw [hw] at h
          simp only at h
          cases hh : havingClause c.groupBy q.havings with
          | error e => rw [hh] at h; cases h
          | ok hv =>
            rw [hh] at h
            simp only at h
            split at h
            · cases h
            · rename_i hk
              cases h
              refine ⟨c, fs, rfl, rfl, rfl, rfl, rfl, rfl, rfl, rfl, rfl, ?_, ?_, fun _ => rfl, hk⟩
              · intro hg
                rw [hg] at hs hh
                simp only [blockColumns, havingClause, Except.ok.injEq] at hs hh
                exact ⟨hs.symm, hh.symm⟩
              · intro hg
                cases hcg : c.groupBy with
                | none => exact absurd hcg hg
                | some x =>
                  rw [hcg] at hs hh
                  exact ⟨hs, hh⟩

theorem getAll_names {P : AnsProject} {ns : List String} {fs : List AnsField} : getAll P.get ns = .ok fs ↔ Names P ns fs := by
  unfold Names
  induction ns generalizing fs with
  | nil => simp only [getAll, Except.ok.injEq, List.forall₂_nil_left_iff]; exact eq_comm
  | cons n ns ih =>
    rw [getAll]
    cases hn : P.get n with
    | error e => simp [List.forall₂_cons_left_iff, hn]
    | ok f =>
      cases hg : getAll P.get ns with
      | error e =>
        simp only [reduceCtorEq, List.forall₂_cons_left_iff, false_iff, not_exists, not_and]
        rintro f' fs' - h2 -
        have := ih.mpr h2
        rw [hg] at this
        cases this
      | ok gs =>
        have hgs := ih.mp hg
        simp only [Except.ok.injEq, List.forall₂_cons_left_iff, hn]
        constructor
        · rintro rfl
          exact ⟨f, gs, rfl, hgs, rfl⟩
        · rintro ⟨f', fs', rfl, h2, rfl⟩
          have := ih.mpr h2
          rw [hg] at this
          cases this
          rfl

theorem Spec.Names.append {P : AnsProject} {ns ms : List String} {fs gs : List AnsField} (h : Names P ns fs) (h' : Names P ms gs) :
    Names P (ns ++ ms) (fs ++ gs) := List.rel_append h h'

theorem Spec.Names.unique {P : AnsProject} {ns : List String} {fs gs : List AnsField} (h : Names P ns fs) (h' : Names P ns gs) : fs = gs := by
  have a := getAll_names.mpr h
  have b := getAll_names.mpr h'
  rw [a] at b
  cases b
  rfl

theorem getQ_ok {get : String → Res AnsField} {n : String} {f : QField} (h : getQ get n = .ok f) : ∃ g, get n = .ok g ∧ f = g.toQ := by
  unfold getQ at h
  cases hg : get n with
  | error e => rw [hg] at h; cases h
  | ok g => rw [hg] at h; cases h; exact ⟨g, rfl, rfl⟩

theorem mem_names {P : AnsProject} {ns : List String} {fs : List AnsField} (h : Names P ns fs) {f : AnsField} (hf : f ∈ fs) :
    ∃ n ∈ ns, P.get n = .ok f := by
  unfold Names at h
  induction h with
  | nil => cases hf
  | cons h1 h2 ih =>
    rcases List.mem_cons.mp hf with rfl | hf
    · exact ⟨_, by simp, h1⟩
    · obtain ⟨n, hn, hg⟩ := ih hf
      exact ⟨n, by simp [hn], hg⟩

theorem names_mem {P : AnsProject} {ns : List String} {fs : List AnsField} (h : Names P ns fs) {n : String} (hn : n ∈ ns) :
    ∃ f ∈ fs, P.get n = .ok f := by
  unfold Names at h
  induction h with
  | nil => cases hn
  | cons h1 h2 ih =>
    rcases List.mem_cons.mp hn with rfl | hn
    · exact ⟨_, by simp, h1⟩
    · obtain ⟨f, hf, hg⟩ := ih hn
      exact ⟨f, by simp [hf], hg⟩

/-- The query groups exactly when the specification says so. -/
theorem groups_iff {P : AnsProject} {w : Warehouse} {q : Question} {c : Clauses} {ds ms : List AnsField}
    (h : queryClauses (getQ P.get) (q.toRequest w) = .ok c) (hd : Names P q.dimensions ds) (hm : Names P q.metrics ms) :
    c.groupBy ≠ none ↔ GroupsRows q ds ms := by
  have hk := (C29_group_by _ _ _ h).1
  rw [Ne, hk]
  unfold RowPerKey GroupsRows
  simp only [Question.toRequest]
  generalize q.metrics = mets at hm
  constructor
  · intro hn
    by_cases hf : q.force = true
    · exact .inl hf
    · refine .inr fun m hmh d hdm hp hv => hn ⟨by simpa using hf, ?_⟩
      cases hm with
      | nil => cases hmh
      | cons h1 h2 =>
        cases hmh
        obtain ⟨n, hn', hg⟩ := mem_names hd hdm
        refine ⟨_, m.toQ, n, d.toQ, rfl, ?_, hn', ?_, hp, hv⟩
        · unfold getQ; rw [h1]; rfl
        · unfold getQ; rw [hg]; rfl
  · rintro hor ⟨hf, m, fm, d, fd, hmh, hgm, hdm, hgd, hp, hv⟩
    rcases hor with hor | hor
    · rw [hf] at hor; cases hor
    · obtain ⟨m', h1, rfl⟩ := getQ_ok hgm
      obtain ⟨d', h2, rfl⟩ := getQ_ok hgd
      obtain ⟨d'', h3, h4⟩ := names_mem hd hdm
      rw [h2] at h4
      cases h4
      cases hm with
      | nil => cases hmh
      | cons h5 h6 =>
        cases hmh
        rw [h1] at h5
        cases h5
        exact hor m' rfl d' h3 hp hv

/-- The truth of a comparison in the block is what the specification says. -/
theorem truth_eq {P : AnsProject} {w : Warehouse} {views : List String} {q : Question} {b : Block}
    (hc : ∀ i, b.cond i = match P.get (q.fieldOf i) with
        | .error e => .error e
        | .ok f => fieldExpr w (P.fpk views) f) (D : Db ρ) (G : List ρ) :
    b.truth D G = compared D P w (P.fpk views) q.fieldOf G := by
  funext i
  unfold Block.truth compared
  rw [hc]
  cases P.get (q.fieldOf i) with
  | error e => rfl
  | ok f =>
    simp only
    unfold fieldExpr valueOf
    cases hs : f.sql with
    | dimension s => rfl
    | measure m =>
      simp only
      cases ha : aggregateSql m w (P.fpk views) with
      | error e => rfl
      | ok a => rfl

theorem singles_filter (rows : List ρ) (p : List ρ → Bool) :
    (rows.map (fun r => [r])).filter p = (rows.filter (fun r => p [r])).map (fun r => [r]) := by
  rw [List.filter_map]
  rfl

theorem singles_inj {a b : List ρ} (h : a.map (fun r => [r]) = b.map (fun r => [r])) : a = b :=
  List.map_injective_iff.mpr (fun x y e => by simpa using e) h

/-- The columns of a grouped query, one for each field. -/
theorem groupSelect_ok {w : Warehouse} {fpk : FunctionalPk} {fs : List AnsField} {sel : List (SqlExpr × String)}
    (h : groupSelect w fpk fs = .ok sel) :
    List.Forall₂ (fun f c => c.2 = f.label ∧ fieldExpr w fpk f = .ok c.1) fs sel := by
  induction fs generalizing sel with
  | nil => cases h; exact .nil
  | cons f fs ih =>
    rw [groupSelect] at h
    cases hx : fieldExpr w fpk f with
    | error e => rw [hx] at h; cases h
    | ok x =>
      cases hr : groupSelect w fpk fs with
      | error e => rw [hx, hr] at h; cases h
      | ok xs =>
        rw [hx, hr] at h
        cases h
        exact .cons ⟨rfl, hx⟩ (ih hr)

theorem expr_value {E : Engine ρ} {w : Warehouse} {fpk : FunctionalPk} {f : AnsField} {x : SqlExpr} (h : fieldExpr w fpk f = .ok x)
    (G : List ρ) : x.eval E G = valueOf E w fpk f G := by
  unfold fieldExpr at h
  unfold valueOf
  cases hs : f.sql with
  | dimension s => rw [hs] at h; cases h; rfl
  | measure m =>
    rw [hs] at h
    simp only at h
    cases ha : aggregateSql m w fpk with
    | error e => rw [ha] at h; cases h
    | ok a =>
      rw [ha] at h
      cases h
      simp only [ha, SqlExpr.eval]

theorem line_values {E : Engine ρ} {w : Warehouse} {fpk : FunctionalPk} {fs : List AnsField} {sel : List (SqlExpr × String)}
    (h : List.Forall₂ (fun f c => c.2 = f.label ∧ fieldExpr w fpk f = .ok c.1) fs sel) (G : List ρ) :
    sel.map (fun c => c.1.eval E G) = fs.map (fun f => valueOf E w fpk f G) := by
  induction h with
  | nil => rfl
  | cons h1 h2 ih => simp only [List.map_cons, ih, expr_value h1.2]

/-- The column with an alias is one of the columns. -/
theorem columnOf_some {sel : List (SqlExpr × String)} {a : String} {i : Nat} {x : SqlExpr} (h : columnOf sel a = some (i, x)) :
    sel[i]? = some (x, a) ∧ ∀ c ∈ sel, c.2 = a → c = (x, a) := by
  unfold columnOf at h
  split at h
  · rename_i c hc
    simp only [Option.some.injEq, Prod.mk.injEq] at h
    obtain ⟨rfl, rfl⟩ := h
    have hm : c ∈ (sel.zipIdx).filter (fun c => c.1.2 = a) := by rw [hc]; simp
    obtain ⟨h1, h2⟩ := List.mem_filter.mp hm
    have h2 : c.1.2 = a := by simpa using h2
    have h3 := List.mem_zipIdx_iff_getElem?.mp h1
    refine ⟨by rw [h3]; rw [← h2], ?_⟩
    intro d hd hda
    obtain ⟨k, hk⟩ := List.mem_iff_getElem?.mp hd
    have : ((d, k) : (SqlExpr × String) × Nat) ∈ (sel.zipIdx).filter (fun c => c.1.2 = a) :=
      List.mem_filter.mpr ⟨List.mem_zipIdx_iff_getElem?.mpr hk, by simpa using hda⟩
    rw [hc] at this
    simp only [List.mem_singleton] at this
    rw [← this, ← hda]
  · cases h

/-- The GROUP BY items stand for the SQL of the dimensions. -/
theorem group_sqls {P : AnsProject} {w : Warehouse} {fpk : FunctionalPk} {b : Block} {ds ms : List AnsField} {names : List String}
    (hd : Names P names ds) (hdim : ∀ d ∈ ds, ∃ s, d.sql = .dimension s)
    (hsel : List.Forall₂ (fun f c => c.2 = f.label ∧ fieldExpr w fpk f = .ok c.1) (ds ++ ms) b.select)
    (hb : b.byAlias = decide (w = Warehouse.bigquery)) {ts : List String}
    (hts : List.Forall₂ (fun d col => ∃ f, getQ P.get d = .ok f ∧ col = if (decide (w = Warehouse.bigquery)) = true then f.label else f.sql) names ts)
    {sqls : List String} (hm : ts.mapM b.groupExpr = some sqls) (E : Engine ρ) (r : ρ) :
    sqls.map (E.value r) = ds.map (fun d => valueOf E w fpk d [r]) := by
  have hrow : ∀ d ∈ ds, ∃ c ∈ b.select, c.2 = d.label ∧ fieldExpr w fpk d = .ok c.1 := by
    clear hts hm hdim
    intro d hdm
    have : d ∈ ds ++ ms := by simp [hdm]
    generalize ds ++ ms = l at hsel this
    generalize b.select = sel at hsel
    clear * - hsel this
    induction hsel with
    | nil => cases this
    | cons h1 h2 ih =>
      rcases List.mem_cons.mp this with rfl | h
      · exact ⟨_, by simp, h1⟩
      · obtain ⟨c, hc, h⟩ := ih h
        exact ⟨c, by simp [hc], h⟩
  clear hsel
  unfold Names at hd
  induction hd generalizing ts sqls with
  | nil =>
    cases hts
    simp only [List.mapM_nil] at hm
    cases hm
    rfl
  | @cons n d ns ds h1 h2 ih =>
    cases hts with
    | @cons _ t _ ts h3 h4 =>
      rw [List.mapM_cons] at hm
      cases hg : b.groupExpr t with
      | none => rw [hg] at hm; cases hm
      | some s =>
        cases hr : ts.mapM b.groupExpr with
        | none => rw [hg, hr] at hm; cases hm
        | some ss =>
          rw [hg, hr] at hm
          cases hm
          have ih := ih (fun d hd => hdim d (by simp [hd])) h4 hr (fun d hd => hrow d (by simp [hd]))
          simp only [List.map_cons, ih, List.cons.injEq, and_true]
          obtain ⟨f, hf, ht⟩ := h3
          obtain ⟨g, hgg, rfl⟩ := getQ_ok hf
          rw [h1] at hgg
          cases hgg
          obtain ⟨sd, hsd⟩ := hdim d (by simp)
          obtain ⟨c, hc, hcl, hce⟩ := hrow d (by simp)
          have hx : c.1 = .row sd := by
            unfold fieldExpr at hce
            rw [hsd] at hce
            injection hce with hce
            exact hce.symm
          have hs : s = sd := by
            unfold Block.groupExpr at hg
            rw [hb] at hg
            cases hbq : decide (w = Warehouse.bigquery) with
            | true =>
              rw [hbq] at hg ht
              simp only [if_true] at hg ht
              cases hco : columnOf b.select t with
              | none => rw [hco] at hg; cases hg
              | some ix =>
                obtain ⟨i, x⟩ := ix
                have h5 := (columnOf_some hco).2 c hc (by rw [hcl, ht]; rfl)
                rw [hco] at hg
                have h6 : x = .row sd := by rw [← hx, h5]
                rw [h6] at hg
                cases hg
                rfl
            | false =>
              rw [hbq] at hg ht
              simp only [Bool.false_eq_true, if_false, Option.some.injEq] at hg ht
              rw [← hg, ht]
              unfold AnsField.toQ
              rw [hsd]
          unfold valueOf
          rw [hsd, hs]
          rfl

theorem valBefore_less {last d : Bool} {x y : Val} (h : Less last d x y) : valBefore d last x y = true := by
  cases h with
  | asc a b h => simp only [valBefore]; simp [h]
  | desc a b h => simp only [valBefore]; simp [h]
  | nullAfter d a h => rcases h with h | h <;> simp [valBefore, h]
  | nullBefore a h => simp [valBefore, h]

theorem valBefore_self (d o : Bool) (x : Val) : valBefore d o x x = false := by
  cases x <;> simp [valBefore]

theorem lineBefore_of_precedes {cols : List (Nat × Bool)} {x y : List Val} {last : Bool} (h : Precedes last cols x y) : lineBefore last cols x y = true := by
  induction h with
  | here i d rest x y a b hx hy hl =>
    rw [lineBefore]
    simp only [hx, hy, Option.join_some, valBefore_less hl, if_true]
  | later i d rest x y a hx hy _ ih =>
    rw [lineBefore]
    simp only [hx, hy, Option.join_some, valBefore_self, ih, Bool.false_eq_true, if_false]

theorem mapM_forall₂ {α β : Type} {f : α → Option β} {l : List α} {m : List β} (h : l.mapM f = some m) : List.Forall₂ (fun a b => f a = some b) l m := by
  induction l generalizing m with
  | nil => simp only [List.mapM_nil] at h; cases h; exact .nil
  | cons a l ih =>
    rw [List.mapM_cons] at h
    cases ha : f a with
    | none => rw [ha] at h; cases h
    | some b =>
      cases hl : l.mapM f with
      | none => rw [ha, hl] at h; cases h
      | some bs =>
        rw [ha, hl] at h
        cases h
        exact .cons ha (ih hl)

/-- The ORDER BY items of the block are the ordering asked for. -/
theorem order_items {P : AnsProject} {w : Warehouse} {q : Question} {c : Clauses} {ds ms : List AnsField}
    (h : queryClauses (getQ P.get) (q.toRequest w) = .ok c) (hp : Proper P q ds ms) (hg : c.groupBy ≠ none)
    (ht : ∀ s, q.order ≠ .text s) (hn : ∀ o ∈ askedOrder w q, o.1 ≠ "__DEFAULT__") :
    List.Forall₂ (fun o it => ∃ f, P.get o.1 = .ok f ∧ it = ⟨f.label, o.2, true⟩) (askedOrder w q) c.orderBy := by
  have hdefault : (q.toRequest w).order.given = false → askedOrder w q = defaultAsked w q.metrics q.dimensions →
    List.Forall₂ (fun o it => ∃ f, P.get o.1 = .ok f ∧ it = ⟨f.label, o.2, true⟩) (askedOrder w q) c.orderBy := by
    intro hgiven hask
    rw [hask]
    obtain ⟨cols, hcols⟩ := Option.ne_none_iff_exists'.mp hg
    by_cases hw : w = .snowflake ∨ w = .redshift ∨ w = .duckDb
    · have hd : (q.toRequest w).defaultOrder = true := by
        rcases hw with rfl | rfl | rfl <;> rfl
      have hcase : ∀ n f, (q.metrics ++ q.dimensions).head? = some n → P.get n = .ok f →
          c.orderBy = [⟨f.label, f.isMeasure, true⟩] := by
        intro n f h1 h2
        exact C44_default (getQ P.get) (q.toRequest w) c cols n f.toQ hgiven hd h hcols h1 (by unfold getQ; rw [h2]; rfl)
      cases hm : q.metrics with
      | cons m mt =>
        have := hp.metrics
        rw [hm] at this
        cases this with
        | @cons _ f _ fs h1 h2 =>
          obtain ⟨a, ha⟩ := hp.measure f (by simp)
          rw [hcase m f (by rw [hm]; rfl) h1]
          rw [defaultAsked, if_pos hw]
          refine .cons ⟨f, h1, ?_⟩ .nil
          simp [AnsField.isMeasure, ha]
      | nil =>
        cases hdd : q.dimensions with
        | cons d dt =>
          have := hp.dims
          rw [hdd] at this
          cases this with
          | @cons _ f _ fs h1 h2 =>
            obtain ⟨a, ha⟩ := hp.dimension f (by simp)
            rw [hcase d f (by rw [hm, hdd]; rfl) h1]
            rw [defaultAsked, if_pos hw]
            refine .cons ⟨f, h1, ?_⟩ .nil
            simp [AnsField.isMeasure, ha]
        | nil =>
          rw [defaultAsked]
          have : c.orderBy = [] := by
            unfold queryClauses at h
            cases hpi : parseInput (getQ P.get) (q.toRequest w) with
            | error e => rw [hpi] at h; cases h
            | ok p =>
              obtain ⟨_, h1, h2, _⟩ := parseInput_ok _ _ _ hpi
              simp only [Question.toRequest, hm, hdd, lookupAll, Except.ok.injEq] at h1 h2
              rw [hpi] at h
              simp only at h
              split at h
              · cases h
              · split at h
                · cases h; rfl
                · unfold orderArgs at h
                  rw [hgiven, hd, ← h1, ← h2] at h
                  simp only [Bool.false_eq_true, if_false, if_true, orderItems, List.append_nil, List.head?_nil, Option.map_none,
                    Option.toList_none] at h
                  cases h
                  rfl
          rw [this]
          exact .nil
    · have hd : (q.toRequest w).defaultOrder = false := by
        rw [not_or, not_or] at hw
        obtain ⟨h1, h2, h3⟩ := hw
        simp [Question.toRequest, h1, h2, h3]
      have : c.orderBy = [] := by
        unfold queryClauses at h
        cases hpi : parseInput (getQ P.get) (q.toRequest w) with
        | error e => rw [hpi] at h; cases h
        | ok p =>
          rw [hpi] at h
          simp only at h
          split at h
          · cases h
          · split at h
            · cases h; rfl
            · unfold orderArgs at h
              rw [hgiven, hd] at h
              simp only [Bool.false_eq_true, if_false, orderItems] at h
              cases h
              rfl
      have h0 : defaultAsked w q.metrics q.dimensions = [] := by
        cases q.metrics <;> cases q.dimensions <;> simp [defaultAsked, hw]
      rw [this, h0]
      exact .nil
  cases ho : q.order with
  | absent =>
    refine hdefault ?_ ?_
    · simp [Question.toRequest, ho, OrderBy.given]
    · simp only [askedOrder, ho]
  | text s => exact absurd ho (ht s)
  | json l =>
    cases l with
    | nil =>
      refine hdefault ?_ ?_
      · simp [Question.toRequest, ho, OrderBy.given]
      · simp only [askedOrder, ho]
    | cons x l =>
      have hask : askedOrder w q = (x :: l).map (fun c => (c.1, c.2.map lower == some "desc")) := by simp only [askedOrder, ho]
      rw [hask] at hn ⊢
      have := C44_list (getQ P.get) (q.toRequest w) c (x :: l) (by simp) ho
        (fun y hy => hn (y.1, y.2.map lower == some "desc") (List.mem_map.mpr ⟨y, hy, rfl⟩)) h
      rw [List.forall₂_map_left_iff]
      refine this.imp ?_
      rintro ⟨n, s⟩ it ⟨f, hf, rfl⟩
      obtain ⟨g, hg, rfl⟩ := getQ_ok hf
      refine ⟨g, hg, ?_⟩
      cases s with
      | none => simp [AnsField.toQ]
      | some s =>
        simp only [AnsField.toQ, Option.some.injEq, exists_eq_left', Option.map_some, OrderItem.mk.injEq, true_and, and_true]
        rw [Bool.eq_iff_iff]
        simp

/-- The ORDER BY columns are the columns of the fields asked for. -/
theorem order_columns {P : AnsProject} {w : Warehouse} {fpk : FunctionalPk} {q : Question} {b : Block} {ds ms : List AnsField}
    (hp : Proper P q ds ms) (hl : LabelsDiffer P)
    (hsel : List.Forall₂ (fun f c => c.2 = f.label ∧ fieldExpr w fpk f = .ok c.1) (ds ++ ms) b.select)
    {asked : List (String × Bool)} (ho : List.Forall₂ (fun o it => ∃ f, P.get o.1 = .ok f ∧ it = ⟨f.label, o.2, true⟩) asked b.orderBy)
    {cols : List (Nat × Bool)} (hc : b.orderColumns = some cols) : OrderColumns P q asked cols := by
  have h2 := mapM_forall₂ (by unfold Block.orderColumns at hc; exact hc)
  unfold OrderColumns
  generalize b.orderBy = items at ho h2
  clear hc
  induction ho generalizing cols with
  | nil => cases h2; exact .nil
  | cons h1 _ ih =>
    cases h2 with
    | @cons _ col _ cols h3 h4 =>
      refine .cons ?_ (ih h4)
      obtain ⟨f, hf, rfl⟩ := h1
      cases hco : columnOf b.select f.label with
      | none => simp only [hco, Option.map_none] at h3; cases h3
      | some ix =>
        obtain ⟨i, x⟩ := ix
        simp only [hco, Option.map_some, Option.some.injEq] at h3
        subst h3
        refine ⟨rfl, ?_⟩
        have h5 := (columnOf_some hco).1
        have hnames := Names.append hp.dims hp.metrics
        unfold Names at hnames
        simp only
        have hlen := hsel.length_eq
        have hlen2 := hnames.length_eq
        obtain ⟨hi, h6⟩ := List.getElem?_eq_some_iff.mp h5
        have hi2 : i < (ds ++ ms).length := by rw [hlen]; exact hi
        have hi3 : i < (q.dimensions ++ q.metrics).length := by rw [hlen2]; exact hi2
        refine ⟨(q.dimensions ++ q.metrics)[i], List.getElem?_eq_getElem hi3, ?_⟩
        have h7 := (List.forall₂_iff_get.mp hsel).2 i hi2 hi
        have h8 := (List.forall₂_iff_get.mp hnames).2 i hi3 hi2
        simp only [List.get_eq_getElem] at h7 h8
        rw [h8, hf, hl _ _ _ _ h8 hf (by rw [← h7.1, h6])]

end
end ML
