import Verif.Top.Spec
import Verif.Slice.Props
/-
C84: a limit shows the first lines of the answer without it.
-/
set_option autoImplicit false
namespace ML
open Spec

theorem less_total (last d : Bool) (a b : Val) : a = b ∨ Less last d a b ∨ Less last d b a := by
  cases a with
  | none =>
    cases b with
    | none => exact .inl rfl
    | some b =>
      right
      cases d with
      | true => exact .inr (.nullAfter _ _ (.inr rfl))
      | false =>
        cases last with
        | true => exact .inr (.nullAfter _ _ (.inl rfl))
        | false => exact .inl (.nullBefore _ rfl)
  | some a =>
    cases b with
    | none =>
      right
      cases d with
      | true => exact .inl (.nullAfter _ _ (.inr rfl))
      | false =>
        cases last with
        | true => exact .inl (.nullAfter _ _ (.inl rfl))
        | false => exact .inr (.nullBefore _ rfl)
    | some b =>
      rcases lt_trichotomy a b with h | h | h
      · cases d with
        | true => exact .inr (.inr (.desc _ _ h))
        | false => exact .inr (.inl (.asc _ _ h))
      · exact .inl (by rw [h])
      · cases d with
        | true => exact .inr (.inl (.desc _ _ h))
        | false => exact .inr (.inr (.asc _ _ h))

/-- The line has all columns of the ordering (for the proofs; it models no file in /repo). -/
def HasColumns (cols : List (Nat × Bool)) (x : List Val) : Prop := ∀ c ∈ cols, c.1 < x.length

theorem precedes_total (last : Bool) (cols : List (Nat × Bool)) (x y : List Val) (hx : HasColumns cols x) (hy : HasColumns cols y) :
    orderValues cols x = orderValues cols y ∨ Precedes last cols x y ∨ Precedes last cols y x := by
  induction cols with
  | nil => exact .inl rfl
  | cons c cols ih =>
    obtain ⟨i, d⟩ := c
    have h1 : i < x.length := hx _ List.mem_cons_self
    have h2 : i < y.length := hy _ List.mem_cons_self
    have e1 := List.getElem?_eq_getElem h1
    have e2 := List.getElem?_eq_getElem h2
    rcases less_total last d x[i] y[i] with h | h | h
    · rw [← h] at e2
      rcases ih (fun c hc => hx c (List.mem_cons_of_mem _ hc)) (fun c hc => hy c (List.mem_cons_of_mem _ hc)) with h' | h' | h'
      · left
        show (x[i]?).join :: orderValues cols x = (y[i]?).join :: orderValues cols y
        rw [h', e1, e2]
      · exact .inr (.inl (.later _ _ _ _ _ _ e1 e2 h'))
      · exact .inr (.inr (.later _ _ _ _ _ _ e2 e1 h'))
    · exact .inr (.inl (.here _ _ _ _ _ _ _ e1 e2 h))
    · exact .inr (.inr (.here _ _ _ _ _ _ _ e2 e1 h))

/-- Which line comes first only depends on what the lines show in the columns of the ordering. -/
theorem precedes_congr {last : Bool} {cols cols' : List (Nat × Bool)} {x y x' y' : List Val}
    (h : List.Forall₂ (fun c c' => c.2 = c'.2 ∧ x[c.1]? = x'[c'.1]? ∧ y[c.1]? = y'[c'.1]?) cols cols') (hp : Precedes last cols x y) : Precedes last cols' x' y' := by
  induction h with
  | nil => cases hp
  | @cons c c' cols cols' hc hcs ih =>
    obtain ⟨i', d'⟩ := c'
    obtain ⟨rfl, hx, hy⟩ := hc
    cases hp with
    | here i d rest _ _ a b h1 h2 h3 => exact .here _ _ _ _ _ a b (hx ▸ h1) (hy ▸ h2) h3
    | later i d rest _ _ a h1 h2 h3 => exact .later _ _ _ _ _ a (hx ▸ h1) (hy ▸ h2) (ih h3)

theorem precedes_values {last : Bool} {cols : List (Nat × Bool)} {x y x' y' : List Val} (h1 : HasColumns cols x) (h2 : HasColumns cols y) (h3 : HasColumns cols x')
    (h4 : HasColumns cols y') (hx : orderValues cols x = orderValues cols x') (hy : orderValues cols y = orderValues cols y') (hp : Precedes last cols x y) :
    Precedes last cols x' y' := by
  have key : ∀ a b : List Val, HasColumns cols a → HasColumns cols b → orderValues cols a = orderValues cols b → ∀ c ∈ cols, a[c.1]? = b[c.1]? := by
    intro a b ha hb hab c hc
    have h := List.map_inj_left.mp hab c hc
    rw [List.getElem?_eq_getElem (ha c hc), List.getElem?_eq_getElem (hb c hc)] at h ⊢
    exact congrArg some h
  refine precedes_congr ?_ hp
  rw [List.forall₂_same]
  exact fun c hc => ⟨rfl, key x x' h1 h3 hx c hc, key y y' h2 h4 hy c hc⟩

/-- Two sorted arrangements of the same lines show the same in the columns of the ordering. -/
theorem sorted_values {last : Bool} {cols : List (Nat × Bool)} {l1 l2 : List (List Val)} (hp : l1.Perm l2) (hc : ∀ x ∈ l1, HasColumns cols x)
    (h1 : l1.Pairwise (fun x y => ¬ Precedes last cols y x)) (h2 : l2.Pairwise (fun x y => ¬ Precedes last cols y x)) :
    l1.map (orderValues cols) = l2.map (orderValues cols) := by
  have hpair : ∀ l : List (List Val), (∀ x ∈ l, x ∈ l1) → l.Pairwise (fun x y => ¬ Precedes last cols y x) →
      (l.map (orderValues cols)).Pairwise (fun k k' => ∀ x ∈ l1, ∀ y ∈ l1, orderValues cols x = k → orderValues cols y = k' → ¬ Precedes last cols y x) := by
    intro l hl h
    rw [List.pairwise_map]
    refine h.imp_of_mem ?_
    intro a b ha hb hab x hx y hy e1 e2 h'
    exact hab (precedes_values (hc y hy) (hc x hx) (hc b (hl b hb)) (hc a (hl a ha)) e2 e1 h')
  refine List.Perm.eq_of_pairwise ?_ (hpair l1 (fun _ h => h) h1) (hpair l2 (fun x h => hp.mem_iff.mpr h) h2) (hp.map _)
  intro k k' hk hk' h h'
  obtain ⟨x, hx, rfl⟩ := List.mem_map.mp hk
  obtain ⟨y, hy, rfl⟩ := List.mem_map.mp hk'
  have hy := hp.mem_iff.mpr hy
  rcases precedes_total last cols x y (hc x hx) (hc y hy) with h0 | h0 | h0
  · exact h0
  · exact absurd h0 (h' y hy x hx rfl rfl)
  · exact absurd h0 (h x hx y hy rfl rfl)

section
variable {ρ : Type}

/-- A line shows a value for each field. -/
theorem line_fields {P : AnsProject} {q : Question} {ds ms : List AnsField} (hp : Proper P q ds ms) (E : Engine ρ) (w : Warehouse) (fpk : FunctionalPk) (r : ρ) (G : List ρ) :
    ∃ v : AnsField → Val, ds.map (fun d => valueOf E w fpk d [r]) ++ ms.map (fun m => valueOf E w fpk m G) = (ds ++ ms).map v := by
  refine ⟨fun f => match f.sql with
    | .dimension _ => valueOf E w fpk f [r]
    | .measure _ => valueOf E w fpk f G, ?_⟩
  rw [List.map_append]
  congr 1
  · refine List.map_congr_left fun d hd => ?_
    obtain ⟨s, hs⟩ := hp.dimension d hd
    simp only [hs]
  · refine List.map_congr_left fun m hm => ?_
    obtain ⟨s, hs⟩ := hp.measure m hm
    simp only [hs]

/-- The columns of the ordering are columns of the fields shown. -/
theorem order_fields {P : AnsProject} {q : Question} {ds ms : List AnsField} (hp : Proper P q ds ms) {asked : List (String × Bool)} {cols : List (Nat × Bool)}
    (h : OrderColumns P q asked cols) : List.Forall₂ (fun o c => c.2 = o.2 ∧ ∃ f, (ds ++ ms)[c.1]? = some f ∧ P.get o.1 = .ok f) asked cols := by
  refine h.imp ?_
  rintro o c ⟨h1, n, h2, h3⟩
  refine ⟨h1, ?_⟩
  have hall : Names P (q.dimensions ++ q.metrics) (ds ++ ms) := List.rel_append hp.dims hp.metrics
  obtain ⟨hlt, hn⟩ := List.getElem?_eq_some_iff.mp h2
  have hlen := hall.length_eq
  have hg := (List.forall₂_iff_get.mp hall).2 c.1 hlt (hlen ▸ hlt)
  refine ⟨(ds ++ ms)[c.1]'(hlen ▸ hlt), List.getElem?_eq_getElem _, ?_⟩
  rw [← h3, ← hn]
  exact hg

theorem queryViews_members {P : AnsProject} {q q' : Question} {views views' : List String} (hm : q'.metrics = q.metrics) (hd : q'.dimensions = q.dimensions)
    (hw : q'.whereNames = q.whereNames) (hh : q'.havingNames = q.havingNames) (ho : q'.orderNames = q.orderNames)
    (h : QueryViews P q views) (h' : QueryViews P q' views') (v : String) : v ∈ views ↔ v ∈ views' := by
  obtain ⟨fs, h1, -, h2⟩ := h
  obtain ⟨fs', h1', -, h2'⟩ := h'
  rw [hm, hd, hw, hh, ho] at h1'
  rw [h2, h2', h1.unique h1']

/-- All that is proved of two answers: their tables are one, in two arrangements. -/
theorem two_tables (P : AnsProject) (w : Warehouse) (q : Question) (limit limit' : Option Nat) (s s' : Stmt) (hs : buildStmt P w { q with limit := limit } = .ok s)
    (hs' : buildStmt P w { q with limit := limit' } = .ok s') (ds ms : List AnsField) (hp : Proper P q ds ms) (hne : ds ≠ []) (hg : GroupsRows q ds ms)
    (hq : OrdersByColumns w q) (hz : limit ≠ some 0 ∨ w ≠ .sqlServer ∧ w ≠ .azureSynapse) (hz' : limit' ≠ some 0 ∨ w ≠ .sqlServer ∧ w ≠ .azureSynapse)
    (hl : LabelsDiffer P) (D : Db ρ) (hset : SetOfViews D P) (out out' : List (List Val)) (ha : s.Answers D out) (ha' : s'.Answers D out') :
    ∃ lines lines', lines.Perm lines' ∧ Limited limit lines out ∧ Limited limit' lines' out' ∧ (lines.map (·.take ds.length)).Nodup ∧ 
      (∀ x ∈ lines, ∃ v : AnsField → Val, x = (ds ++ ms).map v) ∧
      (∀ cols, OrderColumns P q (askedOrder w q) cols → lines.map (orderValues cols) = lines'.map (orderValues cols)) := by
  have hpp : ∀ l, Proper P { q with limit := l } ds ms := fun l => ⟨hp.dims, hp.metrics, hp.dimension, hp.measure, hp.wheres, hp.havings⟩
  obtain ⟨views, lines, hv, ht, ho, hlim⟩ := C55_table P w { q with limit := limit } s hs ds ms (hpp _) hg hne hq.groups hl hq.order.1 hq.order.2 hz D out ha
  obtain ⟨views', lines', hv', ht', ho', hlim'⟩ := C55_table P w { q with limit := limit' } s' hs' ds ms (hpp _) hg hne hq.groups hl hq.order.1 hq.order.2 hz' D out' ha'
  have hvv := queryViews_members (q := { q with limit := limit }) (q' := { q with limit := limit' }) rfl rfl rfl rfl rfl hv hv'
  obtain ⟨e1, e2, -⟩ := hset views views' hvv
  have hpass : PassesWhere D P w views' { q with limit := limit' } = PassesWhere D P w views { q with limit := limit } := by
    funext r
    unfold PassesWhere
    rw [← e2]
    exact congrArg (· ∧ _) (propext (e2 ▸ access_pass hset w hvv q.fieldOf [r]))
  have hhav : PassesHaving D P w views' { q with limit := limit' } = PassesHaving D P w views { q with limit := limit } := by
    funext G
    unfold PassesHaving
    rw [← e2]
  rw [← e1, ← e2, hpass, hhav] at ht'
  have hperm : lines.Perm lines' := (List.perm_ext_iff_of_nodup (table_nodup ht) (table_nodup ht')).mpr fun l => by rw [table_iff ht, table_iff ht']
  have hval : ∀ x ∈ lines, ∃ v : AnsField → Val, x = (ds ++ ms).map v := by
    intro x hx
    obtain ⟨r, -, -, -, rfl⟩ := (table_iff ht x).mp hx
    exact line_fields hp _ _ _ _ _
  refine ⟨lines, lines', hperm, hlim, hlim', ht.once, hval, ?_⟩
  intro cols hcols
  obtain ⟨c1, hc1, hs1⟩ := ho
  obtain ⟨c2, hc2, hs2⟩ := ho'
  have hf := order_fields hp hcols
  have hcol : ∀ x ∈ lines, HasColumns cols x := by
    intro x hx c hc
    obtain ⟨v, rfl⟩ := hval x hx
    obtain ⟨o, -, -, f, h2, -⟩ := forall₂_mem_right hf hc
    simpa using (List.getElem?_eq_some_iff.mp h2).1
  have hsort : ∀ c0 : List (Nat × Bool), OrderColumns P q (askedOrder w q) c0 → ∀ ls : List (List Val), (∀ x ∈ ls, x ∈ lines) →
      ls.Pairwise (fun x y => ¬ Precedes (writesNullsLast w) c0 y x) → ls.Pairwise (fun x y => ¬ Precedes (writesNullsLast w) cols y x) := by
    intro c0 h0 ls hls h
    refine h.imp_of_mem ?_
    intro x y hx hy hxy hpre
    refine hxy (precedes_congr ?_ hpre)
    have hf0 := order_fields hp h0
    obtain ⟨vx, hvx⟩ := hval x (hls x hx)
    obtain ⟨vy, hvy⟩ := hval y (hls y hy)
    rw [List.forall₂_iff_get]
    obtain ⟨n1, g1⟩ := List.forall₂_iff_get.mp hf
    obtain ⟨n0, g0⟩ := List.forall₂_iff_get.mp hf0
    refine ⟨n1.symm.trans n0, fun i hi hi' => ?_⟩
    obtain ⟨a1, f, a2, a3⟩ := g1 i (n1 ▸ hi) hi
    obtain ⟨b1, f', b2, b3⟩ := g0 i (n0 ▸ hi') hi'
    have : f = f' := by
      have := a3.symm.trans b3
      cases this
      rfl
    subst this
    refine ⟨a1.trans b1.symm, ?_, ?_⟩
    · rw [hvy, List.getElem?_map, List.getElem?_map, a2, b2]
    · rw [hvx, List.getElem?_map, List.getElem?_map, a2, b2]
  exact sorted_values hperm hcol (hsort c1 hc1 lines (fun _ h => h) hs1) (hsort c2 hc2 lines' (fun x h => hperm.mem_iff.mpr h) hs2)

theorem limited_take {n : Nat} {lines out : List (List Val)} (h : Limited (some n) lines out) : out = lines.take n := by
  obtain ⟨h1, h2⟩ := h
  rw [List.prefix_iff_eq_take.mp h1, h2, ← List.take_eq_take_min]

/-- Lines that the ordering tells apart are the same when they show the same in its columns. -/
theorem values_inj {cols : List (Nat × Bool)} {all : List (List Val)} (htell : ∀ x ∈ all, ∀ y ∈ all, orderValues cols x = orderValues cols y → x = y)
    (l1 l2 : List (List Val)) (m1 : ∀ x ∈ l1, x ∈ all) (m2 : ∀ x ∈ l2, x ∈ all) (h : l1.map (orderValues cols) = l2.map (orderValues cols)) : l1 = l2 := by
  induction l1 generalizing l2 with
  | nil => exact (List.map_eq_nil_iff.mp h.symm).symm
  | cons x l1 ih =>
    cases l2 with
    | nil => cases h
    | cons y l2 =>
      rw [List.map_cons, List.map_cons, List.cons.injEq] at h
      rw [htell x (m1 x List.mem_cons_self) y (m2 y List.mem_cons_self) h.1,
        ih l2 (fun z hz => m1 z (List.mem_cons_of_mem _ hz)) (fun z hz => m2 z (List.mem_cons_of_mem _ hz)) h.2]

/-- C84 (a): a query that is run twice, without a limit, has the same lines. -/
theorem C84_again (P : AnsProject) (w : Warehouse) (q : Question) (s : Stmt) (hs : buildStmt P w q = .ok s) (ds ms : List AnsField) (hp : Proper P q ds ms) (hne : ds ≠ [])
    (hg : GroupsRows q ds ms) (hq : ShowsAll w q) (hl : LabelsDiffer P) (D : Db ρ) (hset : SetOfViews D P) (out out' : List (List Val)) (ha : s.Answers D out)
    (ha' : s.Answers D out') : out.Perm out' := by
  have hq0 : { q with limit := none } = q := by rw [← hq.limit]
  obtain ⟨lines, lines', h1, rfl, rfl, -⟩ := two_tables P w q none none s s (hq0 ▸ hs) (hq0 ▸ hs) ds ms hp hne hg ⟨hq.groups, hq.order⟩ (by simp) (by simp) hl D hset out out' ha ha'
  exact h1

/-- C84 (b): with a limit, the values in the columns of the ordering are those of the first lines of the answer without the limit, line by line. -/
theorem C84_top_values (P : AnsProject) (w : Warehouse) (q : Question) (n : Nat) (s s' : Stmt) (hs : buildStmt P w { q with limit := some n } = .ok s)
    (hs' : buildStmt P w { q with limit := none } = .ok s') (ds ms : List AnsField) (hp : Proper P q ds ms) (hne : ds ≠ []) (hg : GroupsRows q ds ms) (hq : OrdersByColumns w q)
    (hz : n ≠ 0 ∨ w ≠ .sqlServer ∧ w ≠ .azureSynapse) (hl : LabelsDiffer P) (D : Db ρ) (hset : SetOfViews D P) (out out' : List (List Val)) (ha : s.Answers D out)
    (ha' : s'.Answers D out') (cols : List (Nat × Bool)) (hcols : OrderColumns P q (askedOrder w q) cols) :
    (∀ l ∈ out, l ∈ out') ∧ out.map (orderValues cols) = (out'.take n).map (orderValues cols) := by
  obtain ⟨lines, lines', h1, h2, h3, -, -, h4⟩ := two_tables P w q (some n) none s s' hs hs' ds ms hp hne hg hq (by simpa using hz) (by simp) hl D hset out out' ha ha'
  have h3 : out' = lines' := h3
  subst h3
  rw [limited_take h2]
  refine ⟨fun l hl => h1.mem_iff.mp (List.mem_of_mem_take hl), ?_⟩
  rw [List.map_take, h4 cols hcols, List.map_take]

/-- C84 (c): with a limit, the answer is the first lines of the answer without it, when no two lines show the same in the columns of the ordering. -/
theorem C84_top (P : AnsProject) (w : Warehouse) (q : Question) (n : Nat) (s s' : Stmt) (hs : buildStmt P w { q with limit := some n } = .ok s)
    (hs' : buildStmt P w { q with limit := none } = .ok s') (ds ms : List AnsField) (hp : Proper P q ds ms) (hne : ds ≠ []) (hg : GroupsRows q ds ms) (hq : OrdersByColumns w q)
    (hz : n ≠ 0 ∨ w ≠ .sqlServer ∧ w ≠ .azureSynapse) (hl : LabelsDiffer P) (D : Db ρ) (hset : SetOfViews D P) (out out' : List (List Val)) (ha : s.Answers D out)
    (ha' : s'.Answers D out') (cols : List (Nat × Bool)) (hcols : OrderColumns P q (askedOrder w q) cols)
    (htell : ∀ x ∈ out', ∀ y ∈ out', orderValues cols x = orderValues cols y → x = y) : out = out'.take n := by
  obtain ⟨h1, h2⟩ := C84_top_values P w q n s s' hs hs' ds ms hp hne hg hq hz hl D hset out out' ha ha' cols hcols
  exact values_inj htell out (out'.take n) h1 (fun x hx => List.mem_of_mem_take hx) h2

/-- C84 (d): a query that is ordered by all its dimensions has one answer, and with a limit it is the first lines of the answer without it. -/
theorem C84_all_dimensions (P : AnsProject) (w : Warehouse) (q : Question) (n : Nat) (s s' : Stmt) (hs : buildStmt P w { q with limit := some n } = .ok s)
    (hs' : buildStmt P w { q with limit := none } = .ok s') (ds ms : List AnsField) (hp : Proper P q ds ms) (hne : ds ≠ []) (hg : GroupsRows q ds ms) (hq : OrdersByColumns w q)
    (hz : n ≠ 0 ∨ w ≠ .sqlServer ∧ w ≠ .azureSynapse) (hl : LabelsDiffer P) (hall : OrdersByAll P w q) (D : Db ρ) (hset : SetOfViews D P)
    (out out' : List (List Val)) (ha : s.Answers D out) (ha' : s'.Answers D out') :
    out = out'.take n ∧ ∀ out'', s'.Answers D out'' → out'' = out' := by
  have hpp : ∀ l, Proper P { q with limit := l } ds ms := fun l => ⟨hp.dims, hp.metrics, hp.dimension, hp.measure, hp.wheres, hp.havings⟩
  obtain ⟨-, -, -, -, ⟨cols, hcols, -⟩, -⟩ := C55_table P w { q with limit := none } s' hs' ds ms (hpp _) hg hne hq.groups hl hq.order.1 hq.order.2 (by simp) D out' ha'
  have hcols : OrderColumns P q (askedOrder w q) cols := hcols
  have htell : ∀ out', s'.Answers D out' → ∀ x ∈ out', ∀ y ∈ out', orderValues cols x = orderValues cols y → x = y := by
    intro out' ha' x hx y hy hxy
    obtain ⟨lines, lines', h1, h2, h3, h4, h5, -⟩ := two_tables P w q none none s' s' hs' hs' ds ms hp hne hg hq (by simp) (by simp) hl D hset out' out' ha' ha'
    have h2 : out' = lines := h2
    subst h2
    refine List.inj_on_of_nodup_map h4 hx hy ?_
    obtain ⟨vx, rfl⟩ := h5 x hx
    obtain ⟨vy, rfl⟩ := h5 y hy
    rw [← List.map_take, ← List.map_take, List.take_left']
    swap
    · rfl
    refine List.map_congr_left fun d hd => ?_
    obtain ⟨nm, hnm, hget⟩ := forall₂_mem_right hp.dims hd
    obtain ⟨o, ho, hog⟩ := hall nm hnm
    obtain ⟨c, hc, -, f, hf1, hf2⟩ := forall₂_mem_left (order_fields hp hcols) ho
    have : f = d := by
      have := (hf2.symm.trans hog).trans hget
      cases this
      rfl
    subst this
    have := List.map_inj_left.mp hxy c hc
    rw [List.getElem?_map, List.getElem?_map, hf1] at this
    exact this
  refine ⟨C84_top P w q n s s' hs hs' ds ms hp hne hg hq hz hl D hset out out' ha ha' cols hcols (htell out' ha'), ?_⟩
  intro out'' ha''
  obtain ⟨lines, lines', h1, rfl, rfl, -, -, h4⟩ := two_tables P w q none none s' s' hs' hs' ds ms hp hne hg hq (by simp) (by simp) hl D hset out'' out' ha'' ha'
  exact values_inj (htell _ ha') _ _ (fun x hx => h1.mem_iff.mp hx) (fun _ hx => hx) (h4 cols hcols)

end
end ML
