import Verif.JoinGraph.Spec
/-
Helper lemmas for C12-C15: what `buildGraph` puts on each ordered pair.
-/
set_option autoImplicit false
namespace ML
open Spec

theorem preference_eq_rank (r : Rel) : preference r = rank r := by cases r <;> rfl

theorem isFanout_iff (r : Rel) : isFanout r = true ↔ FansOut r := by
  cases r <;> simp [isFanout, FansOut]

theorem deriveRel_iff (i j : IdKind) (r : Rel) : deriveRel i j = .ok r ↔ RelOf i j r := by
  constructor
  · intro h
    cases i <;> cases j <;> simp only [deriveRel] at h <;> first
      | (cases h; constructor)
      | cases h
  · intro h
    cases h <;> rfl

theorem allowedJoin_iff (l : List String) (v : String) : allowedJoin l v = true ↔ Lets l v := by
  simp [allowedJoin, Lets]

theorem find_firstNamed (w : GView) (n : String) (j : Ident) :
    w.idents.find? (fun x => decide (x.name = n)) = some j ↔ FirstNamed w n j := by
  rw [List.find?_eq_some_iff_append]
  simp only [decide_eq_true_eq, Bool.not_eq_true', decide_eq_false_iff_not, FirstNamed]
  constructor
  · rintro ⟨h, pre, post, h1, h2⟩; exact ⟨pre, post, h1, h, h2⟩
  · rintro ⟨pre, post, h1, h, h2⟩; exact ⟨h, pre, post, h1, h2⟩

theorem firstNamed_unique {w : GView} {n : String} {j k : Ident} (h1 : FirstNamed w n j)
    (h2 : FirstNamed w n k) : j = k := by
  rw [← find_firstNamed] at h1 h2
  rw [h1] at h2
  exact Option.some.inj h2

/-! ### Explicit declarations -/

/-- The edge data of a declaration. -/
def declInfo (d : Rel × String × Option String) : JoinInfo :=
  ⟨d.1, d.2.2.getD "left_outer", d.2.1, edgeWeight d.1⟩

theorem filter_flatMap' {α β : Type} (p : β → Bool) (f : α → List β) (l : List α) :
    (l.flatMap f).filter p = l.flatMap (fun a => (f a).filter p) := by
  induction l with
  | nil => rfl
  | cons a l ih => simp [List.flatMap_cons, ih]

theorem map_flatMap' {α β γ : Type} (g : β → γ) (f : α → List β) (l : List α) :
    (l.flatMap f).map g = l.flatMap (fun a => (f a).map g) := by
  induction l with
  | nil => rfl
  | cons a l ih => simp [List.flatMap_cons, ih]

theorem declared_filter (views : List GView) (a b : String) :
    ((declared views).filter (fun p => decide (p.1 = (a, b)))).map (·.2) =
      (explicitFor views a b).map declInfo := by
  unfold declared explicitFor
  rw [filter_flatMap', map_flatMap', map_flatMap']
  congr 1
  funext v
  rw [filter_flatMap', map_flatMap', map_flatMap']
  congr 1
  funext i
  cases i.kind with
  | primary => rfl
  | foreign => rfl
  | other => rfl
  | join ref r sqlOn t =>
    by_cases h1 : v.name = a ∧ ref = b
    · obtain ⟨rfl, rfl⟩ := h1
      by_cases h2 : ref = v.name
      · cases r <;> simp [isFanout, invertRel, declInfo, edgeWeight, h2]
      · have h3 : ¬ (ref, v.name) = (v.name, ref) := fun c => h2 (congrArg Prod.fst c)
        cases r <;>
          simp [isFanout, invertRel, declInfo, edgeWeight, h2]
    · have h3 : ¬ (v.name, ref) = (a, b) := fun c => h1 ⟨congrArg Prod.fst c, congrArg Prod.snd c⟩
      by_cases h2 : ref = a ∧ v.name = b
      · obtain ⟨rfl, rfl⟩ := h2
        cases r <;>
          simp only [isFanout, invertRel, declInfo, edgeWeight, List.filter_cons, List.filter_nil,
            h3, h1, decide_false, decide_true, Bool.false_eq_true, if_false, if_true, and_self,
            List.nil_append, List.map_cons, List.map_nil]
      · have h4 : ¬ (ref, v.name) = (a, b) := fun c => h2 ⟨congrArg Prod.fst c, congrArg Prod.snd c⟩
        cases r <;> simp only [isFanout, invertRel, List.filter_cons, List.filter_nil, h3, h4,
          decide_false, Bool.false_eq_true, if_false, if_true, h1, h2, List.nil_append, List.map_nil]

theorem referenceMap_get (views : List GView) (a b : String) :
    dictGet (referenceMap views) (a, b) = ((explicitFor views a b).getLast?).map declInfo := by
  unfold referenceMap
  rw [dictGet_foldl_set]
  have h := declared_filter views a b
  have h2 := congrArg List.getLast? h
  rw [List.getLast?_map, List.getLast?_map] at h2
  rw [h2]
  cases (explicitFor views a b).getLast? <;> rfl

theorem referenceMap_nodup (views : List GView) : ((referenceMap views).map (·.1)).Nodup := by
  unfold referenceMap
  have : ∀ (l : List ((String × String) × JoinInfo)) (d : List ((String × String) × JoinInfo)),
      (d.map (·.1)).Nodup → ((l.foldl (fun d p => dictSet d p.1 p.2) d).map (·.1)).Nodup := by
    intro l
    induction l with
    | nil => intro d h; exact h
    | cons p l ih => intro d h; exact ih _ (dictSet_nodup h _ _)
  exact this _ [] (by simp)

/-! ### One edge at a time -/

theorem edgeAt_addNode (g : Graph) (n a b : String) : edgeAt (addNode g n) a b = edgeAt g a b := by
  unfold addNode edgeAt
  split <;> rfl

theorem edgeAt_addEdge (g : Graph) (a b a' b' : String) (info : JoinInfo) :
    edgeAt (addEdge g a b info) a' b' =
      if a = a' ∧ b = b' then some info else edgeAt g a' b' := by
  have := edgeAt_addNode (addNode g a) b a' b'
  have := edgeAt_addNode g a a' b'
  unfold edgeAt addEdge at *
  simp only [dictGet_set, Prod.mk.injEq, *]

/-- The better of the current edge and a new one. -/
def better (old : Option JoinInfo) (new : JoinInfo) : Option JoinInfo :=
  match old with
  | some o => if rank o.rel > rank new.rel then some new else some o
  | none => some new

/-- The same, keeping the join type that is already there. -/
def betterKeep (old : Option JoinInfo) (new : JoinInfo) : Option JoinInfo :=
  match old with
  | some o => if rank o.rel > rank new.rel then some { new with jtype := o.jtype } else some o
  | none => some new

/-- Give an edge the join type of `d`, if there is one. -/
def retype (d : Option JoinInfo) (e : JoinInfo) : JoinInfo :=
  match d with
  | some o => { e with jtype := o.jtype }
  | none => e

theorem foldl_betterKeep_some (t : String) (l : List JoinInfo) :
    ∀ (o o' : JoinInfo), o' = { o with jtype := t } →
      l.foldl betterKeep (some o') = (l.foldl better (some o)).map (fun e => { e with jtype := t }) := by
  induction l with
  | nil => intro o o' h; simp [h]
  | cons x xs ih =>
    intro o o' h
    simp only [List.foldl_cons, betterKeep, better]
    subst h
    split
    · exact ih x _ rfl
    · exact ih o _ rfl

theorem foldl_betterKeep (l : List JoinInfo) (hl : ∀ x ∈ l, x.jtype = "left_outer")
    (d : Option JoinInfo) : l.foldl betterKeep d = (l.foldl better d).map (retype d) := by
  cases d with
  | some o => exact foldl_betterKeep_some o.jtype l o o rfl
  | none =>
    cases l with
    | nil => rfl
    | cons x xs =>
      have hx := hl x (by simp)
      simp only [List.foldl_cons, betterKeep, better]
      rw [foldl_betterKeep_some "left_outer" xs x x (by rw [← hx])]
      have : ∀ (ys : List JoinInfo) (o : JoinInfo), o.jtype = "left_outer" →
          (∀ y ∈ ys, y.jtype = "left_outer") →
          ∀ e, ys.foldl better (some o) = some e → e.jtype = "left_outer" := by
        intro ys
        induction ys with
        | nil => intro o ho _ e he; cases he; exact ho
        | cons y ys ih =>
          intro o ho hy e he
          simp only [List.foldl_cons, better] at he
          split at he
          · exact ih y (hy y (by simp)) (fun z hz => hy z (by simp [hz])) e he
          · exact ih o ho (fun z hz => hy z (by simp [hz])) e he
      cases hf : xs.foldl better (some x) with
      | none => rfl
      | some e =>
        have := this xs x hx (fun y hy => hl y (by simp [hy])) e hf
        simp only [Option.map_some, retype, ← this]

theorem edgeAt_addPreferred (g : Graph) (a b a' b' : String) (info : JoinInfo) :
    edgeAt (addPreferred g a b info) a' b' =
      if a = a' ∧ b = b' then betterKeep (edgeAt g a b) info else edgeAt g a' b' := by
  unfold addPreferred
  rw [show dictGet g.edges (a, b) = edgeAt g a b from rfl]
  cases h : edgeAt g a b with
  | none => simp only [edgeAt_addEdge, betterKeep]
  | some o =>
    simp only [betterKeep, preference_eq_rank]
    split
    · rw [edgeAt_addEdge]
    · split
      · rename_i h2; rw [← h2.1, ← h2.2, h]
      · rfl

theorem edgeAt_addExplicit (refs : List ((String × String) × JoinInfo)) (g : Graph)
    (v a b : String) (hn : (refs.map (·.1)).Nodup) :
    edgeAt (addExplicit refs g v) a b =
      if a = v then (match dictGet refs (a, b) with | some i => some i | none => edgeAt g a b)
      else edgeAt g a b := by
  unfold addExplicit
  induction refs generalizing g with
  | nil => simp [dictGet]
  | cons p refs ih =>
    obtain ⟨⟨x, y⟩, i⟩ := p
    simp only [List.map_cons, List.nodup_cons] at hn
    rw [List.filter_cons]
    simp only
    by_cases hx : x = v
    · rw [if_pos (by simpa using hx), List.foldl_cons, ih _ hn.2, edgeAt_addEdge]
      by_cases ha : a = v
      · rw [if_pos ha, if_pos ha]
        simp only [dictGet, Prod.mk.injEq]
        by_cases hb : y = b
        · have : dictGet refs (a, b) = none := by
            cases hd : dictGet refs (a, b) with
            | none => rfl
            | some w =>
              exfalso
              apply hn.1
              have := dictGet_mem hd
              rw [hx, ← ha, hb]
              exact List.mem_map.mpr ⟨_, this, rfl⟩
          rw [this]
          simp [ha, hb, hx]
        · rw [if_neg (fun c => hb c.2), if_neg (fun c => hb c.2)]
      · rw [if_neg ha, if_neg ha, if_neg (fun c => ha c.1.symm)]
    · rw [if_neg (by simpa using hx), ih _ hn.2]
      by_cases ha : a = v
      · rw [if_pos ha, if_pos ha]
        simp only [dictGet, Prod.mk.injEq]
        rw [if_neg]
        rintro ⟨c, -⟩
        exact hx (c.trans ha)
      · rw [if_neg ha, if_neg ha]

/-! ### Candidates from identifiers -/

/-- The candidate that identifier `i` of view `v` gives for the joined view name `w`. -/
def candidate (views : List GView) (v : String) (i : Ident) (w : String) : Res (Option JoinInfo) :=
  if w ≠ v ∧ allowedJoin i.onlyJoin w = true then
    match views.find? (fun x => decide (x.name = w)) with
    | none => .error .accessDenied
    | some joinView =>
      match joinView.idents.find? (fun x => decide (x.name = i.name)) with
      | none => .error .attributeError
      | some j =>
        if !allowedJoin j.onlyJoin v then .ok none
        else match deriveRel i.kind j.kind with
          | .error e => .error e
          | .ok r =>
            if isFanout r && !i.allowedFanouts.contains w then .ok none
            else .ok (some (identJoin r i v j w))
  else .ok none

theorem considerJoin_eq (views : List GView) (v : String) (i : Ident) (g : Graph) (w : String) :
    considerJoin views v i g w = match candidate views v i w with
      | .error e => .error e
      | .ok none => .ok g
      | .ok (some info) => .ok (addPreferred g v w info) := by
  unfold considerJoin candidate
  by_cases h1 : w ≠ v ∧ allowedJoin i.onlyJoin w = true
  · simp only [if_pos h1]
    cases h2 : views.find? (fun x => decide (x.name = w)) with
    | none => rfl
    | some joinView =>
      simp only
      cases h3 : joinView.idents.find? (fun x => decide (x.name = i.name)) with
      | none => rfl
      | some j =>
        simp only
        by_cases h4 : (!allowedJoin j.onlyJoin v) = true
        · simp only [if_pos h4]
        · simp only [if_neg h4]
          cases h5 : deriveRel i.kind j.kind with
          | error e => rfl
          | ok r =>
            simp only
            by_cases h6 : (isFanout r && !i.allowedFanouts.contains w) = true
            · simp only [if_pos h6]
            · simp only [if_neg h6]
  · simp only [if_neg h1]

/-- The candidates of one identifier for the pair `(v, w)`: as often as `w` is listed. -/
def candsOf (views : List GView) (v : String) (i : Ident) (w : String) : List JoinInfo :=
  ((identifierMap views i.name).filter (fun x => decide (x = w))).filterMap
    (fun x => match candidate views v i x with | .ok o => o | .error _ => none)

theorem foldConsider (views : List GView) (v : String) (i : Ident) (ws : List String) :
    ∀ (g g' : Graph), foldRes (considerJoin views v i) g ws = .ok g' →
      (∀ w ∈ ws, ∃ o, candidate views v i w = .ok o) ∧
      ∀ a b, edgeAt g' a b = if a = v then
        ((ws.filter (fun x => decide (x = b))).filterMap
          (fun x => match candidate views v i x with | .ok o => o | .error _ => none)).foldl betterKeep
          (edgeAt g a b) else edgeAt g a b := by
  induction ws with
  | nil =>
    intro g g' h
    simp only [foldRes] at h
    cases h
    refine ⟨by simp, ?_⟩
    intro a b
    simp
  | cons w ws ih =>
    intro g g' h
    simp only [foldRes, considerJoin_eq] at h
    cases hc : candidate views v i w with
    | error e => rw [hc] at h; cases h
    | ok o =>
      rw [hc] at h
      cases o with
      | none =>
        simp only at h
        obtain ⟨h1, h2⟩ := ih g g' h
        refine ⟨?_, ?_⟩
        · intro x hx
          simp only [List.mem_cons] at hx
          rcases hx with rfl | hx
          · exact ⟨_, hc⟩
          · exact h1 x hx
        · intro a b
          rw [h2 a b]
          by_cases hb : w = b
          · rw [List.filter_cons_of_pos (by simpa using hb), List.filterMap_cons]
            simp only [hc]
          · rw [List.filter_cons_of_neg (by simpa using hb)]
      | some info =>
        simp only at h
        obtain ⟨h1, h2⟩ := ih _ g' h
        refine ⟨?_, ?_⟩
        · intro x hx
          simp only [List.mem_cons] at hx
          rcases hx with rfl | hx
          · exact ⟨_, hc⟩
          · exact h1 x hx
        · intro a b
          rw [h2 a b, edgeAt_addPreferred]
          by_cases ha : a = v
          · rw [if_pos ha, if_pos ha]
            by_cases hb : w = b
            · rw [if_pos ⟨ha.symm, hb⟩, List.filter_cons_of_pos (by simpa using hb),
                List.filterMap_cons]
              subst hb; simp only [hc, List.foldl_cons, ha]
            · rw [if_neg (fun c => hb c.2), List.filter_cons_of_neg (by simpa using hb)]
          · rw [if_neg ha, if_neg ha, if_neg (fun c => ha c.1.symm)]

theorem foldIdents (views : List GView) (v : String) (is : List Ident) :
    ∀ (g g' : Graph),
      foldRes (fun g i => foldRes (considerJoin views v i) g (identifierMap views i.name)) g is = .ok g' →
      (∀ i ∈ is, ∀ w ∈ identifierMap views i.name, ∃ o, candidate views v i w = .ok o) ∧
      ∀ a b, edgeAt g' a b = if a = v then
        (is.flatMap (fun i => candsOf views v i b)).foldl betterKeep (edgeAt g a b)
        else edgeAt g a b := by
  induction is with
  | nil =>
    intro g g' h
    simp only [foldRes] at h
    cases h
    exact ⟨by simp, fun a b => by simp⟩
  | cons i is ih =>
    intro g g' h
    simp only [foldRes] at h
    cases hc : foldRes (considerJoin views v i) g (identifierMap views i.name) with
    | error e => rw [hc] at h; cases h
    | ok g1 =>
      rw [hc] at h
      simp only at h
      obtain ⟨k1, k2⟩ := foldConsider views v i _ g g1 hc
      obtain ⟨h1, h2⟩ := ih g1 g' h
      refine ⟨?_, ?_⟩
      · intro x hx
        simp only [List.mem_cons] at hx
        rcases hx with rfl | hx
        · exact k1
        · exact h1 x hx
      · intro a b
        rw [h2 a b, List.flatMap_cons, List.foldl_append, k2 a b]
        by_cases ha : a = v
        · rw [if_pos ha, if_pos ha, if_pos ha]; rfl
        · rw [if_neg ha, if_neg ha, if_neg ha]

theorem buildView_spec {views : List GView} {refs : List ((String × String) × JoinInfo)}
    (hn : (refs.map (·.1)).Nodup) {g g' : Graph} {v : GView} (h : buildView views refs g v = .ok g') :
    (∀ i ∈ v.idents, ∀ w ∈ identifierMap views i.name,
      ∃ o, candidate views v.name i w = .ok o) ∧
    ∀ a b, edgeAt g' a b = if a = v.name then
      (v.idents.flatMap (fun i => candsOf views v.name i b)).foldl betterKeep
        (match dictGet refs (a, b) with | some i => some i | none => edgeAt g a b)
      else edgeAt g a b := by
  obtain ⟨h1, h2⟩ := foldIdents views v.name v.idents _ g' h
  refine ⟨h1, ?_⟩
  intro a b
  rw [h2 a b, edgeAt_addExplicit _ _ _ _ _ hn, edgeAt_addNode]
  by_cases ha : a = v.name
  · rw [if_pos ha, if_pos ha, if_pos ha]
  · rw [if_neg ha, if_neg ha, if_neg ha]

theorem buildGo_spec {views : List GView} {refs : List ((String × String) × JoinInfo)}
    (hn : (refs.map (·.1)).Nodup) (vs : List GView) : ∀ (seen : List String) (g g' : Graph),
    buildGo views refs seen g vs = .ok g' →
    (∀ a b, a ∉ seen → edgeAt g a b = none) →
    (vs.map (·.name)).Nodup ∧ (∀ v ∈ vs, v.name ∉ seen) ∧
    (∀ v ∈ vs, ∀ i ∈ v.idents, ∀ w ∈ identifierMap views i.name,
      ∃ o, candidate views v.name i w = .ok o) ∧
    (∀ a b, a ∈ seen → edgeAt g' a b = edgeAt g a b) ∧
    (∀ a b, a ∉ seen → a ∉ vs.map (·.name) → edgeAt g' a b = none) ∧
    (∀ v ∈ vs, ∀ b, edgeAt g' v.name b =
      (v.idents.flatMap (fun i => candsOf views v.name i b)).foldl betterKeep (dictGet refs (v.name, b))) := by
  induction vs with
  | nil =>
    intro seen g g' h hg
    simp only [buildGo] at h
    cases h
    exact ⟨by simp, by simp, by simp, fun _ _ _ => rfl, fun a b h _ => hg a b h, by simp⟩
  | cons v vs ih =>
    intro seen g g' h hg
    simp only [buildGo] at h
    split at h
    · cases h
    · rename_i hs
      cases hb : buildView views refs g v with
      | error e => rw [hb] at h; cases h
      | ok g1 =>
        rw [hb] at h
        simp only at h
        obtain ⟨k1, k2⟩ := buildView_spec hn hb
        have hg1 : ∀ a b, a ∉ v.name :: seen → edgeAt g1 a b = none := by
          intro a b ha
          simp only [List.mem_cons, not_or] at ha
          rw [k2 a b, if_neg ha.1]
          exact hg a b ha.2
        obtain ⟨h1, h2, h3, h4, h5, h6⟩ := ih _ g1 g' h hg1
        refine ⟨?_, ?_, ?_, ?_, ?_, ?_⟩
        · simp only [List.map_cons, List.nodup_cons, List.mem_map, not_exists, not_and]
          refine ⟨fun w hw e => h2 w hw ?_, h1⟩
          rw [e]; simp
        · intro w hw
          simp only [List.mem_cons] at hw
          rcases hw with rfl | hw
          · exact hs
          · exact fun c => h2 w hw (by simp [c])
        · intro w hw
          simp only [List.mem_cons] at hw
          rcases hw with rfl | hw
          · exact k1
          · exact h3 w hw
        · intro a b ha
          rw [h4 a b (by simp [ha]), k2 a b, if_neg]
          rintro rfl
          exact hs ha
        · intro a b ha ha'
          simp only [List.map_cons, List.mem_cons, not_or] at ha'
          exact h5 a b (by simp [ha, ha'.1]) ha'.2
        · intro w hw b
          simp only [List.mem_cons] at hw
          rcases hw with rfl | hw
          · rw [h4 _ b (by simp), k2 _ b, if_pos rfl, hg _ b hs]
            cases dictGet refs (w.name, b) <;> rfl
          · exact h6 w hw b

theorem nodup_names_eq {views : List GView} (h : (views.map (·.name)).Nodup) {v w : GView}
    (hv : v ∈ views) (hw : w ∈ views) (e : v.name = w.name) : v = w := by
  induction views with
  | nil => cases hv
  | cons x xs ih =>
    simp only [List.map_cons, List.nodup_cons, List.mem_map, not_exists, not_and] at h
    simp only [List.mem_cons] at hv hw
    rcases hv with rfl | hv <;> rcases hw with rfl | hw
    · rfl
    · exact absurd e.symm (h.1 w hw)
    · exact absurd e (h.1 v hv)
    · exact ih h.2 hv hw

theorem find_view {views : List GView} (h : (views.map (·.name)).Nodup) (w x : GView)
    (hw : w ∈ views) : views.find? (fun x => decide (x.name = w.name)) = some x ↔ x = w := by
  constructor
  · intro hx
    have h1 := List.mem_of_find?_eq_some hx
    have h2 := List.find?_some hx
    simp only [decide_eq_true_eq] at h2
    exact nodup_names_eq h h1 hw h2
  · rintro rfl
    cases hf : views.find? (fun y => decide (y.name = x.name)) with
    | none =>
      have := List.find?_eq_none.mp hf x hw
      simp at this
    | some y =>
      have h1 := List.mem_of_find?_eq_some hf
      have h2 := List.find?_some hf
      simp only [decide_eq_true_eq] at h2
      rw [nodup_names_eq h h1 hw h2]

theorem isJoin_false_iff (k : IdKind) : k.isJoin = false ↔ NotJoin k := by
  cases k <;> simp [IdKind.isJoin, NotJoin]

theorem edgeWeight_eq (r : Rel) : edgeWeight r = weightOf r := by cases r <;> rfl

theorem mem_identifierMap (views : List GView) (n w : String) :
    w ∈ identifierMap views n ↔ ∃ x ∈ views, x.name = w ∧
      ∃ k ∈ x.idents, k.name = n ∧ NotJoin k.kind := by
  simp only [identifierMap, List.mem_flatMap, List.mem_map, List.mem_filter, Bool.and_eq_true,
    Bool.not_eq_true', decide_eq_true_eq, isJoin_false_iff]
  constructor
  · rintro ⟨x, hx, k, ⟨hk, hj, hn⟩, rfl⟩; exact ⟨x, hx, rfl, k, hk, hn, hj⟩
  · rintro ⟨x, hx, rfl, k, hk, hn, hj⟩; exact ⟨x, hx, k, ⟨hk, hj, hn⟩, rfl⟩

/-- The candidates of an identifier for a pair are the admissible joins of the specification. -/
theorem mem_candsOf {views : List GView} (h : (views.map (·.name)).Nodup) {v : GView}
    (hv : v ∈ views) {i : Ident} (hi : i ∈ v.idents) (b : String) (info : JoinInfo) :
    info ∈ candsOf views v.name i b ↔
      ∃ w j r, Shared views v w i j r ∧ w.name = b ∧ info = identJoin r i v.name j b := by
  simp only [candsOf, List.mem_filterMap, List.mem_filter, decide_eq_true_eq]
  constructor
  · rintro ⟨x, ⟨hx, rfl⟩, hc⟩
    obtain ⟨w, hw, rfl, k, hk, hkn, hkj⟩ := (mem_identifierMap views i.name x).mp hx
    have hc : candidate views v.name i w.name = .ok (some info) := by
      cases hcc : candidate views v.name i w.name with
      | error e => rw [hcc] at hc; cases hc
      | ok o => rw [hcc] at hc; exact congrArg _ hc
    unfold candidate at hc
    split at hc
    · rename_i h1
      rw [(find_view h w w hw).mpr rfl] at hc
      simp only at hc
      cases hf : w.idents.find? (fun x => decide (x.name = i.name)) with
      | none => rw [hf] at hc; cases hc
      | some j =>
        rw [hf] at hc
        simp only at hc
        split at hc
        · cases hc
        · rename_i h2
          cases hd : deriveRel i.kind j.kind with
          | error e => rw [hd] at hc; cases hc
          | ok r =>
            rw [hd] at hc
            simp only at hc
            split at hc
            · cases hc
            · rename_i h3
              cases hc
              refine ⟨w, j, r, ⟨hv, hw, fun c => h1.1 c.symm, hi, (find_firstNamed w i.name j).mp hf,
                ⟨k, hk, hkn, hkj⟩, (allowedJoin_iff _ _).mp h1.2, ?_, (deriveRel_iff _ _ _).mp hd,
                ?_⟩, rfl, rfl⟩
              · rw [← allowedJoin_iff]; simpa using h2
              · intro hf'
                rw [← isFanout_iff] at hf'
                simpa [hf'] using h3
    · cases hc
  · rintro ⟨w, j, r, hs, rfl, rfl⟩
    refine ⟨w.name, ⟨(mem_identifierMap views i.name w.name).mpr ⟨w, hs.win, rfl, hs.usable⟩, rfl⟩, ?_⟩
    unfold candidate
    rw [if_pos ⟨fun c => hs.distinct c.symm, (allowedJoin_iff _ _).mpr hs.onlyI⟩,
      (find_view h w w hs.win).mpr rfl]
    simp only
    rw [(find_firstNamed w i.name j).mpr hs.named]
    simp only [(allowedJoin_iff _ _).mpr hs.onlyJ, Bool.not_true, Bool.false_eq_true, if_false,
      (deriveRel_iff _ _ _).mpr hs.rel]
    rw [if_neg]
    intro c
    simp only [Bool.and_eq_true, Bool.not_eq_true'] at c
    have := hs.fan ((isFanout_iff r).mp c.1)
    simp [this] at c

/-- For a fixed identifier and pair all candidates coincide. -/
theorem candsOf_all_eq {views : List GView} (h : (views.map (·.name)).Nodup) {v : GView}
    (hv : v ∈ views) {i : Ident} (hi : i ∈ v.idents) (b : String) {x y : JoinInfo}
    (hx : x ∈ candsOf views v.name i b) (hy : y ∈ candsOf views v.name i b) : x = y := by
  obtain ⟨w, j, r, hs, hb, rfl⟩ := (mem_candsOf h hv hi b x).mp hx
  obtain ⟨w', j', r', hs', hb', rfl⟩ := (mem_candsOf h hv hi b y).mp hy
  have : w = w' := nodup_names_eq h hs.win hs'.win (hb.trans hb'.symm)
  subst this
  have : j = j' := firstNamed_unique hs.named hs'.named
  subst this
  have h1 := (deriveRel_iff _ _ _).mpr hs.rel
  rw [(deriveRel_iff _ _ _).mpr hs'.rel] at h1
  cases h1
  rfl

/-! ### The fold keeps the first of the best -/

theorem foldl_better_some (l : List JoinInfo) (o : JoinInfo) :
    ∃ e, l.foldl better (some o) = some e ∧ e ∈ o :: l ∧ (∀ x ∈ o :: l, rank e.rel ≤ rank x.rel) ∧
      ∃ pre post, o :: l = pre ++ e :: post ∧ ∀ x ∈ pre, rank e.rel < rank x.rel := by
  induction l generalizing o with
  | nil => exact ⟨o, rfl, by simp, by simp, [], [], rfl, by simp⟩
  | cons n l ih =>
    simp only [List.foldl_cons, better]
    split
    · rename_i hlt
      obtain ⟨e, h1, h2, h3, pre, post, h4, h5⟩ := ih n
      refine ⟨e, h1, by simp only [List.mem_cons] at h2 ⊢; exact .inr h2, ?_, o :: pre, post,
        by rw [h4]; rfl, ?_⟩
      · intro x hx
        simp only [List.mem_cons] at hx
        rcases hx with rfl | hx
        · have := h3 n (by simp); omega
        · exact h3 x (by simpa using hx)
      · intro x hx
        simp only [List.mem_cons] at hx
        rcases hx with rfl | hx
        · have := h3 n (by simp); omega
        · exact h5 x hx
    · rename_i hlt
      obtain ⟨e, h1, h2, h3, pre, post, h4, h5⟩ := ih o
      have hall : ∀ x ∈ o :: n :: l, rank e.rel ≤ rank x.rel := by
        intro x hx
        simp only [List.mem_cons] at hx
        rcases hx with rfl | rfl | hx
        · exact h3 x (by simp)
        · have := h3 o (by simp); omega
        · exact h3 x (by simp [hx])
      cases pre with
      | nil =>
        simp only [List.nil_append, List.cons.injEq] at h4
        refine ⟨e, h1, by simp [h4.1], hall, [], n :: l, by simp [h4.1], by simp⟩
      | cons p pre =>
        simp only [List.cons_append, List.cons.injEq] at h4
        refine ⟨e, h1, ?_, hall, o :: n :: pre, post, ?_, ?_⟩
        · simp only [List.mem_cons] at h2 ⊢
          rcases h2 with h2 | h2
          · exact .inl h2
          · exact .inr (.inr h2)
        · rw [h4.2]; rfl
        · intro x hx
          simp only [List.mem_cons] at hx
          have ho : rank e.rel < rank o.rel := h5 o (by simp [h4.1])
          rcases hx with rfl | rfl | hx
          · exact ho
          · omega
          · exact h5 x (by simp [hx])

theorem foldl_better (d : Option JoinInfo) (l : List JoinInfo) :
    (l.foldl better d = none ↔ d = none ∧ l = []) ∧
    ∀ e, l.foldl better d = some e → (d = some e ∨ e ∈ l) ∧
      (∀ x, d = some x → rank e.rel ≤ rank x.rel) ∧ (∀ x ∈ l, rank e.rel ≤ rank x.rel) ∧
      ∃ pre post, d.toList ++ l = pre ++ e :: post ∧ ∀ x ∈ pre, rank e.rel < rank x.rel := by
  cases d with
  | none =>
    cases l with
    | nil => simp
    | cons n l =>
      obtain ⟨e, h1, h2, h3, h4⟩ := foldl_better_some l n
      simp only [List.foldl_cons, better, h1]
      refine ⟨by simp, ?_⟩
      intro e' he
      cases he
      exact ⟨.inr h2, by simp, h3, by simpa using h4⟩
  | some o =>
    obtain ⟨e, h1, h2, h3, h4⟩ := foldl_better_some l o
    rw [h1]
    refine ⟨by simp, ?_⟩
    intro e' he
    cases he
    refine ⟨?_, ?_, fun x hx => h3 x (by simp [hx]), by simpa using h4⟩
    · simp only [List.mem_cons] at h2
      rcases h2 with rfl | h2
      · exact .inl rfl
      · exact .inr h2
    · intro x hx; cases hx; exact h3 _ (by simp)

/-- What the build puts on each pair. -/
theorem buildGraph_spec {views : List GView} {g : Graph} (h : buildGraph views = .ok g) :
    (views.map (·.name)).Nodup ∧
    (∀ a b, a ∉ views.map (·.name) → edgeAt g a b = none) ∧
    (∀ v ∈ views, ∀ b, edgeAt g v.name b =
      ((v.idents.flatMap (fun i => candsOf views v.name i b)).foldl better
        (((explicitFor views v.name b).getLast?).map declInfo)).map
          (retype (((explicitFor views v.name b).getLast?).map declInfo))) := by
  obtain ⟨h1, -, -, -, h5, h6⟩ := buildGo_spec (referenceMap_nodup views) views [] {} g h
    (fun a b _ => rfl)
  refine ⟨h1, fun a b ha => h5 a b (by simp) ha, ?_⟩
  intro v hv b
  rw [h6 v hv b, referenceMap_get, foldl_betterKeep]
  intro x hx
  obtain ⟨i, hi, hm⟩ := List.mem_flatMap.mp hx
  obtain ⟨w, j, r, hs, hw, rfl⟩ := (mem_candsOf h1 hv hi b x).mp hm
  rfl

@[simp] theorem retype_rel (d : Option JoinInfo) (e : JoinInfo) : (retype d e).rel = e.rel := by
  cases d <;> rfl

@[simp] theorem retype_sqlOn (d : Option JoinInfo) (e : JoinInfo) :
    (retype d e).sqlOn = e.sqlOn := by
  cases d <;> rfl

@[simp] theorem retype_weight (d : Option JoinInfo) (e : JoinInfo) :
    (retype d e).weight = e.weight := by
  cases d <;> rfl

theorem explicitFor_mem {views : List GView} {a b : String} {d : Rel × String × Option String}
    (h : d ∈ explicitFor views a b) :
    (∃ v ∈ views, v.name = a ∧ DeclaresJoin v b d.1 d.2.1 d.2.2) ∨
    (¬ FansOut d.1 ∧ ∃ v ∈ views, v.name = b ∧ DeclaresJoin v a (invertRel d.1) d.2.1 d.2.2) := by
  simp only [explicitFor, List.mem_flatMap] at h
  obtain ⟨v, hv, i, hi, h⟩ := h
  cases hk : i.kind with
  | primary => rw [hk] at h; simp at h
  | foreign => rw [hk] at h; simp at h
  | other => rw [hk] at h; simp at h
  | join ref r sqlOn t =>
    rw [hk] at h
    simp only [List.mem_append] at h
    rcases h with h | h
    · split at h
      · rename_i e
        simp only [List.mem_singleton] at h
        subst h
        refine .inl ⟨v, hv, e.1, i, hi, ?_⟩
        rw [hk, ← e.2]
      · cases h
    · split at h
      · rename_i e
        refine .inr ?_
        cases r with
        | oneToOne =>
          simp only [List.mem_singleton] at h
          subst h
          refine ⟨by simp [FansOut], v, hv, e.2, i, hi, ?_⟩
          rw [hk, ← e.1]; rfl
        | oneToMany =>
          simp only [List.mem_singleton] at h
          subst h
          refine ⟨by simp [FansOut], v, hv, e.2, i, hi, ?_⟩
          rw [hk, ← e.1]; rfl
        | manyToOne => simp at h
        | manyToMany => simp at h
      · cases h

theorem mem_explicitFor {views : List GView} {a b : String} {r : Rel} {sqlOn : String}
    {t : Option String} {v : GView} (hv : v ∈ views) :
    (v.name = a → DeclaresJoin v b r sqlOn t → (r, sqlOn, t) ∈ explicitFor views a b) ∧
    (v.name = b → DeclaresJoin v a r sqlOn t → ¬ FansOut (invertRel r) →
      (invertRel r, sqlOn, t) ∈ explicitFor views a b) := by
  constructor
  · rintro hn ⟨i, hi, hk⟩
    simp only [explicitFor, List.mem_flatMap]
    refine ⟨v, hv, i, hi, ?_⟩
    rw [hk]
    simp [hn]
  · rintro hn ⟨i, hi, hk⟩ hf
    simp only [explicitFor, List.mem_flatMap]
    refine ⟨v, hv, i, hi, ?_⟩
    rw [hk]
    cases r with
    | oneToOne => simp [hn, invertRel]
    | oneToMany => simp [hn, invertRel]
    | manyToOne => exact absurd (.inl rfl) hf
    | manyToMany => exact absurd (.inr rfl) hf

end ML
