import Verif.JoinGraph.Reach
/-
Helper lemmas for C14 and C16: nodes, errors and names of components.
-/
set_option autoImplicit false
namespace ML
open Spec

theorem mem_subgraphNodes {g : Graph} (hw : WF g) {c : List String} (hn : c.Nodup)
    (hc : ∀ x ∈ c, x ∈ g.nodes) (x : String) :
    x ∈ subgraphNodes g c ↔ ∃ y ∈ c, Reach g y x := by
  simp only [subgraphNodes, edgeDfs, List.mem_append, List.mem_flatMap, List.mem_filter,
    List.contains_iff_mem, mem_reachSet g hw c hn hc, List.mem_cons, List.not_mem_nil, or_false]
  constructor
  · rintro (⟨e, ⟨he, y, hy, hr⟩, rfl | rfl⟩ | h)
    · exact ⟨y, hy, hr⟩
    · exact ⟨y, hy, .step hr he⟩
    · exact ⟨x, h, .refl x⟩
  · rintro ⟨y, hy, hr⟩
    cases hr with
    | refl => exact .inr hy
    | @step b _ hr he => exact .inl ⟨(b, x), ⟨he, y, hy, hr⟩, .inr rfl⟩

theorem sorted_comp {g : Graph} {comps : List (List String)} (hs : IsScc g comps) {c : List String}
    (hc : c ∈ sortComponents comps) :
    c.Nodup ∧ (∀ n ∈ c, n ∈ g.nodes) ∧ c ≠ [] ∧ ∀ m ∈ c, ∀ n ∈ g.nodes, n ∈ c ↔ Mutual g m n := by
  obtain ⟨c0, h0, rfl⟩ := (mem_sortComponents comps c).mp hc
  refine ⟨nodup_sortStr (hs.nodup c0 h0), ?_, ?_, ?_⟩
  · intro n hn; rw [mem_sortStr] at hn; exact hs.nodes c0 h0 n hn
  · intro e
    obtain ⟨x, hx⟩ := List.exists_mem_of_ne_nil c0 (hs.nonempty c0 h0)
    have := (mem_sortStr x c0).mpr hx
    rw [e] at this
    cases this
  · intro m hm n hn
    rw [mem_sortStr] at hm ⊢
    exact hs.same c0 h0 m hm n hn

/-- A name is given exactly by the position of the component that contains the view. -/
theorem hash_iff {g : Graph} {comps : List (List String)} (hs : IsScc g comps) (v h : String) :
    joinGraphHash comps v = .ok h ↔
      ∃ i c, (sortComponents comps)[i]? = some c ∧ v ∈ c ∧ h = subqueryName i := by
  unfold joinGraphHash
  constructor
  · intro hh
    split at hh
    · rename_i i hi
      cases hh
      obtain ⟨hlt, h1, -⟩ := List.findIdx?_eq_some_iff_getElem.mp hi
      exact ⟨i, _, List.getElem?_eq_getElem hlt, by simpa using h1, rfl⟩
    · cases hh
  · rintro ⟨i, c, hi, hv, rfl⟩
    obtain ⟨hlt, hget⟩ := List.getElem?_eq_some_iff.mp hi
    have : (sortComponents comps).findIdx? (fun c => c.contains v) = some i := by
      rw [List.findIdx?_eq_some_iff_getElem]
      refine ⟨hlt, by simpa [hget] using hv, ?_⟩
      intro j hj
      have hd := sortComponents_disjoint hs.disjoint
      have := List.pairwise_iff_getElem.mp hd j i (by omega) hlt hj
      intro hcv
      have hcv : v ∈ (sortComponents comps)[j] := by simpa using hcv
      exact this v hcv (by rw [hget]; exact hv)
    rw [this]

theorem hash_exists {g : Graph} {comps : List (List String)} (hs : IsScc g comps) {v : String}
    (hv : v ∈ g.nodes) : ∃ h, joinGraphHash comps v = .ok h := by
  obtain ⟨c, hc, hvc⟩ := hs.covers v hv
  have : sortStr c ∈ sortComponents comps := (mem_sortComponents _ _).mpr ⟨c, hc, rfl⟩
  obtain ⟨i, hlt, hi⟩ := List.mem_iff_getElem.mp this
  exact ⟨_, (hash_iff hs v _).mpr ⟨i, _, List.getElem?_eq_some_iff.mpr ⟨hlt, hi⟩,
    (mem_sortStr v c).mpr hvc, rfl⟩⟩

theorem hash_node {g : Graph} {comps : List (List String)} (hs : IsScc g comps) {v h : String}
    (hh : joinGraphHash comps v = .ok h) : v ∈ g.nodes := by
  obtain ⟨i, c, hi, hv, -⟩ := (hash_iff hs v h).mp hh
  exact (sorted_comp hs (List.mem_of_getElem? hi)).2.1 v hv

/-! ### Every view is a node -/

theorem nodes_mono_addEdge {g : Graph} {n a b : String} {info : JoinInfo} (h : n ∈ g.nodes) :
    n ∈ (addEdge g a b info).nodes := by
  show n ∈ (addNode (addNode g a) b).nodes
  rw [addNode_nodes, addNode_nodes]
  exact .inr (.inr h)

theorem nodes_mono_addPreferred {g : Graph} {n a b : String} {info : JoinInfo} (h : n ∈ g.nodes) :
    n ∈ (addPreferred g a b info).nodes := by
  unfold addPreferred
  split
  · split
    · exact nodes_mono_addEdge h
    · exact h
  · exact nodes_mono_addEdge h

theorem buildView_nodes {views : List GView} {refs : List ((String × String) × JoinInfo)}
    {g g' : Graph} {v : GView} (h : buildView views refs g v = .ok g') :
    v.name ∈ g'.nodes ∧ ∀ n ∈ g.nodes, n ∈ g'.nodes := by
  have key : ∀ n, n ∈ (addNode g v.name).nodes → n ∈ g'.nodes := by
    intro n hn
    refine foldRes_inv (fun g => n ∈ g.nodes) ?_ _ _ g' ?_ h
    · intro b a b' hP hf
      exact foldRes_inv (fun g => n ∈ g.nodes)
        (fun b a b' hP h => considerJoin_inv (fun g => n ∈ g.nodes)
          (fun _ _ _ _ h => nodes_mono_addPreferred h) hP h)
        _ b b' hP hf
    · unfold addExplicit
      generalize refs.filter _ = l
      have : ∀ (l : List ((String × String) × JoinInfo)) (g : Graph), n ∈ g.nodes →
          n ∈ (l.foldl (fun g p => addEdge g v.name p.1.2 p.2) g).nodes := by
        intro l
        induction l with
        | nil => intro g hg; exact hg
        | cons p l ih => intro g hg; exact ih _ (nodes_mono_addEdge hg)
      exact this l _ hn
  exact ⟨key _ ((addNode_nodes _ _ _).mpr (.inl rfl)),
    fun n hn => key n ((addNode_nodes _ _ _).mpr (.inr hn))⟩

theorem buildGraph_nodes {views : List GView} {g : Graph} (h : buildGraph views = .ok g) :
    ∀ v ∈ views, v.name ∈ g.nodes := by
  have key : ∀ (vs : List GView) (seen : List String) (g g' : Graph),
      buildGo views (referenceMap views) seen g vs = .ok g' →
      (∀ n ∈ g.nodes, n ∈ g'.nodes) ∧ ∀ v ∈ vs, v.name ∈ g'.nodes := by
    intro vs
    induction vs with
    | nil => intro seen g g' h; simp only [buildGo] at h; cases h; simp
    | cons v vs ih =>
      intro seen g g' h
      simp only [buildGo] at h
      split at h
      · cases h
      · cases hb : buildView views (referenceMap views) g v with
        | error e => rw [hb] at h; cases h
        | ok g1 =>
          rw [hb] at h
          obtain ⟨b1, b2⟩ := buildView_nodes hb
          obtain ⟨h1, h2⟩ := ih _ g1 g' h
          refine ⟨fun n hn => h1 n (b2 n hn), ?_⟩
          intro w hw
          simp only [List.mem_cons] at hw
          rcases hw with rfl | hw
          · exact h1 _ b1
          · exact h2 w hw
  exact (key views [] {} g h).2

/-! ### Errors -/

theorem candidate_ok_of {views : List GView} (h : (views.map (·.name)).Nodup) {v : GView} {i : Ident}
    (hok : ∀ w ∈ views, ∀ j, v.name ≠ w.name → FirstNamed w i.name j →
      (∃ k ∈ w.idents, k.name = i.name ∧ NotJoin k.kind) → Lets i.onlyJoin w.name →
      Lets j.onlyJoin v.name → ∃ r, RelOf i.kind j.kind r) (x : String)
    (hx : x ∈ identifierMap views i.name) : ∃ o, candidate views v.name i x = .ok o := by
  obtain ⟨w, hw, rfl, hk⟩ := (mem_identifierMap views i.name x).mp hx
  unfold candidate
  by_cases h1 : w.name ≠ v.name ∧ allowedJoin i.onlyJoin w.name = true
  · rw [if_pos h1, (find_view h w w hw).mpr rfl]
    simp only
    obtain ⟨k, hk1, hk2, hk3⟩ := hk
    cases hf : w.idents.find? (fun x => decide (x.name = i.name)) with
    | none =>
      have := List.find?_eq_none.mp hf k hk1
      simp [hk2] at this
    | some j =>
      simp only
      by_cases h2 : (!allowedJoin j.onlyJoin v.name) = true
      · rw [if_pos h2]; exact ⟨_, rfl⟩
      · rw [if_neg h2]
        obtain ⟨r, hr⟩ := hok w hw j (fun c => h1.1 c.symm) ((find_firstNamed w i.name j).mp hf)
          ⟨k, hk1, hk2, hk3⟩ ((allowedJoin_iff _ _).mp h1.2)
          ((allowedJoin_iff _ _).mp (by simpa using h2))
        rw [(deriveRel_iff _ _ _).mpr hr]
        simp only
        split <;> exact ⟨_, rfl⟩
  · rw [if_neg h1]; exact ⟨_, rfl⟩

theorem foldRes_ok {α β : Type} {f : β → α → Res β} (l : List α)
    (h : ∀ a ∈ l, ∀ b, ∃ b', f b a = .ok b') : ∀ b, ∃ b', foldRes f b l = .ok b' := by
  induction l with
  | nil => intro b; exact ⟨b, rfl⟩
  | cons a l ih =>
    intro b
    obtain ⟨b1, h1⟩ := h a (by simp) b
    obtain ⟨b2, h2⟩ := ih (fun a ha => h a (by simp [ha])) b1
    exact ⟨b2, by simp only [foldRes, h1, h2]⟩

/-- The identifiers that a build would have to match have a known relationship. -/
def Determined (views : List GView) : Prop :=
  ∀ v ∈ views, ∀ i ∈ v.idents, ∀ w ∈ views, ∀ j, v.name ≠ w.name → FirstNamed w i.name j →
    (∃ k ∈ w.idents, k.name = i.name ∧ NotJoin k.kind) → Lets i.onlyJoin w.name →
    Lets j.onlyJoin v.name → ∃ r, RelOf i.kind j.kind r

theorem buildGraph_ok {views : List GView} (h : (views.map (·.name)).Nodup)
    (hd : Determined views) : ∃ g, buildGraph views = .ok g := by
  have key : ∀ (vs : List GView) (seen : List String) (g : Graph), (vs.map (·.name)).Nodup →
      (∀ v ∈ vs, v ∈ views ∧ v.name ∉ seen) →
      ∃ g', buildGo views (referenceMap views) seen g vs = .ok g' := by
    intro vs
    induction vs with
    | nil => intro seen g _ _; exact ⟨g, rfl⟩
    | cons v vs ih =>
      intro seen g hn hv
      simp only [List.map_cons, List.nodup_cons, List.mem_map, not_exists, not_and] at hn
      obtain ⟨hvv, hvs⟩ := hv v (by simp)
      have hb : ∃ g1, buildView views (referenceMap views) g v = .ok g1 := by
        apply foldRes_ok
        intro i hi b
        apply foldRes_ok
        intro w hw b'
        obtain ⟨o, ho⟩ := candidate_ok_of h (v := v) (i := i)
          (fun w hw j h1 h2 h3 h4 h5 => hd v hvv i hi w hw j h1 h2 h3 h4 h5) w hw
        rw [considerJoin_eq, ho]
        cases o <;> exact ⟨_, rfl⟩
      obtain ⟨g1, hb⟩ := hb
      simp only [buildGo, if_neg hvs, hb]
      refine ih _ g1 hn.2 (fun w hw => ⟨(hv w (by simp [hw])).1, ?_⟩)
      simp only [List.mem_cons, not_or]
      exact ⟨fun c => hn.1 w hw c, (hv w (by simp [hw])).2⟩
  exact key views [] {} h (fun v hv => ⟨hv, by simp⟩)

theorem buildGraph_determined {views : List GView} {g : Graph} (h : buildGraph views = .ok g) :
    Determined views := by
  obtain ⟨hn, -, h3, -⟩ := buildGo_spec (referenceMap_nodup views) views [] {} g h (fun a b _ => rfl)
  intro v hv i hi w hw j hne hj hk h1 h2
  obtain ⟨o, ho⟩ := h3 v hv i hi w.name ((mem_identifierMap _ _ _).mpr ⟨w, hw, rfl, hk⟩)
  unfold candidate at ho
  rw [if_pos ⟨fun c => hne c.symm, (allowedJoin_iff _ _).mpr h1⟩, (find_view hn w w hw).mpr rfl] at ho
  simp only at ho
  rw [(find_firstNamed w i.name j).mpr hj] at ho
  simp only [(allowedJoin_iff _ _).mpr h2, Bool.not_true, Bool.false_eq_true, if_false] at ho
  cases hr : deriveRel i.kind j.kind with
  | error e => rw [hr] at ho; cases ho
  | ok r => exact ⟨r, (deriveRel_iff _ _ _).mp hr⟩

end ML
