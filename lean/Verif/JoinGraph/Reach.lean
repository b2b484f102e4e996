import Verif.JoinGraph.Lemmas
import Std.Data.String.ToNat
/-
Helper lemmas for C16: reachability, strongly connected components, sorting.
-/
set_option autoImplicit false
namespace ML
open Spec

/-! ### Well-formedness of the built graph -/

theorem addNode_nodes (g : Graph) (n m : String) : m ∈ (addNode g n).nodes ↔ m = n ∨ m ∈ g.nodes := by
  unfold addNode
  split
  · rename_i h
    constructor
    · exact .inr
    · rintro (rfl | h')
      · exact h
      · exact h'
  · simp only [List.mem_append, List.mem_singleton]
    exact or_comm

theorem addNode_edges (g : Graph) (n : String) : (addNode g n).edges = g.edges := by
  unfold addNode; split <;> rfl

theorem addNode_nodup {g : Graph} (h : g.nodes.Nodup) (n : String) : (addNode g n).nodes.Nodup := by
  unfold addNode
  split
  · exact h
  · rename_i hn
    simp only [List.nodup_append, List.nodup_cons, List.not_mem_nil, not_false_eq_true,
      List.nodup_nil, and_self, List.mem_singleton, true_and]
    refine ⟨h, ?_⟩
    rintro a ha b rfl c
    exact hn (c ▸ ha)

theorem wf_addNode {g : Graph} (h : WF g) (n : String) : WF (addNode g n) := by
  constructor
  · intro a b he
    unfold HasEdge at he
    rw [addNode_edges] at he
    exact (addNode_nodes g n a).mpr (.inr (h.src a b he))
  · intro a b he
    unfold HasEdge at he
    rw [addNode_edges] at he
    exact (addNode_nodes g n b).mpr (.inr (h.dst a b he))
  · exact addNode_nodup h.nodup n
  · rw [addNode_edges]; exact h.edges

theorem wf_addEdge {g : Graph} (h : WF g) (a b : String) (info : JoinInfo) :
    WF (addEdge g a b info) := by
  have h2 := wf_addNode (wf_addNode h a) b
  have hn : ∀ m, m ∈ (addEdge g a b info).nodes ↔ m = b ∨ m = a ∨ m ∈ g.nodes := by
    intro m
    show m ∈ (addNode (addNode g a) b).nodes ↔ _
    rw [addNode_nodes, addNode_nodes]
  have he : ∀ x y, HasEdge (addEdge g a b info) x y ↔ (x, y) = (a, b) ∨ HasEdge g x y := by
    intro x y
    show (x, y) ∈ (dictSet (addNode (addNode g a) b).edges (a, b) info).map (·.1) ↔ _
    rw [dictSet_keys, addNode_edges, addNode_edges]
    rfl
  constructor
  · intro x y hxy
    rw [hn]
    rcases (he x y).mp hxy with e | e
    · cases e; simp
    · exact .inr (.inr (h.src x y e))
  · intro x y hxy
    rw [hn]
    rcases (he x y).mp hxy with e | e
    · cases e; simp
    · exact .inr (.inr (h.dst x y e))
  · exact h2.nodup
  · exact dictSet_nodup h2.edges _ _

theorem wf_addPreferred {g : Graph} (h : WF g) (a b : String) (info : JoinInfo) :
    WF (addPreferred g a b info) := by
  unfold addPreferred
  split
  · split
    · exact wf_addEdge h a b _
    · exact h
  · exact wf_addEdge h a b info

theorem foldRes_inv {α β : Type} {f : β → α → Res β} (P : β → Prop)
    (hf : ∀ b a b', P b → f b a = .ok b' → P b') (l : List α) :
    ∀ b b', P b → foldRes f b l = .ok b' → P b' := by
  induction l with
  | nil => intro b b' hb h; simp only [foldRes] at h; cases h; exact hb
  | cons a l ih =>
    intro b b' hb h
    simp only [foldRes] at h
    cases h1 : f b a with
    | error e => rw [h1] at h; cases h
    | ok b1 => rw [h1] at h; exact ih b1 b' (hf b a b1 hb h1) h

theorem considerJoin_inv (P : Graph → Prop) (hP : ∀ g a b info, P g → P (addPreferred g a b info))
    {views : List GView} {v : String} {i : Ident} {g g' : Graph} {w : String} (hg : P g)
    (h : considerJoin views v i g w = .ok g') : P g' := by
  rw [considerJoin_eq] at h
  split at h
  · cases h
  · cases h; exact hg
  · cases h; exact hP _ _ _ _ hg

theorem buildGraph_inv (P : Graph → Prop) (h0 : P {}) (hnode : ∀ g n, P g → P (addNode g n))
    (hedge : ∀ g a b info, P g → P (addEdge g a b info))
    (hpref : ∀ g a b info, P g → P (addPreferred g a b info))
    {views : List GView} {g : Graph} (h : buildGraph views = .ok g) : P g := by
  have key : ∀ (vs : List GView) (seen : List String) (g g' : Graph), P g →
      buildGo views (referenceMap views) seen g vs = .ok g' → P g' := by
    intro vs
    induction vs with
    | nil => intro seen g g' hg h; simp only [buildGo] at h; cases h; exact hg
    | cons v vs ih =>
      intro seen g g' hg h
      simp only [buildGo] at h
      split at h
      · cases h
      · cases hb : buildView views (referenceMap views) g v with
        | error e => rw [hb] at h; cases h
        | ok g1 =>
          rw [hb] at h
          refine ih _ g1 g' ?_ h
          refine foldRes_inv P ?_ _ _ g1 ?_ hb
          · intro b a b' hP hf
            exact foldRes_inv P (fun b a b' hP h => considerJoin_inv P hpref hP h) _ b b' hP hf
          · unfold addExplicit
            generalize (referenceMap views).filter _ = l
            have : ∀ (l : List ((String × String) × JoinInfo)) (g : Graph), P g →
                P (l.foldl (fun g p => addEdge g v.name p.1.2 p.2) g) := by
              intro l
              induction l with
              | nil => intro g hg; exact hg
              | cons p l ih => intro g hg; exact ih _ (hedge _ _ _ _ hg)
            exact this l _ (hnode _ _ hg)
  exact key views [] {} g h0 h

theorem wf_empty : WF {} :=
  ⟨fun _ _ h => (nomatch h), fun _ _ h => (nomatch h), List.nodup_nil, List.nodup_nil⟩

theorem buildGraph_wf {views : List GView} {g : Graph} (h : buildGraph views = .ok g) : WF g :=
  buildGraph_inv WF wf_empty (fun _ n h => wf_addNode h n) (fun _ _ _ _ h => wf_addEdge h _ _ _)
    (fun _ _ _ _ h => wf_addPreferred h _ _ _) h

/-! ### Reachability -/

theorem Spec.Reach.trans {g : Graph} {a b c : String} (h1 : Reach g a b) (h2 : Reach g b c) :
    Reach g a c := by
  induction h2 with
  | refl => exact h1
  | step _ he ih => exact .step ih he

theorem expand_fold (es : List ((String × String) × JoinInfo)) : ∀ s : List String,
    (∀ x ∈ s, x ∈ es.foldl (fun s e => if e.1.1 ∈ s ∧ e.1.2 ∉ s then s ++ [e.1.2] else s) s) ∧
    (s.Nodup → (es.foldl (fun s e => if e.1.1 ∈ s ∧ e.1.2 ∉ s then s ++ [e.1.2] else s) s).Nodup) ∧
    s.length ≤ (es.foldl (fun s e => if e.1.1 ∈ s ∧ e.1.2 ∉ s then s ++ [e.1.2] else s) s).length ∧
    ((es.foldl (fun s e => if e.1.1 ∈ s ∧ e.1.2 ∉ s then s ++ [e.1.2] else s) s).length = s.length →
      ∀ e ∈ es, e.1.1 ∈ s → e.1.2 ∈ s) ∧
    ((∀ e ∈ es, e.1.1 ∈ s → e.1.2 ∈ s) →
      es.foldl (fun s e => if e.1.1 ∈ s ∧ e.1.2 ∉ s then s ++ [e.1.2] else s) s = s) := by
  induction es with
  | nil => intro s; simp
  | cons e es ih =>
    intro s
    simp only [List.foldl_cons]
    by_cases h : e.1.1 ∈ s ∧ e.1.2 ∉ s
    · rw [if_pos h]
      obtain ⟨h1, h2, h3, h4, -⟩ := ih (s ++ [e.1.2])
      refine ⟨fun x hx => h1 x (by simp [hx]), ?_, ?_, ?_, ?_⟩
      · intro hn
        apply h2
        simp only [List.nodup_append, List.nodup_cons, List.not_mem_nil, not_false_eq_true,
          List.nodup_nil, and_self, List.mem_singleton, true_and]
        refine ⟨hn, ?_⟩
        rintro a ha b rfl c
        exact h.2 (c ▸ ha)
      · simp only [List.length_append, List.length_singleton] at h3; omega
      · intro hl
        simp only [List.length_append, List.length_singleton] at h3
        omega
      · intro hc
        exact absurd (hc e (by simp) h.1) h.2
    · rw [if_neg h]
      obtain ⟨h1, h2, h3, h4, h5⟩ := ih s
      refine ⟨h1, h2, h3, ?_, ?_⟩
      · intro hl e' he'
        simp only [List.mem_cons] at he'
        rcases he' with rfl | he'
        · intro hs
          by_cases hd : e'.1.2 ∈ s
          · exact hd
          · exact absurd ⟨hs, hd⟩ h
        · exact h4 hl e' he'
      · intro hc; exact h5 (fun e' he' => hc e' (by simp [he']))

/-- Everything added by one round is a target of an edge from something reachable. -/
theorem expand_sound (g : Graph) (P : String → Prop) (hP : ∀ a b, P a → HasEdge g a b → P b)
    (s : List String) (hs : ∀ x ∈ s, P x) : ∀ x ∈ expandOnce g s, P x := by
  have : ∀ (es : List ((String × String) × JoinInfo)), (∀ e ∈ es, e ∈ g.edges) →
      ∀ s : List String, (∀ x ∈ s, P x) →
      ∀ x ∈ es.foldl (fun s e => if e.1.1 ∈ s ∧ e.1.2 ∉ s then s ++ [e.1.2] else s) s, P x := by
    intro es
    induction es with
    | nil => intro _ s hs; exact hs
    | cons e es ih =>
      intro he s hs
      simp only [List.foldl_cons]
      apply ih (fun e' he' => he e' (by simp [he']))
      split
      · rename_i h
        intro x hx
        simp only [List.mem_append, List.mem_singleton] at hx
        rcases hx with hx | rfl
        · exact hs x hx
        · exact hP _ _ (hs _ h.1) (List.mem_map.mpr ⟨e, he e (by simp), rfl⟩)
      · exact hs
  exact this g.edges (fun _ h => h) s hs

theorem nodup_length_le {α : Type} [DecidableEq α] {s : List α} (hn : s.Nodup) :
    ∀ {t : List α}, (∀ x ∈ s, x ∈ t) → s.length ≤ t.length := by
  induction s with
  | nil => intro t _; simp
  | cons x s ih =>
    intro t h
    simp only [List.nodup_cons] at hn
    have hx : x ∈ t := h x (by simp)
    have := ih hn.2 (t := t.erase x) (by
      intro y hy
      have hne : y ≠ x := fun c => hn.1 (c ▸ hy)
      exact (List.mem_erase_of_ne hne).mpr (h y (by simp [hy])))
    rw [List.length_erase_of_mem hx] at this
    have hpos := List.length_pos_of_mem hx
    simp only [List.length_cons]
    omega

/-- Closed under following edges. -/
def ClosedSet (g : Graph) (s : List String) : Prop := ∀ a b, a ∈ s → HasEdge g a b → b ∈ s

theorem closed_iff (g : Graph) (s : List String) :
    ClosedSet g s ↔ ∀ e ∈ g.edges, e.1.1 ∈ s → e.1.2 ∈ s := by
  constructor
  · intro h e he hs
    exact h e.1.1 e.1.2 hs (List.mem_map.mpr ⟨e, he, rfl⟩)
  · intro h a b ha hab
    obtain ⟨e, he, heq⟩ := List.mem_map.mp hab
    have h1 : e.1.1 = a := congrArg Prod.fst heq
    have h2 : e.1.2 = b := congrArg Prod.snd heq
    rw [← h2]
    exact h e he (h1 ▸ ha)

theorem reachGo_spec (g : Graph) (hw : WF g) : ∀ (n : Nat) (s : List String), s.Nodup →
    (∀ x ∈ s, x ∈ g.nodes) →
    (∀ x ∈ s, x ∈ reachGo g n s) ∧
    (∀ x ∈ reachGo g n s, ∃ y ∈ s, Reach g y x) ∧
    (g.nodes.length < n + s.length → ClosedSet g (reachGo g n s)) := by
  intro n
  induction n with
  | zero =>
    intro s hn hs
    refine ⟨fun x hx => hx, fun x hx => ⟨x, hx, .refl x⟩, ?_⟩
    intro hl
    have := nodup_length_le hn hs
    omega
  | succ n ih =>
    intro s hn hs
    obtain ⟨e1, e2, e3, e4, e5⟩ := expand_fold g.edges s
    have e1 : ∀ x ∈ s, x ∈ expandOnce g s := e1
    have e2 : (expandOnce g s).Nodup := e2 hn
    have e3 : s.length ≤ (expandOnce g s).length := e3
    have e4 : (expandOnce g s).length = s.length → ∀ e ∈ g.edges, e.1.1 ∈ s → e.1.2 ∈ s := e4
    have e5 : (∀ e ∈ g.edges, e.1.1 ∈ s → e.1.2 ∈ s) → expandOnce g s = s := e5
    have hs' : ∀ x ∈ expandOnce g s, x ∈ g.nodes :=
      expand_sound g (· ∈ g.nodes) (fun a b _ h => hw.dst a b h) s hs
    obtain ⟨i1, i2, i3⟩ := ih (expandOnce g s) e2 hs'
    simp only [reachGo]
    refine ⟨fun x hx => i1 x (e1 x hx), ?_, ?_⟩
    · intro x hx
      obtain ⟨y, hy, hr⟩ := i2 x hx
      have := expand_sound g (fun x => ∃ z ∈ s, Reach g z x)
        (fun a b ⟨z, hz, hr⟩ he => ⟨z, hz, .step hr he⟩) s (fun x hx => ⟨x, hx, .refl x⟩) y hy
      obtain ⟨z, hz, hr'⟩ := this
      exact ⟨z, hz, hr'.trans hr⟩
    · intro hl
      by_cases hlen : (expandOnce g s).length = s.length
      · have hc := e4 hlen
        have : ∀ m, reachGo g m s = s := by
          intro m
          induction m with
          | zero => rfl
          | succ m ihm => simp only [reachGo, e5 hc, ihm]
        rw [e5 hc, this]
        exact (closed_iff g s).mpr hc
      · apply i3; omega

theorem mem_reachSet (g : Graph) (hw : WF g) (s : List String) (hn : s.Nodup)
    (hs : ∀ x ∈ s, x ∈ g.nodes) (x : String) : x ∈ reachSet g s ↔ ∃ y ∈ s, Reach g y x := by
  obtain ⟨h1, h2, h3⟩ := reachGo_spec g hw (g.nodes.length + 1) s hn hs
  constructor
  · exact h2 x
  · rintro ⟨y, hy, hr⟩
    have hc : ClosedSet g (reachSet g s) := h3 (by omega)
    induction hr with
    | refl => exact h1 y hy
    | step _ he ih => exact hc _ _ ih he

theorem Spec.Reach.node {g : Graph} (hw : WF g) {a b : String} (h : Reach g a b) (ha : a ∈ g.nodes) :
    b ∈ g.nodes := by
  cases h with
  | refl => exact ha
  | step _ he => exact hw.dst _ _ he

theorem Spec.Mutual.symm {g : Graph} {a b : String} (h : Mutual g a b) : Mutual g b a := ⟨h.2, h.1⟩
theorem Spec.Mutual.trans {g : Graph} {a b c : String} (h : Mutual g a b) (k : Mutual g b c) :
    Mutual g a c := ⟨h.1.trans k.1, k.2.trans h.2⟩

/-- The class of a node. -/
def classOf (g : Graph) (n : String) : List String :=
  g.nodes.filter (fun m => (reachSet g [n]).contains m && (reachSet g [m]).contains n)

theorem mem_classOf {g : Graph} (hw : WF g) {n : String} (hn : n ∈ g.nodes) (m : String) :
    m ∈ classOf g n ↔ m ∈ g.nodes ∧ Mutual g n m := by
  simp only [classOf, List.mem_filter, Bool.and_eq_true, List.contains_iff_mem]
  refine and_congr_right (fun hm => ?_)
  rw [mem_reachSet g hw [n] (by simp) (by simpa using hn),
    mem_reachSet g hw [m] (by simp) (by simpa using hm)]
  simp [Mutual]

theorem sccGo_spec {g : Graph} (hw : WF g) (ns : List String) : ∀ (seen : List String),
    (∀ n ∈ ns, n ∈ g.nodes) →
    (∀ n ∈ seen, ∀ m, Mutual g n m → m ∈ g.nodes → m ∈ seen) →
    (∀ n ∈ ns, n ∈ seen ∨ ∃ c ∈ sccGo g seen ns, n ∈ c) ∧
    (∀ c ∈ sccGo g seen ns, ∃ n ∈ g.nodes, n ∉ seen ∧ c = classOf g n) ∧
    (sccGo g seen ns).Pairwise (fun c d => ∀ n ∈ c, n ∉ d) ∧
    (∀ c ∈ sccGo g seen ns, ∀ n ∈ c, n ∉ seen) := by
  induction ns with
  | nil => intro seen _ _; simp [sccGo]
  | cons n ns ih =>
    intro seen hns hcl
    by_cases h : n ∈ seen
    · obtain ⟨h1, h2, h3, h4⟩ := ih seen (fun m hm => hns m (by simp [hm])) hcl
      simp only [sccGo, if_pos h]
      refine ⟨?_, h2, h3, h4⟩
      intro m hm
      simp only [List.mem_cons] at hm
      rcases hm with rfl | hm
      · exact .inl h
      · exact h1 m hm
    · have hn : n ∈ g.nodes := hns n (by simp)
      have hcl' : ∀ a ∈ classOf g n ++ seen, ∀ m, Mutual g a m → m ∈ g.nodes →
          m ∈ classOf g n ++ seen := by
        intro a ha m hm hmn
        simp only [List.mem_append] at ha ⊢
        rcases ha with ha | ha
        · exact .inl ((mem_classOf hw hn m).mpr ⟨hmn, Mutual.trans ((mem_classOf hw hn a).mp ha).2 hm⟩)
        · exact .inr (hcl a ha m hm hmn)
      obtain ⟨h1, h2, h3, h4⟩ := ih (classOf g n ++ seen) (fun m hm => hns m (by simp [hm])) hcl'
      simp only [sccGo, if_neg h]
      rw [show (g.nodes.filter (fun m => (reachSet g [n]).contains m && (reachSet g [m]).contains n)) =
        classOf g n from rfl]
      refine ⟨?_, ?_, ?_, ?_⟩
      · intro m hm
        simp only [List.mem_cons] at hm
        rcases hm with rfl | hm
        · exact .inr ⟨_, by simp, (mem_classOf hw hn m).mpr ⟨hn, .refl m, .refl m⟩⟩
        · rcases h1 m hm with hx | ⟨c, hc, hx⟩
          · simp only [List.mem_append] at hx
            rcases hx with hx | hx
            · exact .inr ⟨_, by simp, hx⟩
            · exact .inl hx
          · exact .inr ⟨c, by simp [hc], hx⟩
      · intro c hc
        simp only [List.mem_cons] at hc
        rcases hc with rfl | hc
        · exact ⟨n, hn, h, rfl⟩
        · obtain ⟨m, hm, hms, e⟩ := h2 c hc
          exact ⟨m, hm, fun x => hms (by simp [x]), e⟩
      · rw [List.pairwise_cons]
        refine ⟨?_, h3⟩
        intro d hd m hm hmd
        exact h4 d hd m hmd (by simp [hm])
      · intro c hc m hm hs
        simp only [List.mem_cons] at hc
        rcases hc with rfl | hc
        · have := (mem_classOf hw hn m).mp hm
          exact h (hcl m hs n (Mutual.symm this.2) hn)
        · exact h4 c hc m hm (by simp [hs])

theorem scc_isScc {g : Graph} (hw : WF g) : IsScc g (scc g) := by
  obtain ⟨h1, h2, h3, -⟩ := sccGo_spec hw g.nodes [] (fun _ h => h) (by simp)
  constructor
  · intro n hn
    rcases h1 n hn with h | h
    · cases h
    · exact h
  · intro c hc n hn
    obtain ⟨m, hm, -, rfl⟩ := h2 c hc
    exact ((mem_classOf hw hm n).mp hn).1
  · intro c hc e
    obtain ⟨m, hm, -, rfl⟩ := h2 c hc
    have := (mem_classOf hw hm m).mpr ⟨hm, .refl m, .refl m⟩
    rw [e] at this
    cases this
  · intro c hc
    obtain ⟨m, hm, -, rfl⟩ := h2 c hc
    exact hw.nodup.filter _
  · intro c hc m hm n hn
    obtain ⟨k, hk, -, rfl⟩ := h2 c hc
    have hkm := ((mem_classOf hw hk m).mp hm).2
    rw [mem_classOf hw hk n]
    constructor
    · exact fun h => Mutual.trans (Mutual.symm hkm) h.2
    · exact fun h => ⟨hn, Mutual.trans hkm h⟩
  · exact h3

/-! ### Sorting -/

theorem mem_insertStr (x y : String) (l : List String) : y ∈ insertStr x l ↔ y = x ∨ y ∈ l := by
  induction l with
  | nil => simp [insertStr]
  | cons z zs ih =>
    simp only [insertStr]
    split
    · simp
    · simp only [List.mem_cons, ih]
      constructor
      · rintro (h | h | h) <;> simp [h]
      · rintro (h | h | h) <;> simp [h]

theorem mem_sortStr (y : String) (l : List String) : y ∈ sortStr l ↔ y ∈ l := by
  induction l with
  | nil => simp [sortStr]
  | cons x xs ih =>
    have : sortStr (x :: xs) = insertStr x (sortStr xs) := rfl
    rw [this, mem_insertStr, ih, List.mem_cons]

theorem nodup_insertStr {x : String} {l : List String} (h : l.Nodup) (hx : x ∉ l) :
    (insertStr x l).Nodup := by
  induction l with
  | nil => simp [insertStr]
  | cons y ys ih =>
    simp only [List.nodup_cons] at h
    simp only [List.mem_cons, not_or] at hx
    simp only [insertStr]
    split
    · simp only [List.nodup_cons, List.mem_cons, not_or]
      exact ⟨⟨hx.1, hx.2⟩, h⟩
    · simp only [List.nodup_cons]
      refine ⟨?_, ih h.2 hx.2⟩
      rw [mem_insertStr]
      rintro (c | c)
      · exact hx.1 c.symm
      · exact h.1 c

theorem nodup_sortStr {l : List String} (h : l.Nodup) : (sortStr l).Nodup := by
  induction l with
  | nil => exact List.nodup_nil
  | cons x xs ih =>
    simp only [List.nodup_cons] at h
    exact nodup_insertStr (ih h.2) (fun c => h.1 ((mem_sortStr x xs).mp c))

theorem sorted_insertStr {x : String} {l : List String} (h : l.Pairwise (· ≤ ·)) :
    (insertStr x l).Pairwise (· ≤ ·) := by
  induction l with
  | nil => simp [insertStr]
  | cons y ys ih =>
    rw [List.pairwise_cons] at h
    simp only [insertStr]
    split
    · rename_i hle
      rw [List.pairwise_cons]
      refine ⟨?_, List.pairwise_cons.mpr h⟩
      intro z hz
      simp only [List.mem_cons] at hz
      rcases hz with rfl | hz
      · exact hle
      · exact String.le_trans hle (h.1 z hz)
    · rename_i hle
      rw [List.pairwise_cons]
      refine ⟨?_, ih h.2⟩
      intro z hz
      rw [mem_insertStr] at hz
      rcases hz with rfl | hz
      · rcases String.le_total z y with h' | h'
        · exact absurd h' hle
        · exact h'
      · exact h.1 z hz

theorem sorted_sortStr (l : List String) : (sortStr l).Pairwise (· ≤ ·) := by
  induction l with
  | nil => exact .nil
  | cons x xs ih => exact sorted_insertStr ih

theorem mem_insertComp (x y : List String) (l : List (List String)) :
    y ∈ insertComp x l ↔ y = x ∨ y ∈ l := by
  induction l with
  | nil => simp [insertComp]
  | cons z zs ih =>
    simp only [insertComp]
    split
    · simp
    · simp only [List.mem_cons, ih]
      constructor
      · rintro (h | h | h) <;> simp [h]
      · rintro (h | h | h) <;> simp [h]

theorem pairwise_insertComp {R : List String → List String → Prop} (hsym : ∀ a b, R a b → R b a)
    {x : List String} {l : List (List String)} (h : l.Pairwise R) (hx : ∀ y ∈ l, R x y) :
    (insertComp x l).Pairwise R := by
  induction l with
  | nil => simp [insertComp]
  | cons y ys ih =>
    rw [List.pairwise_cons] at h
    simp only [insertComp]
    split
    · rw [List.pairwise_cons]
      exact ⟨hx, List.pairwise_cons.mpr h⟩
    · rw [List.pairwise_cons]
      refine ⟨?_, ih h.2 (fun z hz => hx z (by simp [hz]))⟩
      intro z hz
      rw [mem_insertComp] at hz
      rcases hz with rfl | hz
      · exact hsym _ _ (hx y (by simp))
      · exact h.1 z hz

theorem mem_sortComponents (comps : List (List String)) (d : List String) :
    d ∈ sortComponents comps ↔ ∃ c ∈ comps, d = sortStr c := by
  unfold sortComponents
  induction comps with
  | nil => simp
  | cons c cs ih =>
    simp only [List.map_cons, List.foldr_cons, mem_insertComp, List.mem_cons, ih]
    constructor
    · rintro (rfl | ⟨c', hc', rfl⟩)
      · exact ⟨c, .inl rfl, rfl⟩
      · exact ⟨c', .inr hc', rfl⟩
    · rintro ⟨c', rfl | hc', rfl⟩
      · exact .inl rfl
      · exact .inr ⟨c', hc', rfl⟩

theorem sortComponents_disjoint {comps : List (List String)}
    (h : comps.Pairwise (fun c d => ∀ n ∈ c, n ∉ d)) :
    (sortComponents comps).Pairwise (fun c d => ∀ n ∈ c, n ∉ d) := by
  unfold sortComponents
  induction comps with
  | nil => exact .nil
  | cons c cs ih =>
    rw [List.pairwise_cons] at h
    simp only [List.map_cons, List.foldr_cons]
    refine pairwise_insertComp (fun a b hab n hn hna => hab n hna hn) (ih h.2) ?_
    intro d hd n hn
    rw [mem_sortStr] at hn
    obtain ⟨c', hc', rfl⟩ := (mem_sortComponents cs d).mp hd
    rw [mem_sortStr]
    exact h.1 c' hc' n hn

theorem subqueryName_inj {i j : Nat} (h : subqueryName i = subqueryName j) : i = j := by
  unfold subqueryName at h
  have h2 : i.repr = j.repr := by
    have := congrArg String.toList h
    simp only [String.toList_append] at this
    exact String.toList_inj.mp (List.append_cancel_left this)
  exact Nat.repr_injective h2

end ML
